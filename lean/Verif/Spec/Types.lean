import Verif.Model.Types
import Verif.Spec.Number
/-!
# What the type of a row should be, and which values belong to a type
-/
namespace Ssp.Spec
open Ssp

/-- the types of the values of a row: the requested types that are not void, a restriction stands for the type it restricts -/
def valueTypes : List Req → List Ty
  | [] => []
  | .void :: rs => valueTypes rs
  | .ty t :: rs => t :: valueTypes rs
  | .valid t _ _ :: rs => t :: valueTypes rs

/-- One value is returned as it is, more as a tuple; with no value the call does not compile. -/
def resultType : List Ty → Option (Tp Req)
  | [] => none
  | [t] => some (.base (.ty t))
  | ts => some (.tup (ts.map fun t => .base (.ty t)))

/-- The values of a type.  Of a user defined type the model knows nothing. -/
inductive IsA : Ty → Val → Prop
  | int {t : IntTy} {n : Int} : t.Represents n → IsA (.int t) (.int n)
  | bool (b : Bool) : IsA .bool (.bool b)
  | char (b : Byte) : IsA .char (.char b)
  | str (t : Bytes) : IsA .str (.str t)
  | view (t : Bytes) : IsA .view (.view t)
  | nullopt {t : Ty} : IsA (.opt t) .nullopt
  | engaged {t : Ty} {v : Val} : IsA t v → IsA (.opt t) (.engaged v)
  | alt {ts : List Ty} {i : Nat} {t : Ty} {v : Val} : ts[i]? = some t → IsA t v → IsA (.variant ts) (.alt i v)
  /-- `std::variant<>` does not exist -/
  | noVariant {v : Val} : IsA (.variant []) v
  | custom {d : Val} {f : Bytes → Val → Bool × Val} {v : Val} : IsA (.custom d f) v

/-- a row of values of these types -/
inductive Row : List Ty → List Val → Prop
  | nil : Row [] []
  | cons {t : Ty} {v : Val} {ts : List Ty} {vs : List Val} : IsA t v → Row ts vs → Row (t :: ts) (v :: vs)

end Ssp.Spec
