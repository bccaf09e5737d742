import Verif.Spec.Convert
/-!
# What a failed conversion returns
-/
namespace Ssp

/-- `Blank t v`: `v` is the value initialised object `T{}`. -/
inductive Blank : Ty → Val → Prop
  | int {t : IntTy} : Blank (.int t) (.int 0)
  | bool : Blank .bool (.bool false)
  | char : Blank .char (.char 0)
  | str : Blank .str (.str [])
  | view : Blank .view (.view [])
  | opt {t : Ty} : Blank (.opt t) .nullopt
  /-- of a variant: the first alternative, value initialised -/
  | variant {t : Ty} {ts : List Ty} {v : Val} : Blank t v → Blank (.variant (t :: ts)) (.alt 0 v)
  /-- (there is no variant without alternatives) -/
  | noVariant {v : Val} : Blank (.variant []) v
  /-- of a class: what its default constructor makes -/
  | custom {v : Val} {f : Bytes → Val → Bool × Val} : Blank (.custom v f) v

/-- `Blanks rs vs`: a tuple of value initialised objects for the requested types (none for `void`). -/
inductive Blanks : List Req → List Val → Prop
  | nil : Blanks [] []
  | void {rs : List Req} {vs : List Val} : Blanks rs vs → Blanks (.void :: rs) vs
  | ty {t : Ty} {v : Val} {rs : List Req} {vs : List Val} : Blank t v → Blanks rs vs → Blanks (.ty t :: rs) (v :: vs)
  | valid {t : Ty} {q : Val → Bool} {msg : Bytes} {v : Val} {rs : List Req} {vs : List Val} :
      Blank t v → Blanks rs vs → Blanks (.valid t q msg :: rs) (v :: vs)

/-- `Dropped t s v`: `v` is what is left in an object `T{}` after the text `s` could not be converted: numbers, bools and
variants are untouched, a char has been assigned to, an own `ss::extract` may have left anything. -/
inductive Dropped : Ty → Bytes → Val → Prop
  | int {t : IntTy} {s : Bytes} : Dropped (.int t) s (.int 0)
  | bool {s : Bytes} : Dropped .bool s (.bool false)
  | char {b : Byte} {s : Bytes} : Dropped .char (b :: s) (.char b)
  | empty {b : Byte} : Dropped .char [] (.char b)
  | variant {ts : List Ty} {s : Bytes} {v : Val} : Blank (.variant ts) v → Dropped (.variant ts) s v
  | custom {d : Val} {f : Bytes → Val → Bool × Val} {s : Bytes} : Dropped (.custom d f) s (f s d).2

/-- `Refused r s v`: the text `s` is refused for the requested type `r` and `v` is what is returned in its place: a value
which was converted and only then refused by a restriction is returned nevertheless. -/
inductive Refused : Req → Bytes → Val → Prop
  | ty {t : Ty} {s : Bytes} {v : Val} : conv t s = none → Dropped t s v → Refused (.ty t) s v
  | conv {t : Ty} {q : Val → Bool} {msg s : Bytes} {v : Val} : conv t s = none → Dropped t s v → Refused (.valid t q msg) s v
  | valid {t : Ty} {q : Val → Bool} {msg s : Bytes} {v : Val} : conv t s = some v → q v = false →
      Refused (.valid t q msg) s v

/-- `Returned rs ss vs`: the tuple `vs` is what a conversion of the columns `ss` returns when one of them is refused: the
values of the columns before, what the refused column leaves, and value initialised objects behind it. -/
inductive Returned : List Req → List Bytes → List Val → Prop
  | here {r : Req} {s : Bytes} {v : Val} {rs : List Req} {ss : List Bytes} {vs : List Val} :
      Refused r s v → Blanks rs vs → Returned (r :: rs) (s :: ss) (v :: vs)
  | later {r : Req} {s : Bytes} {ov : Option Val} {rs : List Req} {ss : List Bytes} {vs : List Val} :
      Passes r s ov → Returned rs ss vs → Returned (r :: rs) (s :: ss) (ov.toList ++ vs)

end Ssp
