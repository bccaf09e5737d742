import Verif.Model.Converter
import Verif.Spec.Api
import Verif.Spec.Number
/-!
# What a caller observes of a conversion
-/
namespace Ssp

/-- The call returned the values `vs` and `valid()` holds. -/
def Yields (c : Cfg) (r : Res Conv (List Val)) (vs : List Val) : Prop :=
  ∃ s', r = .ok vs s' ∧ Conv.valid c s' = true

/-- The call reported the error `msg` in the way of the setup's error mode: an exception with this text,
this `error_msg()`, or just `!valid()`. -/
def Fails (c : Cfg) (r : Res Conv (List Val)) (msg : Bytes) : Prop :=
  match c.mode with
  | .throw => ∃ s', r = .exc msg s'
  | .string => ∃ vs s', r = .ok vs s' ∧ Conv.valid c s' = false ∧ s'.err.msg = msg
  | .bool => ∃ vs s', r = .ok vs s' ∧ Conv.valid c s' = false

/-- `Passes r s ov`: a column with the text `s` satisfies the requested type `r`; `ov` is the value it
contributes (`none` for `void`). -/
inductive Passes : Req → Bytes → Option Val → Prop
  | void {s : Bytes} : Passes .void s none
  | ty {t : Ty} {s : Bytes} {v : Val} : conv t s = some v → Passes (.ty t) s (some v)
  | valid {t : Ty} {q : Val → Bool} {msg s : Bytes} {v : Val} : conv t s = some v → q v = true →
      Passes (.valid t q msg) s (some v)

/-- `Fault r i s m`: a column with the text `s`, requested as `r` at position `i` (counted from 0), is
rejected with the message `m`. -/
inductive Fault : Req → Nat → Bytes → Bytes → Prop
  | ty {t : Ty} {i : Nat} {s : Bytes} : conv t s = none → Fault (.ty t) i s
      (bs "invalid conversion for parameter at column " ++ dec (i + 1) ++ bs ": '" ++ s ++ bs "'")
  | conv {t : Ty} {q : Val → Bool} {msg : Bytes} {i : Nat} {s : Bytes} : conv t s = none → Fault (.valid t q msg) i s
      (bs "invalid conversion for parameter at column " ++ dec (i + 1) ++ bs ": '" ++ s ++ bs "'")
  | valid {t : Ty} {q : Val → Bool} {msg : Bytes} {i : Nat} {s : Bytes} {v : Val} : conv t s = some v → q v = false →
      Fault (.valid t q msg) i s (msg ++ bs " at column " ++ dec (i + 1) ++ bs ": '" ++ s ++ bs "'")

/-- `RowIs rs ss vs`: the columns `ss` satisfy the requested types `rs` one by one, and `vs` are the values of the
non-void ones. -/
inductive RowIs : List Req → List Bytes → List Val → Prop
  | nil : RowIs [] [] []
  | cons {r : Req} {s : Bytes} {ov : Option Val} {rs : List Req} {ss : List Bytes} {vs : List Val} :
      Passes r s ov → RowIs rs ss vs → RowIs (r :: rs) (s :: ss) (ov.toList ++ vs)

/-- `FirstFault rs i ss m`: some column is rejected, and `m` is the message for the first such column
(positions counted from `i`). -/
inductive FirstFault : List Req → Nat → List Bytes → Bytes → Prop
  | here {r : Req} {i : Nat} {s m : Bytes} {rs : List Req} {ss : List Bytes} :
      Fault r i s m → FirstFault (r :: rs) i (s :: ss) m
  | later {r : Req} {i : Nat} {s m : Bytes} {ov : Option Val} {rs : List Req} {ss : List Bytes} :
      Passes r s ov → FirstFault rs (i + 1) ss m → FirstFault (r :: rs) i (s :: ss) m

/-- `Selects sel cols ss`: `ss` are the columns picked by the selection (all of them without a selection). -/
inductive Selects : List Nat → List Bytes → List Bytes → Prop
  | all {cols : List Bytes} : Selects [] cols cols
  | some {sel : List Nat} {cols ss : List Bytes} : sel ≠ [] → ss.length = sel.length →
      (∀ (k i : Nat) (s : Bytes), sel[k]? = some i → cols[i]? = some s → ss[k]? = some s) → Selects sel cols ss

/-- A column selection made by `use_fields`: positions in a header of `ncols` columns. -/
def Conv.SelOk (s : Conv) : Prop := ∀ i ∈ s.mappings, i < s.ncols

end Ssp
