import Verif.Model.Extract
/-!
# Decimal literals and conversions, independently of the implementation
-/
namespace Ssp

/-- The values an integer type can represent. -/
def IntTy.Represents (t : IntTy) (n : Int) : Prop :=
  if t.signed then -(2 : Int) ^ (t.bits - 1) ≤ n ∧ n < (2 : Int) ^ (t.bits - 1)
  else 0 ≤ n ∧ n < (2 : Int) ^ t.bits

/-- `Digits ds n`: `ds` is a non-empty string of decimal digits with value `n`. -/
inductive Digits : Bytes → Nat → Prop
  | one {k : Nat} : k < 10 → Digits [UInt8.ofNat (48 + k)] k
  | snoc {ds : Bytes} {n k : Nat} : Digits ds n → k < 10 → Digits (ds ++ [UInt8.ofNat (48 + k)]) (10 * n + k)

/-- `Literal signed s n`: `s` is a decimal literal with value `n`: digits, with a minus sign in front only
when `signed`. -/
inductive Literal (signed : Bool) : Bytes → Int → Prop
  | nat {ds : Bytes} {n : Nat} : Digits ds n → Literal signed ds n
  | neg {ds : Bytes} {n : Nat} : signed = true → Digits ds n → Literal signed (45 :: ds) (-(n : Int))

/-- The usual decimal text of an integer. -/
def decimal (n : Int) : Bytes := if n < 0 then 45 :: dec n.natAbs else dec n.natAbs

/-- The conversion of a column with text `s` to the type `t`: what `extract` stores when it succeeds. -/
def conv (t : Ty) (s : Bytes) : Option Val :=
  match extract (s ++ [NUL]) 0 s.length t t.dflt with
  | some (true, v) => some v
  | _ => none

end Ssp
