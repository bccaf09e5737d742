import Verif.Spec.Text
/-!
# Writers: the obvious ways to write a list of strings as a line
-/
namespace Ssp.Text

/-- `f` between quotes `q`: inner quotes doubled, escape characters preceded by `e`. -/
def quoteField (c : Cfg) (q e : Byte) (f : Bytes) : Bytes :=
  q :: f.flatMap (fun x => if x = q then [q, q] else if x ∈ c.escape then [e, x] else [x]) ++ [q]

/-- The characters that have a meaning to the splitter. -/
def special (c : Cfg) (delim : Bytes) (x : Byte) : Bool :=
  x ∈ delim || c.quote == some x || x ∈ c.escape || x ∈ c.trimL || x ∈ c.trimR

/-- `f` with the escape character `e` before every special character. -/
def escapeField (c : Cfg) (delim : Bytes) (e : Byte) (f : Bytes) : Bytes :=
  f.flatMap fun x => if special c delim x then [e, x] else [x]

/-- `Written c delim q e f t`: a writer may write the field `f` as `t`: as it is if it has no special characters and no
line terminators, or between quotes. -/
inductive Written (c : Cfg) (delim : Bytes) (q e : Byte) (f : Bytes) : Bytes → Prop
  | bare : (∀ x ∈ f, special c delim x = false ∧ x ≠ 13 ∧ x ≠ 10) → Written c delim q e f f
  | quoted : Written c delim q e f (quoteField c q e f)

/-- The fields `fs` are written as the texts `ts`, one by one. -/
def WrittenFields (c : Cfg) (delim : Bytes) (q e : Byte) : List Bytes → List Bytes → Prop
  | [], [] => True
  | f :: fs, t :: ts => Written c delim q e f t ∧ WrittenFields c delim q e fs ts
  | _, _ => False

/-- The fields `fs` are written as the row `t`.  A row is not the empty text (a single empty field has to be quoted). -/
def WrittenRow (c : Cfg) (delim : Bytes) (q e : Byte) (fs : List Bytes) (t : Bytes) : Prop :=
  ∃ ts, WrittenFields c delim q e fs ts ∧ t = join delim ts ∧ t ≠ []

end Ssp.Text
