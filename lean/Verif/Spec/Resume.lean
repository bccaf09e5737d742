import Verif.Spec.Parser
/-!
# What is ahead of a parser
-/
namespace Ssp

/-- Without multiline any usable setup and input, with multiline what it needs. -/
def Ctx.Usable (x : Ctx) : Prop := x.Ok ∧ x.cfg.multiline = false ∨ x.MlOk

/-- The calls that read a row, each asking for at least one value.  (`try_next` does not compile with `throw_on_error`.) -/
def Op.ReadsRow (c : Cfg) : Op → Prop
  | .getNext rs => rs ≠ []
  | .chain a as => (∀ b ∈ a :: as, b.reqs ≠ []) ∧ c.mode ≠ .throw
  | _ => False

/-- What is observed of two parsers that started as `s` and `t`: the same results, or an exception of both (its text names
the place, so it may differ); the same `valid()` and `eof()`; and as long as there are rows, they are the same number of
lines and bytes away from where they started. -/
structure SameAhead (s t : Parser) (o o' : Obs) : Prop where
  ret : o.ret = o'.ret ∨ ∃ m m', o.ret = .thrown m ∧ o'.ret = .thrown m'
  valid : o.valid = o'.valid
  eof : o.eof = o'.eof
  line : o.eof = false → ∃ n, o.line = s.line + n ∧ o'.line = t.line + n
  position : o.eof = false → ∃ n, o.position = s.position + n ∧ o'.position = t.position + n

end Ssp
