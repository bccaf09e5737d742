import Verif.Spec.Parser
/-!
# Two setups that differ in characters which do not occur
-/
namespace Ssp

/-- The two setups make the same of the character `b`: it is a quote of both or of none, and so on. -/
structure Cfg.AgreeAt (c c' : Cfg) (b : Byte) : Prop where
  quote : c.quote = some b ↔ c'.quote = some b
  escape : b ∈ c.escape ↔ b ∈ c'.escape
  trimLeft : b ∈ c.trimL ↔ b ∈ c'.trimL
  trimRight : b ∈ c.trimR ↔ b ∈ c'.trimR

/-- the same parser (same input, delimiter, error mode, `multiline`, ...) but with other options `quote`, `escape`, `trim_left` and
`trim_right`; `none`/`[]` is an option that is not given -/
def Ctx.withChars (x : Ctx) (quote : Option Byte) (escape trimL trimR : List Byte) : Ctx :=
  { x with cfg := { x.cfg with quote := quote, escape := escape, trimL := trimL, trimR := trimR } }

/-- The two parsers make the same of every character of the input (and, with multiline, of the characters that end lines). -/
def Ctx.SameOnData (x y : Ctx) : Prop :=
  ∀ b, b ∈ x.src.data ∨ x.cfg.multiline = true ∧ (b = LF ∨ b = CR) → x.cfg.AgreeAt y.cfg b

end Ssp
