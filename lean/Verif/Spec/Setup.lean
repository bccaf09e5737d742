import Verif.Model.Setup
/-!
# Which option lists are legal
-/
namespace Ssp.Setup

/-- The three groups of special characters: quoting, escaping, trimming. -/
def group : Kind → Nat
  | .quote => 1
  | .escape => 2
  | .trim | .trimLeft | .trimRight => 3
  | _ => 0

/-- What a user has to observe when writing a setup. -/
structure Legal (l : List Opt) : Prop where
  /-- only options are given -/
  known : .other ∉ l
  /-- no option twice (see `C43_repeated_ignore_disables` for the two exceptions) -/
  once : ∀ k, k ≠ .ignoreHeader → k ≠ .ignoreEmpty → (l.map Opt.kind).count k ≤ 1
  modes : ¬ (.stringError ∈ l ∧ .throwOnError ∈ l)
  /-- `'\0'` alone disables a matcher, and cannot be used otherwise -/
  nul : ∀ o ∈ l, group o.kind ≠ 0 → o.chars = [NUL] ∨ (o.chars ≠ [] ∧ NUL ∉ o.chars)
  /-- no character is in two groups -/
  disjoint : ∀ o ∈ l, ∀ o' ∈ l, ∀ x, x ≠ NUL → x ∈ o.chars → x ∈ o'.chars → group o.kind = group o'.kind
  /-- `trim` excludes `trim_left` and `trim_right` -/
  trims : ∀ cs ds, .trim cs ∈ l → (.trimLeft ds ∈ l ∨ .trimRight ds ∈ l) → cs = [NUL] ∨ ds = [NUL]
  /-- multiline comes with quote or escape -/
  multiline : ∀ n, .multiline n true ∈ l → ∃ o ∈ l, (o.kind = .quote ∨ o.kind = .escape) ∧ o.chars ≠ [NUL]

/-- What a setup made of the options `l` stands for: every option does what its name says, whatever the other options are
and wherever in the list it is.  (`ignore_header` and `ignore_empty` given twice: see `C43_repeated_ignore_disables`.) -/
structure Means (l : List Opt) (c : Cfg) : Prop where
  quote : ∀ q, c.quote = some q ↔ .quote q ∈ l ∧ q ≠ NUL
  escape : ∀ x, x ∈ c.escape ↔ ∃ cs, .escape cs ∈ l ∧ x ∈ cs ∧ x ≠ NUL
  trimL : ∀ x, x ∈ c.trimL ↔ ∃ cs, (.trim cs ∈ l ∨ .trimLeft cs ∈ l) ∧ x ∈ cs ∧ x ≠ NUL
  trimR : ∀ x, x ∈ c.trimR ↔ ∃ cs, (.trim cs ∈ l ∨ .trimRight cs ∈ l) ∧ x ∈ cs ∧ x ≠ NUL
  multiline : c.multiline = true ↔ ∃ n, .multiline n true ∈ l
  limit : ∀ n, .multiline n true ∈ l → c.mlLimit = n
  throws : c.mode = .throw ↔ .throwOnError ∈ l
  string : c.mode = .string ↔ .stringError ∈ l
  bool : c.mode = .bool ↔ .throwOnError ∉ l ∧ .stringError ∉ l
  header : c.ignoreHeader = true ↔ (l.map Opt.kind).count .ignoreHeader = 1
  empty : c.ignoreEmpty = true ↔ (l.map Opt.kind).count .ignoreEmpty = 1

end Ssp.Setup
