import Verif.Spec.Write
import Verif.Spec.Parser
/-!
# Written tables
-/
namespace Ssp
open Spec Text

/-- What a writer and a parser have to agree on: the quote, an escape character (if there are any), a delimiter that is no
other special character, and none of them is part of a line terminator. -/
structure Agreed (c : Cfg) (delim : Bytes) (q e : Byte) : Prop where
  quote : c.quote = some q
  escape : c.escape ≠ [] → e ∈ c.escape
  good : ∃ d0 ds, delim = d0 :: ds ∧ GoodDelim c d0
  tail : ∀ x ∈ delim, x ∉ c.escape ∧ x ≠ CR ∧ x ≠ LF
  quote_eol : q ≠ CR ∧ q ≠ LF
  escape_eol : CR ∉ c.escape ∧ LF ∉ c.escape

/-- A table: rows of fields, each with the text it is written as and whether that ends with CRLF (or with LF). -/
abbrev Table := List (List Bytes × Bytes × Bool)

/-- the table is written: each row in one of the ways a writer may write it -/
def Table.Written (c : Cfg) (delim : Bytes) (q e : Byte) (tab : Table) : Prop := ∀ r ∈ tab, WrittenRow c delim q e r.1 r.2.1

/-- With `multiline_restricted<N>`, a written row has at most `N` line feeds (it is in at most `N + 1` lines); no restriction otherwise. -/
def Table.WithinLimit (c : Cfg) (tab : Table) : Prop := 0 < c.mlLimit → ∀ r ∈ tab, r.2.1.count LF ≤ c.mlLimit

/-- the text of the table -/
def Table.text (tab : Table) : Bytes := terminated (tab.map (·.2))

/-- `Prints t v s`: the value `v` of the type `t` is printed as `s`.  An integer as its decimal text, a bool as one of the
two usual ways, a char as itself, a text as itself, an optional like its value or, if there is none, as a text that is no
value, a variant like its alternative, if the text is not one of an alternative before it. -/
inductive Prints : Ty → Val → Bytes → Prop
  | int {t : IntTy} {n : Int} : t.Represents n → Prints (.int t) (.int n) (decimal n)
  | true01 : Prints .bool (.bool true) (bs "1")
  | false01 : Prints .bool (.bool false) (bs "0")
  | trueText : Prints .bool (.bool true) (bs "true")
  | falseText : Prints .bool (.bool false) (bs "false")
  | char {b : Byte} : Prints .char (.char b) [b]
  | str {s : Bytes} : Prints .str (.str s) s
  | view {s : Bytes} : Prints .view (.view s) s
  | engaged {t : Ty} {v : Val} {s : Bytes} : Prints t v s → Prints (.opt t) (.engaged v) s
  | nullopt {t : Ty} {s : Bytes} : (∀ v, conv t s ≠ some v) → Prints (.opt t) .nullopt s
  | alt {ts : List Ty} {i : Nat} {t : Ty} {v : Val} {s : Bytes} : ts[i]? = some t → Prints t v s →
      (∀ k u, k < i → ts[k]? = some u → ∀ v, conv u s ≠ some v) → Prints (.variant ts) (.alt i v) s

/-- the values `vs` of the types `ts` are printed as the texts `ss`, one by one -/
inductive PrintsRow : List Ty → List Val → List Bytes → Prop
  | nil : PrintsRow [] [] []
  | cons {t : Ty} {v : Val} {s : Bytes} {ts : List Ty} {vs : List Val} {ss : List Bytes} :
      Prints t v s → PrintsRow ts vs ss → PrintsRow (t :: ts) (v :: vs) (s :: ss)

end Ssp
