import Verif.Model.Splitter
/-!
# What a row of text means: a small grammar

Independent of the splitter's algorithm: how field contents may be written, how fields are put together
to a line, and what trimming is.
-/
namespace Ssp.Text

/-- Fields put together with a delimiter. -/
def join (d : Bytes) : List Bytes → Bytes
  | [] => []
  | [f] => f
  | f :: fs => f ++ d ++ join d fs

/-- `f` without the leading bytes that are in `set`. -/
def trimL (set f : Bytes) : Bytes := f.dropWhile (· ∈ set)

/-- `f` without the trailing bytes that are in `set`. -/
def trimR (set f : Bytes) : Bytes := (f.reverse.dropWhile (· ∈ set)).reverse

/-- `d` occurs in `t`. -/
def Occurs (d t : Bytes) : Prop := ∃ a b, t = a ++ d ++ b

/-- Every byte of `l` is in `set` (spacing). -/
def Only (set l : Bytes) : Prop := ∀ x ∈ l, x ∈ set

/-- `Quoted c q f t`: `t` is a way to write the contents `f` between quotes `q`. -/
inductive Quoted (c : Cfg) (q : Byte) : Bytes → Bytes → Prop
  | nil : Quoted c q [] []
  /-- an ordinary byte -/
  | raw {x f t} : x ≠ q → x ∉ c.escape → Quoted c q f t → Quoted c q (x :: f) (x :: t)
  /-- a doubled quote -/
  | dbl {f t} : Quoted c q f t → Quoted c q (q :: f) (q :: q :: t)
  /-- any byte behind an escape character -/
  | esc {e x f t} : e ∈ c.escape → Quoted c q f t → Quoted c q (x :: f) (e :: x :: t)

/-- `Plain c d f t`: `t` is a way to write the contents `f` without quotes; `d0` is the first byte of
the delimiter. -/
inductive Plain (c : Cfg) (d0 : Byte) : Bytes → Bytes → Prop
  | nil : Plain c d0 [] []
  /-- an ordinary byte, possibly behind inner spacing -/
  | raw {sp x f t} : Only c.trimR sp → x ∉ c.trimR → x ∉ c.escape → x ≠ d0 → Plain c d0 f t →
      Plain c d0 (sp ++ x :: f) (sp ++ x :: t)
  /-- any byte behind an escape character (not directly behind unescaped right-trim spacing, see C11) -/
  | esc {e x f t} : e ∈ c.escape → Plain c d0 f t → Plain c d0 (x :: f) (e :: x :: t)

/-- `Field c d0 f t`: `t` is a way to write a field with contents `f`, including the spacing around it
that the setup trims. -/
inductive Field (c : Cfg) (d0 : Byte) : Bytes → Bytes → Prop
  | quoted {q l f t r} : c.quote = some q → Only c.trimL l → Quoted c q f t → Only c.trimR r →
      Field c d0 f (l ++ q :: t ++ q :: r)
  | plain {l f t r} : Only c.trimL l → Plain c d0 f t → Only c.trimR r →
      -- the unquoted text does not begin with a quote or with left spacing
      (∀ x, (t ++ r).head? = some x → c.quote ≠ some x ∧ x ∉ c.trimL) →
      Field c d0 f (l ++ t ++ r)

/-- The texts `ts` write the contents `fs`, one by one. -/
def Fields (c : Cfg) (d0 : Byte) : List Bytes → List Bytes → Prop
  | [], [] => True
  | f :: fs, t :: ts => Field c d0 f t ∧ Fields c d0 fs ts
  | _, _ => False

/-- A delimiter that starts with no special character of the setup. -/
structure GoodDelim (c : Cfg) (d0 : Byte) : Prop where
  nul : d0 ≠ NUL
  quote : c.quote ≠ some d0
  escape : d0 ∉ c.escape
  trimL : d0 ∉ c.trimL
  trimR : d0 ∉ c.trimR

end Ssp.Text

namespace Ssp.Text

/-- `Cut d r fs`: `fs` are the pieces of `r` between the delimiters `d`, delimiters being looked for from
left to right. -/
inductive Cut (d : Bytes) : Bytes → List Bytes → Prop
  | last {f} : ¬ Occurs d f → Cut d f [f]
  | cons {f r fs} : ¬ Occurs d (f ++ d.dropLast) → Cut d r fs → Cut d (f ++ d ++ r) (f :: fs)

end Ssp.Text
