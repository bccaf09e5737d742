import Verif.Model.Parser
import Verif.Spec.Lines
import Verif.Spec.Convert
import Verif.Spec.Split
/-!
# What a user of a parser does and observes
-/
namespace Ssp

/-- A call on a parser.  `chain` stands for the statement `if (!p.eof()) p.try_next(...).or_else(...)...`. -/
inductive Op where
  | getNext (rs : List Req)
  | ignoreNext
  | header
  | rawHeader
  | fieldExists (f : Bytes)
  | useFields (fs : List Bytes)
  | chain (a : Parser.Alt) (as : List Parser.Alt)

/-- What a call returned: the values of a row (`none` if the parser is invalid afterwards), a bool, header names, the
optionals of a composite (each with whether its callback was called), or an exception with its text. -/
inductive Ret where
  | row (vs : Option (List Val))
  | flag (b : Bool)
  | names (l : List Bytes)
  | unit
  | opts (l : List (Option (List Val) × Bool))
  | thrown (m : Bytes)
  deriving DecidableEq

/-- What is observed of a call: what it returned, and then `valid()`, `error_msg()`, `eof()`, `line()`, `position()`. -/
structure Obs where
  ret : Ret
  valid : Bool
  msg : Bytes
  eof : Bool
  line : Nat
  position : Nat
  deriving DecidableEq

/-- the call -/
def Op.exec (x : Ctx) : Op → M Parser Ret
  | .getNext rs => do
    let v ← Parser.getNext x rs
    let s ← M.get
    pure (.row (if s.valid x.cfg then some v else none))
  | .ignoreNext => do
    let b ← Parser.ignoreNext x
    pure (.flag b)
  | .header => do
    let l ← Parser.getHeader x
    pure (.names l)
  | .rawHeader => do
    let s ← M.get
    pure (.names [s.rawHeader])
  | .fieldExists f => do
    let b ← Parser.fieldExists x f
    pure (.flag b)
  | .useFields fs => do
    Parser.useFields x fs
    pure .unit
  | .chain a as => do
    let s ← M.get
    if s.eof then pure (.opts [])
    else
      let l ← Parser.tryChain x a as
      pure (.opts l)

namespace Parser

def observe (x : Ctx) (r : Ret) (s : Parser) : Obs :=
  { ret := r, valid := s.valid x.cfg, msg := s.err.msg, eof := s.eof, line := s.line, position := s.position }

/-- A call and what is observed of it; an exception is caught by the user.  `none`: undefined behaviour. -/
def step (x : Ctx) (op : Op) (s : Parser) : Option (Obs × Parser) :=
  match op.exec x s with
  | .ok r s' => some (observe x r s', s')
  | .exc e s' => some (observe x (.thrown e) s', s')
  | .ub => none
  | .nofuel => none

/-- Calls one after the other. -/
def run (x : Ctx) : List Op → Parser → Option (List Obs × Parser)
  | [], s => some ([], s)
  | op :: ops, s =>
    match step x op s with
    | none => none
    | some (o, s') =>
      match run x ops s' with
      | none => none
      | some (os, s'') => some (o :: os, s'')

/-- `Created x s`: `s` is a parser just after its constructor returned: of a file, of a file that could not be opened, of a
buffer. -/
inductive Created (x : Ctx) (s : Parser) : Prop
  | file {u : Bool} {d : Bytes} : x.src = .file u d → newFile x {} = .ok () s → Created x s
  | missing : x.src = .buf none 0 → newFile x {} = .ok () s → Created x s
  | buffer {p : Option Bytes} {n : Nat} : x.src = .buf p n → newBuffer x {} = .ok () s → Created x s

/-- `Reach x s`: `s` is a parser at some point of its life. -/
def Reach (x : Ctx) (s : Parser) : Prop := ∃ s0 ops os, Created x s0 ∧ run x ops s0 = some (os, s)

/-- `get_next` returned the values `vs` and `valid()` holds. -/
def Yields (x : Ctx) (r : Res Parser (List Val)) (vs : List Val) : Prop :=
  ∃ s', r = .ok vs s' ∧ s'.valid x.cfg = true

/-- `get_next` reported an error in the way of the setup's error mode: an exception with the text `msg`, this
`error_msg()`, or just `!valid()`. -/
def Fails (x : Ctx) (r : Res Parser (List Val)) (msg : Bytes) : Prop :=
  match x.cfg.mode with
  | .throw => ∃ s', r = .exc msg s'
  | .string => ∃ vs s', r = .ok vs s' ∧ s'.valid x.cfg = false ∧ s'.err.msg = msg
  | .bool => ∃ vs s', r = .ok vs s' ∧ s'.valid x.cfg = false

end Parser

/-- The setup and the delimiter are usable. -/
structure Ctx.Ok (x : Ctx) : Prop where
  wf : x.cfg.WF
  delim : x.delim ≠ []
  delim0 : NUL ∉ x.delim
  fine : x.src.Fine

/-- The rows among the lines from line `n` on (without multiline): with `ignore_empty` the empty lines are no rows. -/
def Ctx.rest (x : Ctx) (n : Nat) : List Bytes :=
  ((lines x.src.data).drop n).filter fun l => !x.cfg.ignoreEmpty || !l.isEmpty

/-- The rows of the input (without multiline): its lines, without the empty ones under `ignore_empty`, without the first
one under `ignore_header`. -/
def Ctx.rows (x : Ctx) : List Bytes := (x.rest 0).drop (if x.cfg.ignoreHeader then 1 else 0)

/-- A new converter that was given the text `l`, and the column mapping of the parser `s`. -/
def Parser.converter (s : Parser) (l : Bytes) : Conv :=
  { spl := { mem := l ++ [NUL] }, mappings := s.rd.cur.conv.mappings, ncols := s.rd.cur.conv.ncols }

/-- What a new converter (with the parser's column mapping) makes of the text `l`: `convert<...>(l, delim)`. -/
def Parser.fresh (x : Ctx) (s : Parser) (rs : List Req) (l : Bytes) : Res Conv (List Val) :=
  Conv.convertLine x.cfg rs x.delim (s.converter l)

/-- `o` is the observation of a `get_next` which should deliver what `r` delivers -/
def Delivers (x : Ctx) (o : Obs) (r : Res Conv (List Val)) : Prop :=
  (∀ vs, o.ret = .row (some vs) ↔ Ssp.Yields x.cfg r vs) ∧
  ((∃ vs, Ssp.Yields x.cfg r vs) ∨ o.ret = .row none ∧ o.valid = false ∨ ∃ m, o.ret = .thrown m)

/-- `o` is the observation of a failing `get_next` -/
def NoRow (o : Obs) : Prop := o.ret = .row none ∧ o.valid = false ∨ ∃ m, o.ret = .thrown m

/-- the text a parser puts in front of the error of a row -/
def Ctx.at (x : Ctx) (n : Nat) (m : Bytes) : Bytes := x.fileName ++ bs " " ++ dec n ++ bs ": " ++ m

/-! ## Rows of several lines -/

/-- The lines `n` to `n + k` of the input together: with their terminators, but without the last one. -/
def Ctx.joined (x : Ctx) (n k : Nat) : Bytes := chop (((rawLines x.src.data).drop n).take (k + 1)).flatten

/-- The text ends with an escape character that is not itself escaped: with an odd number of them. -/
def Cfg.Escaped (c : Cfg) (t : Bytes) : Prop := (t.reverse.takeWhile (· ∈ c.escape)).length % 2 = 1

/-- The text ends inside a quoted field. -/
def Cfg.InQuote (c : Cfg) (delim t : Bytes) : Prop := ∃ a, (Spec.decodeRow c delim t).2 = .openQuote a

/-- With multiline, a row that so far is the text `t` goes on in the next line: the text ends with an escape, or what is
seen of it (a text is seen up to its first NUL) ends inside a quoted field. -/
def Ctx.GoesOn (x : Ctx) (t : Bytes) : Prop := x.cfg.Escaped t ∨ x.cfg.InQuote x.delim (cutNul t)

/-- `multiline_restricted<N>`: a row does not go on after `k` additional lines (`N = 0`: no limit). -/
def Cfg.Limit (c : Cfg) (k : Nat) : Prop := 0 < c.mlLimit ∧ c.mlLimit ≤ k

/-- The row that starts in line `n` is made of the lines `n` to `n + k`: it goes on until then, and not further. -/
structure Ctx.RowTo (x : Ctx) (n k : Nat) : Prop where
  inside : n + k < (lines x.src.data).length
  stops : ¬ x.GoesOn (x.joined n k)
  before : ∀ i, i < k → x.GoesOn (x.joined n i) ∧ ¬ x.cfg.Limit i

/-- The row that starts in line `n` goes on after the line `n + k`, where the limit is reached. -/
structure Ctx.RowTooLong (x : Ctx) (n k : Nat) : Prop where
  inside : n + k < (lines x.src.data).length
  goesOn : x.GoesOn (x.joined n k)
  limit : x.cfg.Limit k
  before : ∀ i, i < k → x.GoesOn (x.joined n i) ∧ ¬ x.cfg.Limit i

/-- The row that starts in line `n` goes on at the end of the input. -/
def Ctx.RowOpen (x : Ctx) (n : Nat) : Prop :=
  ∀ k, n + k < (lines x.src.data).length → x.GoesOn (x.joined n k) ∧ ¬ x.cfg.Limit k

/-- What multiline needs: the delimiter starts with no quote and no escape character, or contains no end of a line; the end of a line is no escape
character, and no NUL is behind the begin of a quoted field that is not closed before it (see `C52_nul_in_quote_multiline`). -/
structure Ctx.MlOk (x : Ctx) : Prop where
  ok : x.Ok
  ml : x.cfg.multiline = true
  clean : Spec.LineJoint x.cfg x.delim
  lf : LF ∉ x.cfg.escape
  quotes : ∀ n k, n + k < (lines x.src.data).length → x.cfg.InQuote x.delim (cutNul (x.joined n k)) → NUL ∉ x.joined n k

/-- The first row at or after line `n` begins in line `m`: the lines between are empty lines that are skipped. -/
structure Ctx.Starts (x : Ctx) (n m : Nat) : Prop where
  le : n ≤ m
  row : ∃ l, (lines x.src.data)[m]? = some l ∧ (x.cfg.ignoreEmpty = true → l ≠ [])
  skipped : ∀ i, n ≤ i → i < m → x.cfg.ignoreEmpty = true ∧ (lines x.src.data)[i]? = some []

/-- A row of several lines: its text, or it has more lines than allowed, or it goes on at the end of the input. -/
inductive MlRow where
  | text (t : Bytes)
  | tooLong
  | unfinished

/-- `x.MlRows n L`: `L` are the rows from line `n` on. -/
inductive Ctx.MlRows (x : Ctx) : Nat → List MlRow → Prop
  | done {n} : (∀ m, ¬ x.Starts n m) → x.MlRows n []
  | text {n m k L} : x.Starts n m → x.RowTo m k → x.MlRows (m + k + 1) L → x.MlRows n (.text (x.joined m k) :: L)
  | tooLong {n m k L} : x.Starts n m → x.RowTooLong m k → x.MlRows (m + k + 1) L → x.MlRows n (.tooLong :: L)
  | unfinished {n m} : x.Starts n m → x.RowOpen m → x.MlRows n [.unfinished]

/-- With multiline, what `or_else` may follow: a row that is complete.  (Behind the others it is undefined, see
`C54_or_else_after_realloc`, or converts what is no row, `C41_or_else_after_limit` and `C41_or_else_after_open_row`.) -/
def Ctx.Resumable (x : Ctx) (n : Nat) : Prop := x.MlOk ∧ ∃ k, x.RowTo n k

/-- The calls covered with multiline, when `line()` is `n` and `eof()` is `e`: `or_else` only behind a row it may follow. -/
def Op.Tame (x : Ctx) (n : Nat) (e : Bool) (op : Op) : Prop :=
  x.cfg.multiline = true → ∀ a as, op = .chain a as → as = [] ∨ e = true ∨ x.Resumable n

/-- Each of the calls is covered when its turn comes. -/
def Parser.Covered (x : Ctx) : List Op → Parser → Prop
  | [], _ => True
  | op :: ops, s => op.Tame x s.line s.eof ∧ ∀ o s', step x op s = some (o, s') → Covered x ops s'

/-- `ReachT x s`: `s` is a parser at some point of a life in which all calls were covered. -/
def Parser.ReachT (x : Ctx) (s : Parser) : Prop :=
  ∃ s0 ops os, Created x s0 ∧ Covered x ops s0 ∧ run x ops s0 = some (os, s)

/-- All rows from line `n` on are complete, as those of every well-formed input: none has too many lines, none goes on at
the end of the input. -/
def Ctx.AllComplete (x : Ctx) (n : Nat) : Prop := ∃ L : List Bytes, x.MlRows n (L.map .text)

/-- the calls that read rows, each for at least one value, and those about the header that only ask -/
def Op.Reads : Op → Prop
  | .getNext rs => rs ≠ []
  | .chain a as => ∀ b ∈ a :: as, b.reqs ≠ []
  | .header | .rawHeader | .fieldExists _ => True
  | .ignoreNext | .useFields _ => False

/-! ## Two parsers -/

/-- the same setup (the inputs and their names may differ) -/
structure Alike (x y : Ctx) : Prop where
  cfg : y.cfg = x.cfg
  delim : y.delim = x.delim
  wrapped : y.wrapped = x.wrapped

/-- the input exists: a file that could be opened, a buffer that is not null -/
def Src.Exists : Src → Prop
  | .file _ _ => True
  | .buf p _ => p ≠ none

/-- The same text, except that each may start with the name of its input. -/
def AlikeText (x y : Ctx) (m m' : Bytes) : Prop :=
  m = m' ∨ ∃ t, t ≠ [] ∧ m = x.fileName ++ t ∧ m' = y.fileName ++ t

/-- the same result -/
def AlikeRet (x y : Ctx) (r r' : Ret) : Prop :=
  r = r' ∨ ∃ m m', r = .thrown m ∧ r' = .thrown m' ∧ AlikeText x y m m'

/-- The same observation, except for the names of the inputs in error texts, and for the position. -/
structure AlikeObs (x y : Ctx) (o o' : Obs) : Prop where
  ret : AlikeRet x y o.ret o'.ret
  valid : o.valid = o'.valid
  msg : AlikeText x y o.msg o'.msg
  eof : o.eof = o'.eof
  line : o.line = o'.line

/-- `R` holds between the elements of two lists at the same place; the lists have the same length. -/
inductive All2 {α β : Type} (R : α → β → Prop) : List α → List β → Prop
  | nil : All2 R [] []
  | cons {a : α} {b : β} {as : List α} {bs : List β} : R a b → All2 R as bs → All2 R (a :: as) (b :: bs)

/-- The text of lines, each with LF or with CRLF. -/
def terminated (ls : List (Bytes × Bool)) : Bytes := ls.flatMap fun l => l.1 ++ if l.2 then [CR, LF] else [LF]

/-- The parsers agree after construction and after each of the calls; `R` says what is known of the observations. -/
def RunsAlike (x y : Ctx) (R : Obs → Obs → Prop) (s s' : Parser) (ops : List Op) : Prop :=
  R (Parser.observe x .unit s) (Parser.observe y .unit s') ∧
  ∃ os os' s1 s1', Parser.run x ops s = some (os, s1) ∧ Parser.run y ops s' = some (os', s1') ∧ All2 R os os'

/-! ## Substitute conversions -/

/-- The alternative `b` of a `try_next(...).or_else(...)...` converts the row `l` to the values `vs`. -/
def Parser.Alt.Converts (x : Ctx) (s : Parser) (l : Bytes) (b : Parser.Alt) (vs : List Val) : Prop :=
  Ssp.Yields x.cfg (s.fresh x b.reqs l) vs

/-- It also passes its callback, if it has one: the callback does not return false. -/
def Parser.Alt.Suits (x : Ctx) (s : Parser) (l : Bytes) (b : Parser.Alt) (vs : List Val) : Prop :=
  b.Converts x s l vs ∧ ∀ f, b.fn = some f → f vs ≠ some false

/-! ## The header -/

/-- The first row of the input (without multiline). -/
def Ctx.firstRow (x : Ctx) : Bytes := (x.rest 0).headD []

/-- the setup without multiline -/
def Cfg.single (c : Cfg) : Cfg := { c with multiline := false }

/-- What a newly made splitter (without multiline) makes of the first row. -/
def Ctx.splitFirstRow (x : Ctx) : Res Spl Unit :=
  Spl.split x.cfg.single x.delim { mem := x.firstRow ++ [NUL] }

/-- `cols` are the columns of the first row: the names in the header. -/
def Ctx.HeaderIs (x : Ctx) (cols : List Bytes) : Prop := Accepts x.cfg.single x.splitFirstRow cols

/-- the first row cannot be split, for the reason `m` -/
def Ctx.HeaderBad (x : Ctx) (m : Bytes) : Prop := Rejects x.cfg.single x.splitFirstRow m

/-- The arguments of `use_fields` make sense for the header `cols`. -/
structure Selectable (cols fs : List Bytes) : Prop where
  names : cols.Nodup
  some : fs ≠ []
  once : fs.Nodup
  known : ∀ f ∈ fs, f ∈ cols

/-- The row a parser reads next when `line()` is `n` has the text `l`: without multiline that is the next line that is a row,
with multiline the lines the row is made of. -/
def Ctx.RowAt (x : Ctx) (n : Nat) (l : Bytes) : Prop :=
  (x.cfg.multiline = false ∧ ∃ ls, x.rest n = l :: ls) ∨ (x.MlOk ∧ ∃ k, x.RowTo n k ∧ l = x.joined n k)

/-- What the statements about the header need: a usable setup that keeps the header (no `ignore_header`); with multiline
also options not wrapped in `ss::setup<...>` (else the header is split with multiline, see
`C36_wrapped_multiline`). -/
structure Ctx.HdrOk (x : Ctx) : Prop where
  ok : x.Ok
  keeps : x.cfg.ignoreHeader = false
  bare : x.cfg.multiline = true → x.wrapped = false

/-- The parsers differ at most in their error and in what they know about the header: same place, same rows to come,
same column selection. -/
structure Parser.SameRows (s s' : Parser) : Prop where
  line : s'.line = s.line
  position : s'.position = s.position
  eof : s'.eof = s.eof
  converter : ∀ l, s'.converter l = s.converter l

/-- a call that reported an error, as observed -/
def Failed (o : Obs) : Prop := o.valid = false ∨ ∃ m, o.ret = .thrown m

end Ssp
