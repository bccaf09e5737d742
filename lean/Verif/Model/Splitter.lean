import Verif.Model.Base
/-!
# Model of `ss::splitter` (include/ss/splitter.hpp)

A line is split in place.  The storage of the line is `mem`; pointers are offsets from the
beginning of the line (`line_` = 0).  Every access is bounds checked.
-/
namespace Ssp

/-- The resolved setup of a splitter/converter/parser: setup.hpp:241-253.  A disabled matcher
(`matcher<'\0'>`, setup.hpp:61-67) is `none`/`[]`. -/
structure Cfg where
  quote : Option Byte := none
  escape : List Byte := []
  trimL : List Byte := []
  trimR : List Byte := []
  /-- `multiline::enabled` -/
  multiline : Bool := false
  /-- `multiline::size`, 0 = unlimited -/
  mlLimit : Nat := 0
  mode : ErrMode := .bool
  ignoreHeader : Bool := false
  ignoreEmpty : Bool := false
  deriving DecidableEq, Repr

/-- The static asserts on match characters: setup.hpp:38-39 (no NUL), 257-265 (no intersections),
269-272 (multiline needs quote or escape). -/
structure Cfg.WF (c : Cfg) : Prop where
  nul_q : c.quote ≠ some NUL
  nul_e : NUL ∉ c.escape
  nul_l : NUL ∉ c.trimL
  nul_r : NUL ∉ c.trimR
  qe : ∀ q, c.quote = some q → q ∉ c.escape
  ql : ∀ q, c.quote = some q → q ∉ c.trimL
  qr : ∀ q, c.quote = some q → q ∉ c.trimR
  el : ∀ e, e ∈ c.escape → e ∉ c.trimL
  er : ∀ e, e ∈ c.escape → e ∉ c.trimR
  ml : c.multiline = true → c.quote ≠ none ∨ c.escape ≠ []

/-- `ss::splitter`: members splitter.hpp:472-482.

`mem` is the storage `line_` points into; `split_data_` holds pairs of offsets.  Two ghost counters
model pointer validity: `gen` counts reallocations of the storage, `lineGen` is the value of `gen`
when `line_` (and with it every pointer in `split_data_`) was last set; `split_data_` dangles iff they
differ. Pointer differences to the old storage in `resplit` (splitter.hpp:76-81,94-111) are modelled
by offsets, i.e. as integers. -/
structure Spl where
  mem : Bytes := []
  gen : Nat := 0
  lineGen : Nat := 0
  err : ErrSt := {}
  unterminatedQuote : Bool := false
  done : Bool := true
  resplitting : Bool := false
  escaped : Nat := 0
  data : List (Nat × Nat) := []
  begin_ : Nat := 0
  curr : Nat := 0
  end_ : Nat := 0
  deriving DecidableEq, Repr

namespace Spl

/-- `*p` -/
def rd (p : Nat) : M Spl Byte := fun s =>
  match s.mem[p]? with
  | some b => .ok b s
  | none => .ub

/-- `handle_error_*`: splitter.hpp:131-197; all five have this shape. -/
def handleError (c : Cfg) (msg : Bytes) : M Spl Unit :=
  match c.mode with
  | .throw => M.throw msg
  | m => M.modify (fun s => { s with err := s.err.set m msg })

/-- splitter.hpp:132 -/
def msgEmptyDelimiter : Bytes := bs "empty delimiter"
/-- splitter.hpp:145,149 -/
def msgMismatchedQuote (n : Nat) : Bytes := bs "mismatched quote at position: " ++ dec n
/-- splitter.hpp:158-159 -/
def msgUnterminatedEscape : Bytes := bs "unterminated escape at the end of the line"
/-- splitter.hpp:172 -/
def msgUnterminatedQuote : Bytes := bs "unterminated quote"
/-- splitter.hpp:185-187 -/
def msgInvalidResplit : Bytes :=
  bs "invalid resplit, new line must be longerthan the end of the last slice"

/-- `clear_error`: splitter.hpp:122-129 -/
def clearError (c : Cfg) : M Spl Unit :=
  M.modify fun s => { s with err := s.err.clear c.mode, unterminatedQuote := false }

/-- The delimiter as dispatched by `split_impl_select_delim` (splitter.hpp:312-324): a `char` for
strings of size 1, the string otherwise. -/
inductive Delim where
  | chr (b : Byte)
  | str (d : Bytes)
  deriving DecidableEq, Repr

/-- `std::strncmp(curr, delim, n) == 0` with `n` the size of the delimiter: stops at the first
difference or common NUL. -/
def strncmpEq : Nat → Bytes → M Spl Bool
  | _, [] => pure true
  | p, d :: ds => do
    let b ← rd p
    if b ≠ d then pure false
    else if b = NUL then pure true
    else strncmpEq (p + 1) ds

/-- `match`: splitter.hpp:203-209 -/
def matchDelim (p : Nat) : Delim → M Spl Bool
  | .chr d => do
    let b ← rd p
    pure (b == d)
  | .str d => strncmpEq p d

/-- `delimiter_size`: splitter.hpp:211-217 -/
def delimSize : Delim → Nat
  | .chr _ => 1
  | .str d => d.length

/-- `while (matcher::match(*curr)) ++curr;` with a loop bound. -/
def skipWhile (set : List Byte) : Nat → Nat → M Spl Nat
  | 0, _ => M.nofuel
  | f + 1, p => do
    let b ← rd p
    if b ∈ set then skipWhile set f (p + 1) else pure p

/-- `trim_left_if_enabled` / `trim_right_if_enabled`: splitter.hpp:219-233.  The loop bound is the size
of the storage. -/
def trimIfEnabled (set : List Byte) (p : Nat) : M Spl Nat := fun s =>
  if set = [] then .ok p s
  else skipWhile set (s.mem.length + 1) p s

/-- `shift_and_set_current`: splitter.hpp:297-306.  `std::copy_n(curr_ + escaped_, n, curr_)` with
`n = end_ - curr_ - escaped_` (no-op for negative n, hence the truncated subtraction), guarded by the
bounds of the storage; `curr_ = end_ - escaped_` must not underrun the storage. `is_const_line` setups
never have `escaped_ > 0`. -/
def shiftAndSetCurrent : M Spl Unit := fun s =>
  if s.escaped > 0 then
    let n := s.end_ - s.curr - s.escaped
    if s.curr + s.escaped + n ≤ s.mem.length ∧ s.escaped ≤ s.end_ then
      .ok () { s with
        mem := s.mem.take s.curr ++ (s.mem.drop (s.curr + s.escaped)).take n ++ s.mem.drop (s.curr + n)
        curr := s.end_ - s.escaped }
    else .ub
  else .ok () { s with curr := s.end_ }

/-- `shift_and_jump_escape`: splitter.hpp:279-285 -/
def shiftAndJumpEscape (c : Cfg) : M Spl Unit := do
  shiftAndSetCurrent
  M.modify fun s =>
    { s with
      escaped := if c.quote.isSome || !c.escape.isEmpty then s.escaped + 1 else s.escaped
      end_ := s.end_ + 1 }

/-- `shift_if_escaped`: splitter.hpp:264-277 -/
def shiftIfEscaped (c : Cfg) (p : Nat) : M Spl Unit :=
  if c.escape = [] then pure ()
  else do
    let b ← rd p
    if b ∈ c.escape then
      let n ← rd (p + 1)
      if n = NUL then
        if !c.multiline then handleError c msgUnterminatedEscape
        M.modify fun s => { s with done := true }
      else shiftAndJumpEscape c
    else pure ()

/-- `match_delimiter`: splitter.hpp:235-258.  Returns (width, valid). -/
def matchDelimiter (c : Cfg) (d : Delim) (begin_ : Nat) : M Spl (Nat × Bool) := do
  let e ← trimIfEnabled c.trimR begin_
  let b ← rd e
  if b = NUL then pure (0, false)
  else
    let m ← matchDelim e d
    if !m then
      shiftIfEscaped c e
      pure (1 + e - begin_, false)
    else
      let e' ← trimIfEnabled c.trimL (e + delimSize d)
      pure (e' - begin_, true)

/-- `shift_and_push`: splitter.hpp:292-295 -/
def shiftAndPush : M Spl Unit := do
  shiftAndSetCurrent
  M.modify fun s => { s with data := s.data ++ [(s.begin_, s.curr)] }

/-- `shift_push_and_start_next`: splitter.hpp:287-290 -/
def shiftPushAndStartNext (n : Nat) : M Spl Unit := do
  shiftAndPush
  M.modify fun s => { s with begin_ := s.end_ + n }

/-- `read_normal`: splitter.hpp:364-386 -/
def readNormal (c : Cfg) (d : Delim) : Nat → M Spl Unit
  | 0 => M.nofuel
  | f + 1 => do
    let s ← M.get
    let (width, valid) ← matchDelimiter c d s.end_
    if !valid then
      if width = 0 then
        shiftAndPush
        M.modify fun s => { s with done := true }
      else
        M.modify fun s => { s with end_ := s.end_ + width }
        readNormal c d f
    else
      shiftPushAndStartNext width

/-- `read_quoted`: splitter.hpp:388-466 (for an enabled quote `q`) -/
def readQuoted (c : Cfg) (q : Byte) (d : Delim) : Nat → M Spl Unit
  | 0 => M.nofuel
  | f + 1 => do
    let s ← M.get
    let b ← rd s.end_
    if b ≠ q then
      if c.escape ≠ [] ∧ b ∈ c.escape then
        let n ← rd (s.end_ + 1)
        if n = NUL then
          if !c.multiline then handleError c msgUnterminatedEscape
          M.modify fun s => { s with done := true }
        else
          shiftAndJumpEscape c
          M.modify fun s => { s with end_ := s.end_ + 1 }
          readQuoted c q d f
      else if b = NUL then
        shiftAndSetCurrent
        M.modify fun s => { s with unterminatedQuote := true }
        if !c.multiline then handleError c msgUnterminatedQuote
        M.modify fun s => { s with data := s.data ++ [(0, s.begin_)], done := true }
      else
        M.modify fun s => { s with end_ := s.end_ + 1 }
        readQuoted c q d f
    else
      let (width, valid) ← matchDelimiter c d (s.end_ + 1)
      if valid then
        shiftPushAndStartNext (width + 1)
      else
        -- `end_` may have been moved by `match_delimiter`
        let s ← M.get
        let b1 ← rd (s.end_ + 1)
        if b1 = q then
          shiftAndJumpEscape c
          M.modify fun s => { s with end_ := s.end_ + 1 }
          readQuoted c q d f
        else
          if width = 0 then shiftAndPush
          else
            handleError c (msgMismatchedQuote s.end_)
            M.modify fun s => { s with data := s.data ++ [(0, s.begin_)] }
          M.modify fun s => { s with done := true }

/-- `read`: splitter.hpp:342-362.  The loop bounds are the size of the storage. -/
def read (c : Cfg) (d : Delim) : M Spl Unit := do
  M.modify fun s => { s with escaped := 0 }
  let s ← M.get
  match c.quote with
  | some q =>
    if c.multiline && s.resplitting then
      M.modify fun s => { s with resplitting := false, begin_ := s.begin_ + 1 }
      readQuoted c q d (s.mem.length + 1)
    else
      let b ← rd s.begin_
      if b = q then
        M.modify fun s =>
          { s with begin_ := s.begin_ + 1, end_ := s.begin_ + 1, curr := s.begin_ + 1 }
        readQuoted c q d (s.mem.length + 1)
      else
        M.modify fun s => { s with end_ := s.begin_, curr := s.begin_ }
        readNormal c d (s.mem.length + 1)
  | none =>
    M.modify fun s => { s with end_ := s.begin_, curr := s.begin_ }
    readNormal c d (s.mem.length + 1)

/-- `for (done_ = false; !done_;) read(delim);` - splitter.hpp:331-333 -/
def readLoop (c : Cfg) (d : Delim) : Nat → M Spl Unit
  | 0 => M.nofuel
  | f + 1 => do
    let s ← M.get
    if s.done then pure ()
    else
      read c d
      readLoop c d f

/-- `split_impl`: splitter.hpp:326-336 -/
def splitImpl (c : Cfg) (d : Delim) : M Spl Unit := do
  let s ← M.get
  let b ← trimIfEnabled c.trimL s.begin_
  M.modify fun s => { s with begin_ := b, done := false }
  readLoop c d (s.mem.length + 2)

/-- `split_impl_select_delim`: splitter.hpp:312-324 -/
def splitImplSelectDelim (c : Cfg) (delim : Bytes) : M Spl Unit := do
  clearError c
  match delim with
  | [] => handleError c msgEmptyDelimiter
  | [b] => splitImpl c (.chr b)
  | d => splitImpl c (.str d)

/-- `split`: splitter.hpp:50-56, on the line stored in `mem`. -/
def split (c : Cfg) (delim : Bytes) : M Spl Unit := do
  M.modify fun s => { s with data := [], begin_ := 0, lineGen := s.gen }
  splitImplSelectDelim c delim

/-- `resplit`: splitter.hpp:83-116; the new line is already in `mem`, `newSize` is its size. -/
def resplit (c : Cfg) (newSize : Nat) (delim : Bytes) : M Spl Unit := do
  let s ← M.get
  if c.quote.isNone || !c.multiline || s.data.isEmpty || !s.unterminatedQuote then
    handleError c msgInvalidResplit
  else
    match s.data.getLast? with
    | none => M.ub
    | some (oldLine, oldBegin) =>
      let begin_ := oldBegin - oldLine - 1
      if newSize < begin_ then handleError c msgInvalidResplit
      else
        M.modify fun s =>
          { s with
            data := s.data.dropLast.map (fun (b, e) => (b - oldLine, e - oldLine))
            lineGen := s.gen
            begin_ := begin_
            end_ := s.end_ - oldLine - s.escaped
            curr := s.end_ - oldLine - s.escaped
            resplitting := true }
        splitImplSelectDelim c delim

end Spl
end Ssp
