import Verif.Model.Splitter
import Verif.Model.Count
/-!
# The work of `ss::splitter` (include/ss/splitter.hpp), counted

The functions of `Model/Splitter` once more, this time with a count of their elementary steps:

* every byte of the line that is looked at (`*curr`, one comparison of `strncmp`) is one step,
* every byte moved by `std::copy_n` (splitter.hpp:301) is one step,
* every pair appended to `split_data_` is one step, and so is every pair corrected by `adjust_ranges`.

What the counted functions do apart from counting is proved to be exactly what the functions of
`Model/Splitter` do (`Props/Cost`), so this file adds the counts and nothing else.  Not counted: the
comparisons of one byte with the characters of a matcher (a compile-time constant of the setup), the
building of an error message, and the growing of the vector `split_data_`.
-/
namespace Ssp
namespace Spl

/-- `*p` -/
def rdK (p : Nat) : K Spl Byte := .of (rd p) fun _ => 1

/-- `std::strncmp(curr, delim, n) == 0`: splitter.hpp:208 -/
def strncmpEqK : Nat → Bytes → K Spl Bool
  | _, [] => pure true
  | p, d :: ds => do
    let b ← rdK p
    if b ≠ d then pure false
    else if b = NUL then pure true
    else strncmpEqK (p + 1) ds

/-- `match`: splitter.hpp:203-209 -/
def matchDelimK (p : Nat) : Delim → K Spl Bool
  | .chr d => do
    let b ← rdK p
    pure (b == d)
  | .str d => strncmpEqK p d

/-- `while (matcher::match(*curr)) ++curr;` -/
def skipWhileK (set : List Byte) : Nat → Nat → K Spl Nat
  | 0, _ => .free M.nofuel
  | f + 1, p => do
    let b ← rdK p
    if b ∈ set then skipWhileK set f (p + 1) else pure p

/-- `trim_left_if_enabled` / `trim_right_if_enabled`: splitter.hpp:219-233 -/
def trimIfEnabledK (set : List Byte) (p : Nat) : K Spl Nat := fun s =>
  if set = [] then (.ok p s, 0)
  else skipWhileK set (s.mem.length + 1) p s

/-- `shift_and_set_current`: splitter.hpp:297-306; the steps are the bytes `std::copy_n` moves. -/
def shiftAndSetCurrentK : K Spl Unit :=
  .of shiftAndSetCurrent fun s => if s.escaped > 0 then s.end_ - s.curr - s.escaped else 0

/-- `shift_and_jump_escape`: splitter.hpp:279-285 -/
def shiftAndJumpEscapeK (c : Cfg) : K Spl Unit := do
  shiftAndSetCurrentK
  .free (M.modify fun s =>
    { s with
      escaped := if c.quote.isSome || !c.escape.isEmpty then s.escaped + 1 else s.escaped
      end_ := s.end_ + 1 })

/-- `shift_if_escaped`: splitter.hpp:264-277 -/
def shiftIfEscapedK (c : Cfg) (p : Nat) : K Spl Unit :=
  if c.escape = [] then pure ()
  else do
    let b ← rdK p
    if b ∈ c.escape then
      let n ← rdK (p + 1)
      if n = NUL then
        .free (do
          if !c.multiline then handleError c msgUnterminatedEscape
          M.modify fun s => { s with done := true })
      else shiftAndJumpEscapeK c
    else pure ()

/-- `match_delimiter`: splitter.hpp:235-258 -/
def matchDelimiterK (c : Cfg) (d : Delim) (begin_ : Nat) : K Spl (Nat × Bool) := do
  let e ← trimIfEnabledK c.trimR begin_
  let b ← rdK e
  if b = NUL then pure (0, false)
  else
    let m ← matchDelimK e d
    if !m then
      shiftIfEscapedK c e
      pure (1 + e - begin_, false)
    else
      let e' ← trimIfEnabledK c.trimL (e + delimSize d)
      pure (e' - begin_, true)

/-- `shift_and_push`: splitter.hpp:292-295; one step for the appended pair -/
def shiftAndPushK : K Spl Unit := do
  shiftAndSetCurrentK
  .of (M.modify fun s => { s with data := s.data ++ [(s.begin_, s.curr)] }) fun _ => 1

/-- `shift_push_and_start_next`: splitter.hpp:287-290 -/
def shiftPushAndStartNextK (n : Nat) : K Spl Unit := do
  shiftAndPushK
  .free (M.modify fun s => { s with begin_ := s.end_ + n })

/-- `read_normal`: splitter.hpp:364-386 -/
def readNormalK (c : Cfg) (d : Delim) : Nat → K Spl Unit
  | 0 => .free M.nofuel
  | f + 1 => do
    let s ← .free M.get
    let (width, valid) ← matchDelimiterK c d s.end_
    if !valid then
      if width = 0 then
        shiftAndPushK
        .free (M.modify fun s => { s with done := true })
      else
        .free (M.modify fun s => { s with end_ := s.end_ + width })
        readNormalK c d f
    else
      shiftPushAndStartNextK width

/-- `read_quoted`: splitter.hpp:388-466.  (The code reads `*end_` up to three times per turn, for the
quote, the escape and the terminator; a constant factor, counted as one.) -/
def readQuotedK (c : Cfg) (q : Byte) (d : Delim) : Nat → K Spl Unit
  | 0 => .free M.nofuel
  | f + 1 => do
    let s ← .free M.get
    let b ← rdK s.end_
    if b ≠ q then
      if c.escape ≠ [] ∧ b ∈ c.escape then
        let n ← rdK (s.end_ + 1)
        if n = NUL then
          .free (do
            if !c.multiline then handleError c msgUnterminatedEscape
            M.modify fun s => { s with done := true })
        else
          shiftAndJumpEscapeK c
          .free (M.modify fun s => { s with end_ := s.end_ + 1 })
          readQuotedK c q d f
      else if b = NUL then
        shiftAndSetCurrentK
        .of (do
          M.modify fun s => { s with unterminatedQuote := true }
          if !c.multiline then handleError c msgUnterminatedQuote
          M.modify fun s => { s with data := s.data ++ [(0, s.begin_)], done := true }) fun _ => 1
      else
        .free (M.modify fun s => { s with end_ := s.end_ + 1 })
        readQuotedK c q d f
    else
      let (width, valid) ← matchDelimiterK c d (s.end_ + 1)
      if valid then
        shiftPushAndStartNextK (width + 1)
      else
        let s ← .free M.get
        let b1 ← rdK (s.end_ + 1)
        if b1 = q then
          shiftAndJumpEscapeK c
          .free (M.modify fun s => { s with end_ := s.end_ + 1 })
          readQuotedK c q d f
        else
          if width = 0 then shiftAndPushK
          else
            .of (do
              handleError c (msgMismatchedQuote s.end_)
              M.modify fun s => { s with data := s.data ++ [(0, s.begin_)] }) fun _ => 1
          .free (M.modify fun s => { s with done := true })

/-- `read`: splitter.hpp:342-362 -/
def readK (c : Cfg) (d : Delim) : K Spl Unit := do
  .free (M.modify fun s => { s with escaped := 0 })
  let s ← .free M.get
  match c.quote with
  | some q =>
    if c.multiline && s.resplitting then
      .free (M.modify fun s => { s with resplitting := false, begin_ := s.begin_ + 1 })
      readQuotedK c q d (s.mem.length + 1)
    else
      let b ← rdK s.begin_
      if b = q then
        .free (M.modify fun s =>
          { s with begin_ := s.begin_ + 1, end_ := s.begin_ + 1, curr := s.begin_ + 1 })
        readQuotedK c q d (s.mem.length + 1)
      else
        .free (M.modify fun s => { s with end_ := s.begin_, curr := s.begin_ })
        readNormalK c d (s.mem.length + 1)
  | none =>
    .free (M.modify fun s => { s with end_ := s.begin_, curr := s.begin_ })
    readNormalK c d (s.mem.length + 1)

/-- `for (done_ = false; !done_;) read(delim);` - splitter.hpp:331-333 -/
def readLoopK (c : Cfg) (d : Delim) : Nat → K Spl Unit
  | 0 => .free M.nofuel
  | f + 1 => do
    let s ← .free M.get
    if s.done then pure ()
    else
      readK c d
      readLoopK c d f

/-- `split_impl`: splitter.hpp:326-336 -/
def splitImplK (c : Cfg) (d : Delim) : K Spl Unit := do
  let s ← .free M.get
  let b ← trimIfEnabledK c.trimL s.begin_
  .free (M.modify fun s => { s with begin_ := b, done := false })
  readLoopK c d (s.mem.length + 2)

/-- `split_impl_select_delim`: splitter.hpp:312-324 -/
def splitImplSelectDelimK (c : Cfg) (delim : Bytes) : K Spl Unit := do
  .free (clearError c)
  match delim with
  | [] => .free (handleError c msgEmptyDelimiter)
  | [b] => splitImplK c (.chr b)
  | d => splitImplK c (.str d)

/-- `split`: splitter.hpp:50-56 -/
def splitK (c : Cfg) (delim : Bytes) : K Spl Unit := do
  .free (M.modify fun s => { s with data := [], begin_ := 0, lineGen := s.gen })
  splitImplSelectDelimK c delim

/-- `resplit`: splitter.hpp:83-116; `adjust_ranges` (splitter.hpp:76-81) takes a step for every pair. -/
def resplitK (c : Cfg) (newSize : Nat) (delim : Bytes) : K Spl Unit := do
  let s ← .free M.get
  if c.quote.isNone || !c.multiline || s.data.isEmpty || !s.unterminatedQuote then
    .free (handleError c msgInvalidResplit)
  else
    match s.data.getLast? with
    | none => .free M.ub
    | some (oldLine, oldBegin) =>
      let begin_ := oldBegin - oldLine - 1
      if newSize < begin_ then .free (handleError c msgInvalidResplit)
      else
        .of (M.modify fun s =>
          { s with
            data := s.data.dropLast.map (fun (b, e) => (b - oldLine, e - oldLine))
            lineGen := s.gen
            begin_ := begin_
            end_ := s.end_ - oldLine - s.escaped
            curr := s.end_ - oldLine - s.escaped
            resplitting := true }) fun s => s.data.length - 1
        splitImplSelectDelimK c delim

end Spl
end Ssp
