import Verif.Model.Converter
import Verif.Model.Line
/-!
# Model of `parser::reader` (include/ss/parser.hpp:764-1050)

`buffer_` and `converter_` (and the size variable) are exchanged together by `update`, and a converter only ever works on
the buffer it is exchanged with; so a buffer is stored as the memory (`spl.mem`) of the splitter in its converter.
-/
namespace Ssp

/-- What is fixed during the life of a parser: setup, environment, input, delimiter, file name (parser.hpp:1056), and
whether the options were given wrapped in one `ss::setup` (which matters to `header_splitter`, parser.hpp:34-35). -/
structure Ctx where
  cfg : Cfg
  env : Env
  src : Src
  delim : Bytes
  fileName : Bytes
  wrapped : Bool

/-- a line buffer with its converter and its size variable -/
structure Slot where
  conv : Conv := {}
  size : Nat := 0
  deriving DecidableEq, Repr

/-- `reader`: members parser.hpp:1027-1049.  `fpos` is the position of the open file, `tick` counts allocations. -/
structure Reader where
  /-- `buffer_`, `converter_`, `buffer_size_` -/
  cur : Slot := {}
  /-- `next_line_buffer_`, `next_line_converter_`, `next_line_buffer_size_` -/
  next : Slot := {}
  /-- `helper_buffer_`, `helper_buffer_size` -/
  helper : Bytes := []
  helperSize : Nat := 0
  fpos : Nat := 0
  tick : Nat := 0
  /-- `curr_char_` -/
  curr : Nat := 0
  crlf : Bool := false
  lineNumber : Nat := 0
  charsRead : Nat := 0
  nextLineSize : Nat := 0
  deriving DecidableEq, Repr

namespace Reader

/-- a call on `next_line_converter_` -/
def onNext {α : Type} (m : M Conv α) : M Reader α := fun s =>
  match m s.next.conv with
  | .ok a cv => .ok a { s with next := { s.next with conv := cv } }
  | .exc e cv => .exc e { s with next := { s.next with conv := cv } }
  | .ub => .ub
  | .nofuel => .nofuel

/-- the next line buffer as argument of `get_line` -/
def ioNext (s : Reader) : Io where
  mem := s.next.conv.spl.mem
  n := s.next.size
  gen := s.next.conv.spl.gen
  tick := s.tick
  curr := s.curr
  fpos := s.fpos

/-- the next line buffer after `get_line` -/
def setNext (s : Reader) (io : Io) : Reader :=
  { s with
    next := { conv := { s.next.conv with spl := { s.next.conv.spl with mem := io.mem, gen := io.gen } }, size := io.n }
    tick := io.tick
    curr := io.curr
    fpos := io.fpos }

/-- the helper buffer as argument of `get_line` -/
def ioHelper (s : Reader) : Io where
  mem := s.helper
  n := s.helperSize
  tick := s.tick
  curr := s.curr
  fpos := s.fpos

/-- the helper buffer after `get_line` -/
def setHelper (s : Reader) (io : Io) : Reader :=
  { s with
    helper := io.mem
    helperSize := io.n
    tick := io.tick
    curr := io.curr
    fpos := io.fpos }

/-- `get_line(next_line_buffer_, next_line_buffer_size_, ...)`: parser.hpp:852-854 -/
def getLineNext (x : Ctx) : M Reader (Option Nat) := fun s =>
  match Io.getLine x.env x.src s.ioNext with
  | .ok r io => .ok r (s.setNext io)
  | .exc e io => .exc e (s.setNext io)
  | .ub => .ub
  | .nofuel => .nofuel

/-- `get_line(helper_buffer_, helper_buffer_size, ...)`: parser.hpp:1005-1007 -/
def getLineHelper (x : Ctx) : M Reader (Option Nat) := fun s =>
  match Io.getLine x.env x.src s.ioHelper with
  | .ok r io => .ok r (s.setHelper io)
  | .exc e io => .exc e (s.setHelper io)
  | .ub => .ub
  | .nofuel => .nofuel

/-- `next_line_buffer_[p] = b` -/
def wrNext (p : Nat) (b : Byte) : M Reader Unit := fun s =>
  if p < s.next.conv.spl.mem.length then
    .ok () { s with next := { s.next with conv := { s.next.conv with spl :=
      { s.next.conv.spl with mem := s.next.conv.spl.mem.set p b } } } }
  else .ub

/-- `next_line_buffer_[p]` -/
def rdNext (p : Nat) : M Reader Byte := fun s =>
  match s.next.conv.spl.mem[p]? with
  | some b => .ok b s
  | none => .ub

/-- the decision of `remove_eol` (parser.hpp:969-985) on a buffer with `ssize` bytes: the size without terminator and
whether it is CRLF; `none` for an access outside the buffer.  `ssize` is never 0 (`buffer[ssize - 1]` is read). -/
def eolSize (mem : Bytes) (ssize : Nat) : Option (Nat × Bool) :=
  if ssize = 0 then none
  else match mem[ssize - 1]? with
    | none => none
    | some b =>
      if b ≠ LF then some (ssize, false)
      else if ssize ≥ 2 ∧ mem[ssize - 2]? = some CR then some (ssize - 2, true)
      else some (ssize - 1, false)

/-- `remove_eol(next_line_buffer_, ssize)`: parser.hpp:969-985; nothing is written when there is no LF. -/
def removeEolNext (ssize : Nat) : M Reader Nat := do
  let s ← M.get
  match eolSize s.next.conv.spl.mem ssize with
  | none => M.ub
  | some (size, crlf) =>
    M.modify fun s => { s with crlf := crlf }
    if size = ssize then pure size
    else
      wrNext size NUL
      pure size

/-- `remove_eol(helper_buffer_, ssize)` -/
def removeEolHelper (ssize : Nat) : M Reader Nat := do
  let s ← M.get
  match eolSize s.helper ssize with
  | none => M.ub
  | some (size, crlf) =>
    if size = ssize then
      M.modify fun s => { s with crlf := crlf }
      pure size
    else if size < s.helper.length then
      M.modify fun s => { s with crlf := crlf, helper := s.helper.set size NUL }
      pure size
    else M.ub

/-- the loop of `read_next`: parser.hpp:845-866 -/
def readNextLoop (x : Ctx) : Nat → M Reader Bool
  | 0 => M.nofuel
  | f + 1 => do
    M.modify fun s => { s with lineNumber := s.lineNumber + 1 }
    let s ← M.get
    (if s.next.size > 0 then wrNext 0 NUL else pure ())
    M.modify fun s => { s with charsRead := s.curr }
    match (← getLineNext x) with
    | none => pure false
    | some ssize =>
      let size ← removeEolNext ssize
      if x.cfg.ignoreEmpty ∧ size = 0 then readNextLoop x f
      else
        M.modify fun s => { s with nextLineSize := size }
        pure true

/-- Loop bound: the number of bytes of the input, plus two. -/
def bound (x : Ctx) : Nat :=
  (match x.src with
    | .file _ d => d.length
    | .buf p _ => (p.getD []).length) + 2

/-- `read_next`: parser.hpp:842-869 -/
def readNext (x : Ctx) : M Reader Bool := do
  onNext (Conv.clearError x.cfg)
  readNextLoop x (bound x)

/-- `multiline_limit_reached`: parser.hpp:934-942, for the value `limit` before the increment -/
def multilineLimitReached (x : Ctx) (limit : Nat) : M Reader Bool :=
  if x.cfg.mlLimit > 0 ∧ limit ≥ x.cfg.mlLimit then do
    onNext (Conv.handleErrorMultilineLimit x.cfg)
    pure true
  else pure false

/-- the number of escape characters in front of position `p` of the next line buffer: the loop of `escaped_eol`,
parser.hpp:945-950 -/
def countEscapes (c : Cfg) : Nat → M Reader Nat
  | 0 => pure 0
  | p + 1 => do
    let b ← rdNext p
    if b ∈ c.escape then
      let k ← countEscapes c p
      pure (k + 1)
    else pure 0

/-- `escaped_eol`: parser.hpp:944-952.  With `k` escapes at the end, `next_line_buffer_ - curr + size` is `k + 1`. -/
def escapedEol (x : Ctx) (size : Nat) : M Reader Bool := do
  let k ← countEscapes x.cfg size
  pure ((k + 1) % 2 == 0)

/-- `undo_remove_eol(next_line_buffer_, next_line_size_, next_line_buffer_size_)`: parser.hpp:958-967 -/
def undoRemoveEol : M Reader Unit := do
  let s ← M.get
  if s.crlf ∧ s.next.size ≥ s.nextLineSize + 2 then
    wrNext s.nextLineSize CR
    wrNext (s.nextLineSize + 1) LF
    M.modify fun s => { s with nextLineSize := s.nextLineSize + 2 }
  else if s.next.size > s.nextLineSize then
    wrNext s.nextLineSize LF
    M.modify fun s => { s with nextLineSize := s.nextLineSize + 1 }
  else pure ()

/-- `realloc_concat(next_line_buffer_, next_line_size_, next_line_buffer_size_, helper_buffer_, size)`:
parser.hpp:987-997 -/
def reallocConcat (x : Ctx) (second : Nat) : M Reader Unit := fun s =>
  let mem := s.next.conv.spl.mem
  let size := s.nextLineSize + second + 3
  let block := mem.take size ++ (List.range (size - mem.length)).map (fun i => x.env.junk s.tick (mem.length + i))
  if second + 1 ≤ s.helper.length then
    .ok () { s with
      next :=
        { conv := { s.next.conv with spl :=
            { s.next.conv.spl with
              mem := block.take s.nextLineSize ++ s.helper.take (second + 1) ++ block.drop (s.nextLineSize + second + 1)
              gen := s.next.conv.spl.gen + 1 } }
          size := size }
      tick := s.tick + 1
      nextLineSize := s.nextLineSize + second }
  else .ub

/-- `append_next_line_to_buffer`: parser.hpp:999-1018 -/
def appendNextLine (x : Ctx) : M Reader Bool := do
  undoRemoveEol
  M.modify fun s => { s with charsRead := s.curr }
  match (← getLineHelper x) with
  | none => pure false
  | some ssize =>
    M.modify fun s => { s with lineNumber := s.lineNumber + 1 }
    let size ← removeEolHelper ssize
    reallocConcat x size
    pure true

/-- the escape loops of `parse`: parser.hpp:874-887 and 904-917.  `none`: `parse` returns; otherwise the new `limit`. -/
def escapeLoop (x : Ctx) : Nat → Nat → M Reader (Option Nat)
  | 0, _ => M.nofuel
  | f + 1, limit => do
    let s ← M.get
    if (← escapedEol x s.nextLineSize) then
      if (← multilineLimitReached x limit) then pure none
      else if (← appendNextLine x) then escapeLoop x f (limit + 1)
      else
        onNext (Conv.handleErrorUnterminatedEscape x.cfg)
        pure none
    else pure (some limit)

/-- the loop under `if constexpr (escaped_multiline_enabled)` -/
def escapeLoopIf (x : Ctx) (limit : Nat) : M Reader (Option Nat) :=
  if x.cfg.multiline ∧ x.cfg.escape ≠ [] then escapeLoop x (bound x) limit
  else pure (some limit)

/-- the quote loop of `parse`: parser.hpp:891-925.  `next_line_size_ -= size_shifted()` below zero would be a wild
pointer later on: undefined. -/
def quoteLoop (x : Ctx) : Nat → Nat → M Reader Unit
  | 0, _ => M.nofuel
  | f + 1, limit => do
    let s ← M.get
    if s.next.conv.spl.unterminatedQuote then
      if s.nextLineSize < s.next.conv.spl.escaped then M.ub
      else
        M.modify fun s => { s with nextLineSize := s.nextLineSize - s.next.conv.spl.escaped }
        if (← multilineLimitReached x limit) then pure ()
        else if (← appendNextLine x) then
          match (← escapeLoopIf x (limit + 1)) with
          | none => pure ()
          | some limit' =>
            let s ← M.get
            onNext (Conv.onSpl (Spl.resplit x.cfg s.nextLineSize x.delim))
            quoteLoop x f limit'
        else onNext (Conv.handleErrorUnterminatedQuote x.cfg)
    else pure ()

/-- `parse`: parser.hpp:871-926 -/
def parse (x : Ctx) : M Reader Unit := do
  match (← escapeLoopIf x 0) with
  | none => pure ()
  | some limit =>
    onNext (Conv.split x.cfg x.delim)
    if x.cfg.multiline ∧ x.cfg.quote ≠ none then quoteLoop x (bound x) limit
    else pure ()

/-- `update`: parser.hpp:928-932 -/
def update : M Reader Unit := M.modify fun s => { s with cur := s.next, next := s.cur }

/-- `get_buffer`: parser.hpp:1020-1022 -/
def getBuffer : M Reader Bytes := fun s =>
  if s.nextLineSize ≤ s.next.conv.spl.mem.length then .ok (s.next.conv.spl.mem.take s.nextLineSize) s else .ub

end Reader
end Ssp
