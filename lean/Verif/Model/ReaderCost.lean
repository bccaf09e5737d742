import Verif.Model.Reader
import Verif.Model.SplitCost
import Verif.Model.LineCost
/-!
# The work of `parser::reader` (include/ss/parser.hpp:842-1018), counted

The functions of `Model/Reader` that read a line and split it, with the steps of `Model/LineCost` (lines) and `Model/SplitCost`
(splitting); every access to a single byte of a line buffer is one step, and `realloc_concat` moves the block (the worst case of
`std::realloc`) and the appended bytes.  That they do what the functions of `Model/Reader` do is proved in `Props/ReaderCost`.
-/
namespace Ssp

namespace Io
/-- `get_line`: common.hpp:127-150; the steps of POSIX `getline` are not counted -/
def getLineK (env : Env) (src : Src) : K Io (Option Nat) :=
  match src with
  | .file true d => .free (getLine env (.file true d))
  | .file false d => do
    let r ← getlinePortableK env d
    .free (M.modify fun s => { s with curr := advance s.curr r })
    pure r
  | .buf ptr size => getLineBufferK env ptr size
end Io

namespace Conv

/-- a call on the splitter -/
def onSplK {α : Type} (k : K Spl α) : K Conv α := fun s =>
  match k s.spl with
  | (.ok a sp, n) => (.ok a { s with spl := sp }, n)
  | (.exc e sp, n) => (.exc e { s with spl := sp }, n)
  | (.ub, n) => (.ub, n)
  | (.nofuel, n) => (.nofuel, n)

/-- `split`: converter.hpp:191-199 -/
def splitK (c : Cfg) (delim : Bytes) : K Conv Unit := do
  .free (M.modify fun s => { s with spl := { s.spl with data := [] } })
  let b ← onSplK (Spl.rdK 0)
  if b = NUL then pure ()
  else onSplK (Spl.splitK c delim)

end Conv

namespace Reader

/-- a call on `next_line_converter_` -/
def onNextK {α : Type} (k : K Conv α) : K Reader α := fun s =>
  match k s.next.conv with
  | (.ok a cv, n) => (.ok a { s with next := { s.next with conv := cv } }, n)
  | (.exc e cv, n) => (.exc e { s with next := { s.next with conv := cv } }, n)
  | (.ub, n) => (.ub, n)
  | (.nofuel, n) => (.nofuel, n)

/-- `get_line(next_line_buffer_, ...)`: parser.hpp:852-854 -/
def getLineNextK (x : Ctx) : K Reader (Option Nat) := fun s =>
  match Io.getLineK x.env x.src s.ioNext with
  | (.ok r io, n) => (.ok r (s.setNext io), n)
  | (.exc e io, n) => (.exc e (s.setNext io), n)
  | (.ub, n) => (.ub, n)
  | (.nofuel, n) => (.nofuel, n)

/-- `get_line(helper_buffer_, ...)`: parser.hpp:1005-1007 -/
def getLineHelperK (x : Ctx) : K Reader (Option Nat) := fun s =>
  match Io.getLineK x.env x.src s.ioHelper with
  | (.ok r io, n) => (.ok r (s.setHelper io), n)
  | (.exc e io, n) => (.exc e (s.setHelper io), n)
  | (.ub, n) => (.ub, n)
  | (.nofuel, n) => (.nofuel, n)

/-- the loop of `read_next`: parser.hpp:845-866; `remove_eol` (969-985) looks at two bytes and stores one -/
def readNextLoopK (x : Ctx) : Nat → K Reader Bool
  | 0 => .free M.nofuel
  | f + 1 => do
    .free (M.modify fun s => { s with lineNumber := s.lineNumber + 1 })
    let s ← .free M.get
    (if s.next.size > 0 then .of (wrNext 0 NUL) (fun _ => 1) else pure ())
    .free (M.modify fun s => { s with charsRead := s.curr })
    match (← getLineNextK x) with
    | none => pure false
    | some ssize =>
      let size ← .of (removeEolNext ssize) fun _ => 3
      if x.cfg.ignoreEmpty ∧ size = 0 then readNextLoopK x f
      else
        .free (M.modify fun s => { s with nextLineSize := size })
        pure true

/-- `read_next`: parser.hpp:842-869 -/
def readNextK (x : Ctx) : K Reader Bool := do
  .free (onNext (Conv.clearError x.cfg))
  readNextLoopK x (bound x)

/-- the loop of `escaped_eol`: parser.hpp:945-950 -/
def countEscapesK (c : Cfg) : Nat → K Reader Nat
  | 0 => pure 0
  | p + 1 => do
    let b ← .of (rdNext p) fun _ => 1
    if b ∈ c.escape then
      let k ← countEscapesK c p
      pure (k + 1)
    else pure 0

/-- `escaped_eol`: parser.hpp:944-952 -/
def escapedEolK (x : Ctx) (size : Nat) : K Reader Bool := do
  let k ← countEscapesK x.cfg size
  pure ((k + 1) % 2 == 0)

/-- `append_next_line_to_buffer`: parser.hpp:999-1018, `realloc_concat`: 987-997, `undo_remove_eol` (at most two bytes stored): 958-967 -/
def appendNextLineK (x : Ctx) : K Reader Bool := do
  .of undoRemoveEol fun _ => 2
  .free (M.modify fun s => { s with charsRead := s.curr })
  match (← getLineHelperK x) with
  | none => pure false
  | some ssize =>
    .free (M.modify fun s => { s with lineNumber := s.lineNumber + 1 })
    let size ← .of (removeEolHelper ssize) fun _ => 3
    .of (reallocConcat x size) fun s => s.next.conv.spl.mem.length + (size + 1)
    pure true

/-- the escape loops of `parse`: parser.hpp:874-887 and 904-917 -/
def escapeLoopK (x : Ctx) : Nat → Nat → K Reader (Option Nat)
  | 0, _ => .free M.nofuel
  | f + 1, limit => do
    let s ← .free M.get
    if (← escapedEolK x s.nextLineSize) then
      if (← .free (multilineLimitReached x limit)) then pure none
      else if (← appendNextLineK x) then escapeLoopK x f (limit + 1)
      else
        .free (onNext (Conv.handleErrorUnterminatedEscape x.cfg))
        pure none
    else pure (some limit)

/-- the loop under `if constexpr (escaped_multiline_enabled)` -/
def escapeLoopIfK (x : Ctx) (limit : Nat) : K Reader (Option Nat) :=
  if x.cfg.multiline ∧ x.cfg.escape ≠ [] then escapeLoopK x (bound x) limit
  else pure (some limit)

/-- the quote loop of `parse`: parser.hpp:891-925 -/
def quoteLoopK (x : Ctx) : Nat → Nat → K Reader Unit
  | 0, _ => .free M.nofuel
  | f + 1, limit => do
    let s ← .free M.get
    if s.next.conv.spl.unterminatedQuote then
      if s.nextLineSize < s.next.conv.spl.escaped then .free M.ub
      else
        .free (M.modify fun s => { s with nextLineSize := s.nextLineSize - s.next.conv.spl.escaped })
        if (← .free (multilineLimitReached x limit)) then pure ()
        else if (← appendNextLineK x) then
          match (← escapeLoopIfK x (limit + 1)) with
          | none => pure ()
          | some limit' =>
            let s ← .free M.get
            onNextK (Conv.onSplK (Spl.resplitK x.cfg s.nextLineSize x.delim))
            quoteLoopK x f limit'
        else .free (onNext (Conv.handleErrorUnterminatedQuote x.cfg))
    else pure ()

/-- `parse`: parser.hpp:871-926 -/
def parseK (x : Ctx) : K Reader Unit := do
  match (← escapeLoopIfK x 0) with
  | none => pure ()
  | some limit =>
    onNextK (Conv.splitK x.cfg x.delim)
    if x.cfg.multiline ∧ x.cfg.quote ≠ none then quoteLoopK x (bound x) limit
    else pure ()

end Reader
end Ssp
