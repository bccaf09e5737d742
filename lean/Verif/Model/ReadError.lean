import Verif.Model.Line
/-!
# Model of reading a file that cannot be read to its end

`get_line_file` (common.hpp:45-86) does not ask `ferror`: what it does when the system cannot read on.
-/
namespace Ssp

/-- A file with the contents `data` of which only the first `bad` bytes can be read: from there on every read of the system
fails (a medium error, a network drive that went away).  Simplified: the failure does not go away. -/
structure FailingFile where
  data : Bytes
  bad : Nat
  deriving DecidableEq, Repr

namespace Io

/-- POSIX `getline` (common.hpp:46-50) as glibc implements it: a failure behind the first byte of a line ends the line just as
the end of the file does; a failure at its first byte is -1, just as the end of the file.  (Others may return -1 in both
cases.) -/
def getlineFailing (env : Env) (b : FailingFile) : M Io (Option Nat) := do
  let s ← M.get
  let line := upToLF ((b.data.take b.bad).drop s.fpos)
  if line = [] then
    reallocIf env (s.mem = []) (env.grow s.tick)
    pure none
  else
    reallocIf env (s.mem = [] ∨ s.n < line.length + 1) (line.length + 1 + env.grow s.tick)
    M.modify fun s =>
      { s with
        mem := line ++ NUL :: s.mem.drop (line.length + 1)
        fpos := s.fpos + line.length }
    pure (some line.length)

/-- `std::fgets(buff, 128, file)` by its contract: null when a read fails before 127 bytes or the LF are there, even if some
bytes were read - what is in `buff` then is indeterminate (it is not looked at).  Simplified: the bytes that were read and
lost are not counted in `fpos`; the next read fails in any case. -/
def fgetsFailing (b : FailingFile) : M Io (Option Bytes) := do
  let s ← M.get
  let chunk := upToLF (((b.data.take b.bad).drop s.fpos).take (initialSize - 1))
  if chunk.getLast? = some LF ∨ chunk.length = initialSize - 1 then
    M.modify fun s => { s with fpos := s.fpos + chunk.length }
    pure (some (chunk ++ [NUL]))
  else pure none

/-- the loop of the portable `get_line_file`: common.hpp:67-83 -/
def fgetsLoopFailing (env : Env) (b : FailingFile) : Nat → Nat → M Io (Option Nat)
  | 0, _ => M.nofuel
  | f + 1, used => do
    match (← fgetsFailing b) with
    | none => pure (if used ≠ 0 then some used else none)
    | some buff =>
      let lineUsed ← strlenLine
      match strlen buff with
      | none => M.ub
      | some buffUsed =>
        let s ← M.get
        reallocIf env (s.n ≤ buffUsed + lineUsed) (s.n * 2)
        copyTo lineUsed (buff.take buffUsed)
        wr (lineUsed + buffUsed) NUL
        if lineUsed + buffUsed = 0 then M.ub
        else
          let b' ← rd (lineUsed + buffUsed - 1)
          if b' = LF then pure (some (lineUsed + buffUsed))
          else fgetsLoopFailing env b f (lineUsed + buffUsed)

/-- the portable `get_line_file`: common.hpp:55-84 -/
def getlinePortableFailing (env : Env) (b : FailingFile) : M Io (Option Nat) := do
  let s ← M.get
  reallocIf env (s.mem = [] ∨ s.n < initialSize) initialSize
  wr 0 NUL
  fgetsLoopFailing env b (b.data.length + 1) 0

/-- `get_line` on such a file: common.hpp:127-150.  The `errno == ENOMEM` test is in `Model/Oom`; a failed read sets other
values. -/
def getLineFailing (unix : Bool) (env : Env) (b : FailingFile) : M Io (Option Nat) := do
  let r ← (if unix then getlineFailing env b else getlinePortableFailing env b)
  M.modify fun s => { s with curr := advance s.curr r }
  pure r

end Io
end Ssp
