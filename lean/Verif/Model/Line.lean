import Verif.Model.Base
/-!
# Model of the line readers (include/ss/common.hpp)

A line buffer is the pair `char* lineptr`, `size_t n` of the C++ code: the block it points to (`mem`; a null
pointer is the empty block) and the size variable `n`.  Every write is checked against the real size of the
block, never against `n`.
-/
namespace Ssp

/-- What the run time environment is free to choose: the contents of memory made available by `realloc`
(allocation number, offset), and how much more than needed POSIX `getline` allocates. -/
structure Env where
  junk : Nat → Nat → Byte
  grow : Nat → Nat

/-- The input of a parser: an open file (on unix, or read with the portable `get_line_file`) with its contents, or
a data buffer (null pointer: `none`) with the size passed to the constructor. -/
inductive Src where
  | file (unix : Bool) (data : Bytes)
  | buf (ptr : Option Bytes) (size : Nat)
  deriving DecidableEq, Repr

/-- The state of a line read: a line buffer, the reader's `curr_char_`, and the position of the file.  `gen` counts
the reallocations of this block, `tick` all of them (ghosts). -/
structure Io where
  mem : Bytes := []
  n : Nat := 0
  gen : Nat := 0
  tick : Nat := 0
  curr : Nat := 0
  fpos : Nat := 0
  deriving DecidableEq, Repr

namespace Io

/-- `get_line_initial_buffer_size`: common.hpp:21 -/
def initialSize : Nat := 128

/-- `lineptr = strict_realloc(lineptr, size); n = size;` - common.hpp:36-43; `std::bad_alloc` is not modelled. -/
def realloc (env : Env) (size : Nat) : M Io Unit := M.modify fun s =>
  { s with
    mem := s.mem.take size ++ (List.range (size - s.mem.length)).map (fun i => env.junk s.tick (s.mem.length + i))
    n := size
    gen := s.gen + 1
    tick := s.tick + 1 }

/-- the same under a condition -/
def reallocIf (env : Env) (p : Prop) [Decidable p] (size : Nat) : M Io Unit := fun s =>
  if p then realloc env size s else .ok () s

/-- `lineptr[p] = b` -/
def wr (p : Nat) (b : Byte) : M Io Unit := fun s =>
  if p < s.mem.length then .ok () { s with mem := s.mem.set p b } else .ub

/-- `lineptr[p]` -/
def rd (p : Nat) : M Io Byte := fun s =>
  match s.mem[p]? with
  | some b => .ok b s
  | none => .ub

/-- `csv_data_buffer[i]` -/
def rdCsv (ptr : Option Bytes) (i : Nat) : M Io Byte := fun s =>
  match ptr with
  | none => .ub
  | some d => match d[i]? with
    | some b => .ok b s
    | none => .ub

/-- the loop of `get_line_buffer`: common.hpp:105-121, and 123-124 behind it.  `used` is `line_used`. -/
def bufLoop (env : Env) (ptr : Option Bytes) (size : Nat) : Nat → Nat → M Io Nat
  | 0, _ => M.nofuel
  | f + 1, used => do
    let s ← M.get
    if s.curr < size then
      reallocIf env (used + 1 ≥ s.n) (s.n * 2)
      let c ← rdCsv ptr s.curr
      M.modify fun s => { s with curr := s.curr + 1 }
      wr used c
      if c = LF then
        wr (used + 1) NUL
        pure (used + 1)
      else bufLoop env ptr size f (used + 1)
    else
      wr used NUL
      pure used

/-- `get_line_buffer`: common.hpp:88-125; `none` is -1. -/
def getLineBuffer (env : Env) (ptr : Option Bytes) (size : Nat) : M Io (Option Nat) := do
  let s ← M.get
  if s.curr ≥ size then pure none
  else
    reallocIf env (s.mem = [] ∨ s.n < initialSize) initialSize
    let r ← bufLoop env ptr size (size + 1) 0
    pure (some r)

/-- The prefix of the unread bytes that ends behind the first LF (or at the end). -/
def upToLF : Bytes → Bytes
  | [] => []
  | x :: xs => if x = LF then [x] else x :: upToLF xs

/-- POSIX `getline` (common.hpp:46-50), by its contract: at the end of the file it returns -1 and leaves an existing
buffer alone (a null buffer may be allocated); otherwise it stores the bytes up to and including the next LF and a
NUL behind them, reallocating a buffer that is null or too small.  The bytes behind the NUL are kept. -/
def getlinePosix (env : Env) (data : Bytes) : M Io (Option Nat) := do
  let s ← M.get
  let line := upToLF (data.drop s.fpos)
  if line = [] then
    reallocIf env (s.mem = []) (env.grow s.tick)
    pure none
  else
    reallocIf env (s.mem = [] ∨ s.n < line.length + 1) (line.length + 1 + env.grow s.tick)
    M.modify fun s =>
      { s with
        mem := line ++ NUL :: s.mem.drop (line.length + 1)
        fpos := s.fpos + line.length }
    pure (some line.length)

/-- `std::strlen(p)`, `none`: no terminator in the block -/
def strlen (mem : Bytes) : Option Nat :=
  if NUL ∈ mem then some (mem.takeWhile (· ≠ NUL)).length else none

/-- `std::fgets(buff, 128, file)` by its contract: at most 127 bytes, up to and including the next LF, and a NUL
behind them; `none`: nothing left to read.  The rest of `buff` is not represented: only the bytes before the first
NUL are used below. -/
def fgets (data : Bytes) : M Io (Option Bytes) := do
  let s ← M.get
  let chunk := upToLF ((data.drop s.fpos).take (initialSize - 1))
  if chunk = [] then pure none
  else
    M.modify fun s => { s with fpos := s.fpos + chunk.length }
    pure (some (chunk ++ [NUL]))

/-- `std::strlen(lineptr)` -/
def strlenLine : M Io Nat := fun s =>
  match strlen s.mem with
  | some k => .ok k s
  | none => .ub

/-- `std::memcpy(lineptr + p, src, k)` for `k` bytes `bytes` -/
def copyTo (p : Nat) (bytes : Bytes) : M Io Unit := fun s =>
  if p + bytes.length ≤ s.mem.length then
    .ok () { s with mem := s.mem.take p ++ bytes ++ s.mem.drop (p + bytes.length) }
  else .ub

/-- the loop of the portable `get_line_file`: common.hpp:67-83.  `used` is `line_used` of the previous round. -/
def fgetsLoop (env : Env) (data : Bytes) : Nat → Nat → M Io (Option Nat)
  | 0, _ => M.nofuel
  | f + 1, used => do
    match (← fgets data) with
    | none => pure (if used ≠ 0 then some used else none)
    | some buff =>
      let lineUsed ← strlenLine
      match strlen buff with
      | none => M.ub
      | some buffUsed =>
        let s ← M.get
        reallocIf env (s.n ≤ buffUsed + lineUsed) (s.n * 2)
        copyTo lineUsed (buff.take buffUsed)
        wr (lineUsed + buffUsed) NUL
        -- `lineptr[line_used - 1]`: in front of the block for `line_used == 0`
        if lineUsed + buffUsed = 0 then M.ub
        else
          let b ← rd (lineUsed + buffUsed - 1)
          if b = LF then pure (some (lineUsed + buffUsed))
          else fgetsLoop env data f (lineUsed + buffUsed)

/-- the portable `get_line_file`: common.hpp:55-84 -/
def getlinePortable (env : Env) (data : Bytes) : M Io (Option Nat) := do
  let s ← M.get
  reallocIf env (s.mem = [] ∨ s.n < initialSize) initialSize
  wr 0 NUL
  fgetsLoop env data (data.length + 1) 0

/-- `get_line_file`: common.hpp:45-86 -/
def getLineFile (unix : Bool) (env : Env) (data : Bytes) : M Io (Option Nat) :=
  if unix then getlinePosix env data else getlinePortable env data

/-- `curr_char += ssize` (common.hpp:134): at the end of the file this adds `(size_t)-1`, i.e. subtracts one modulo
2^64. -/
def advance (curr : Nat) : Option Nat → Nat
  | some k => curr + k
  | none => if curr = 0 then 18446744073709551615 else curr - 1

theorem advance_some (curr k : Nat) : advance curr (some k) = curr + k := rfl

/-- `get_line`: common.hpp:127-150; `none` is end of file.  The `errno == ENOMEM` test is not modelled. -/
def getLine (env : Env) (src : Src) : M Io (Option Nat) :=
  match src with
  | .file unix data => do
    let r ← getLineFile unix env data
    M.modify fun s => { s with curr := advance s.curr r }
    pure r
  | .buf ptr size => getLineBuffer env ptr size

end Io
end Ssp
