import Verif.Model.Line
import Verif.Model.Count
/-!
# The work of the line readers (include/ss/common.hpp), counted

The functions of `Model/Line` once more, with a count of their elementary steps: every byte read from the data, every byte
stored in or read from a line buffer, every byte `std::strlen` looks at (with the terminator), every byte `std::memcpy` moves and
every byte `std::realloc` has to move when it cannot extend the block where it is (the old block, the worst case).

`std::fgets` is counted as one step for every byte it stores (with the terminator), and one when there is nothing to read.  POSIX
`getline` is not the library's code and has no counted version here.

That the counted functions do what the functions of `Model/Line` do is proved in `Props/LineCost`.
-/
namespace Ssp
namespace Io

/-- `strict_realloc` under a condition: common.hpp:36-43; the old block is moved -/
def reallocIfK (env : Env) (p : Prop) [Decidable p] (size : Nat) : K Io Unit :=
  .of (reallocIf env p size) fun s => if p then s.mem.length else 0

/-- `lineptr[p] = b` -/
def wrK (p : Nat) (b : Byte) : K Io Unit := .of (wr p b) fun _ => 1

/-- `lineptr[p]` -/
def rdK (p : Nat) : K Io Byte := .of (rd p) fun _ => 1

/-- `csv_data_buffer[i]` -/
def rdCsvK (ptr : Option Bytes) (i : Nat) : K Io Byte := .of (rdCsv ptr i) fun _ => 1

/-- the loop of `get_line_buffer`: common.hpp:105-124 -/
def bufLoopK (env : Env) (ptr : Option Bytes) (size : Nat) : Nat → Nat → K Io Nat
  | 0, _ => .free M.nofuel
  | f + 1, used => do
    let s ← .free M.get
    if s.curr < size then
      reallocIfK env (used + 1 ≥ s.n) (s.n * 2)
      let c ← rdCsvK ptr s.curr
      .free (M.modify fun s => { s with curr := s.curr + 1 })
      wrK used c
      if c = LF then
        wrK (used + 1) NUL
        pure (used + 1)
      else bufLoopK env ptr size f (used + 1)
    else
      wrK used NUL
      pure used

/-- `get_line_buffer`: common.hpp:88-125 -/
def getLineBufferK (env : Env) (ptr : Option Bytes) (size : Nat) : K Io (Option Nat) := do
  let s ← .free M.get
  if s.curr ≥ size then pure none
  else
    reallocIfK env (s.mem = [] ∨ s.n < initialSize) initialSize
    let r ← bufLoopK env ptr size (size + 1) 0
    pure (some r)

/-- `std::fgets` -/
def fgetsK (data : Bytes) : K Io (Option Bytes) := fun s =>
  match fgets data s with
  | .ok (some buff) s' => (.ok (some buff) s', buff.length)
  | r => (r, 1)

/-- `std::strlen(lineptr)` -/
def strlenLineK : K Io Nat := .of strlenLine fun s => (strlen s.mem).getD s.mem.length + 1

/-- `std::memcpy(lineptr + p, ...)` -/
def copyToK (p : Nat) (bytes : Bytes) : K Io Unit := .of (copyTo p bytes) fun _ => bytes.length

/-- the loop of the portable `get_line_file`: common.hpp:67-83; the second `std::strlen` (line 70) looks at the piece and its
terminator -/
def fgetsLoopK (env : Env) (data : Bytes) : Nat → Nat → K Io (Option Nat)
  | 0, _ => .free M.nofuel
  | f + 1, used => do
    match (← fgetsK data) with
    | none => pure (if used ≠ 0 then some used else none)
    | some buff =>
      let lineUsed ← strlenLineK
      match strlen buff with
      | none => .free M.ub
      | some buffUsed =>
        let s ← .of M.get fun _ => buffUsed + 1
        reallocIfK env (s.n ≤ buffUsed + lineUsed) (s.n * 2)
        copyToK lineUsed (buff.take buffUsed)
        wrK (lineUsed + buffUsed) NUL
        if lineUsed + buffUsed = 0 then .free M.ub
        else
          let b ← rdK (lineUsed + buffUsed - 1)
          if b = LF then pure (some (lineUsed + buffUsed))
          else fgetsLoopK env data f (lineUsed + buffUsed)

/-- the portable `get_line_file`: common.hpp:55-84 -/
def getlinePortableK (env : Env) (data : Bytes) : K Io (Option Nat) := do
  let s ← .free M.get
  reallocIfK env (s.mem = [] ∨ s.n < initialSize) initialSize
  wrK 0 NUL
  fgetsLoopK env data (data.length + 1) 0

end Io
end Ssp
