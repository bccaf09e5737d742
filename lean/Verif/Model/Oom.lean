import Verif.Spec.Parser
/-!
# Model of a parser for which memory runs out

In the rest of the model every allocation succeeds.  Here the requests for a larger line buffer (`strict_realloc`, and the
`realloc` inside POSIX `getline`) may be refused, and `errno` is looked at where the code looks at it.  A call returns `none`
when `std::bad_alloc` leaves it.  The allocations of `std::string` and `std::vector` (split data, error texts, header) are not
among the modelled requests.
-/
namespace Ssp

/-- What the system decides: which requests it refuses (by their number), and how many bytes of a line POSIX `getline` has
read into the buffer before its request is refused. -/
structure Alloc where
  refuses : Nat → Bool
  got : Nat → Nat

/-- the number of requests so far, and `errno == ENOMEM` -/
structure Heap where
  reqs : Nat := 0
  enomem : Bool := false
  deriving DecidableEq, Repr

/-- A C++ operation which `std::bad_alloc` may leave (`none`). -/
def F (σ α : Type) := M (σ × Heap) (Option α)

namespace F
variable {σ α β : Type}

protected def pure (a : α) : F σ α := fun p => .ok (some a) p

protected def bind (m : F σ α) (f : α → F σ β) : F σ β := fun p =>
  match m p with
  | .ok (some a) p' => f a p'
  | .ok none p' => .ok none p'
  | .exc e p' => .exc e p'
  | .ub => .ub
  | .nofuel => .nofuel

instance : Monad (F σ) where
  pure := F.pure
  bind := F.bind

/-- an operation without requests -/
def lift (m : M σ α) : F σ α := fun p =>
  match m p.1 with
  | .ok a s => .ok (some a) (s, p.2)
  | .exc e s => .exc e (s, p.2)
  | .ub => .ub
  | .nofuel => .nofuel

instance : MonadLift (M σ) (F σ) where
  monadLift := lift

/-- read the object -/
def get : F σ σ := lift M.get

/-- `throw std::bad_alloc{}` -/
def badAlloc : F σ α := fun p => .ok none p

/-- A request: true if it is granted; `realloc` sets `errno` otherwise. -/
def request (w : Alloc) : F σ Bool := fun p =>
  if w.refuses p.2.reqs then .ok (some false) (p.1, { reqs := p.2.reqs + 1, enomem := true })
  else .ok (some true) (p.1, { p.2 with reqs := p.2.reqs + 1 })

/-- `errno == ENOMEM` -/
def errnoIsEnomem : F σ Bool := fun p => .ok (some p.2.enomem) p

/-- an operation on a part of the object -/
def zoom {τ : Type} (g : σ → τ) (set : σ → τ → σ) (m : F τ α) : F σ α := fun p =>
  match m (g p.1, p.2) with
  | .ok r q => .ok r (set p.1 q.1, q.2)
  | .exc e q => .exc e (set p.1 q.1, q.2)
  | .ub => .ub
  | .nofuel => .nofuel

end F

namespace Io

/-- `lineptr = strict_realloc(lineptr, size); n = size;`: common.hpp:36-43; when the request is refused the exception leaves
before `lineptr` and `n` are assigned (58-62, 72-76, 96-101, 107-113). -/
def reallocF (w : Alloc) (env : Env) (size : Nat) : F Io Unit := do
  if (← F.request w) then F.lift (realloc env size) else F.badAlloc

/-- the same under a condition -/
def reallocIfF (w : Alloc) (env : Env) (p : Prop) [Decidable p] (size : Nat) : F Io Unit :=
  if p then reallocF w env size else pure ()

/-- the loop of `get_line_buffer`: common.hpp:105-121, and 123-124 behind it -/
def bufLoopF (w : Alloc) (env : Env) (ptr : Option Bytes) (size : Nat) : Nat → Nat → F Io Nat
  | 0, _ => F.lift M.nofuel
  | f + 1, used => do
    let s ← F.get
    if s.curr < size then
      reallocIfF w env (used + 1 ≥ s.n) (s.n * 2)
      let c ← F.lift (rdCsv ptr s.curr)
      F.lift (M.modify fun s => { s with curr := s.curr + 1 })
      F.lift (wr used c)
      if c = LF then
        F.lift (wr (used + 1) NUL)
        pure (used + 1)
      else bufLoopF w env ptr size f (used + 1)
    else
      F.lift (wr used NUL)
      pure used

/-- `get_line_buffer`: common.hpp:88-125 -/
def getLineBufferF (w : Alloc) (env : Env) (ptr : Option Bytes) (size : Nat) : F Io (Option Nat) := do
  let s ← F.get
  if s.curr ≥ size then pure none
  else
    reallocIfF w env (s.mem = [] ∨ s.n < initialSize) initialSize
    let r ← bufLoopF w env ptr size (size + 1) 0
    pure (some r)

/-- POSIX `getline` whose request is refused: it returns -1.  Some bytes of the line (less than all of them, and as many as
fit) have been read into the buffer; `lineptr` and `n` are unchanged.  (Requests of the same call that were granted before are
not represented: the block is the one it was called with.) -/
def getlineRefused (w : Alloc) (line : Bytes) : F Io (Option Nat) := fun p =>
  let k := min (w.got p.2.reqs) (min (line.length - 1) p.1.mem.length)
  .ok (some none) ({ p.1 with mem := line.take k ++ p.1.mem.drop k, fpos := p.1.fpos + k }, p.2)

/-- POSIX `getline` by its contract: see `getlinePosix` -/
def getlinePosixF (w : Alloc) (env : Env) (data : Bytes) : F Io (Option Nat) := do
  let s ← F.get
  let line := upToLF (data.drop s.fpos)
  if line = [] then
    if s.mem = [] then
      if (← F.request w) then F.lift (realloc env (env.grow s.tick)) else pure ()
    else pure ()
    pure none
  else
    let granted ← (if s.mem = [] ∨ s.n < line.length + 1 then do
        if (← F.request w) then
          F.lift (realloc env (line.length + 1 + env.grow s.tick))
          pure true
        else pure false
      else pure true)
    if granted then
      F.lift (M.modify fun s =>
        { s with
          mem := line ++ NUL :: s.mem.drop (line.length + 1)
          fpos := s.fpos + line.length })
      pure (some line.length)
    else getlineRefused w line

/-- the loop of the portable `get_line_file`: common.hpp:67-83 -/
def fgetsLoopF (w : Alloc) (env : Env) (data : Bytes) : Nat → Nat → F Io (Option Nat)
  | 0, _ => F.lift M.nofuel
  | f + 1, used => do
    match (← F.lift (fgets data)) with
    | none => pure (if used ≠ 0 then some used else none)
    | some buff =>
      let lineUsed ← F.lift strlenLine
      match strlen buff with
      | none => F.lift M.ub
      | some buffUsed =>
        let s ← F.get
        reallocIfF w env (s.n ≤ buffUsed + lineUsed) (s.n * 2)
        F.lift (copyTo lineUsed (buff.take buffUsed))
        F.lift (wr (lineUsed + buffUsed) NUL)
        if lineUsed + buffUsed = 0 then F.lift M.ub
        else
          let b ← F.lift (rd (lineUsed + buffUsed - 1))
          if b = LF then pure (some (lineUsed + buffUsed))
          else fgetsLoopF w env data f (lineUsed + buffUsed)

/-- the portable `get_line_file`: common.hpp:55-84 -/
def getlinePortableF (w : Alloc) (env : Env) (data : Bytes) : F Io (Option Nat) := do
  let s ← F.get
  reallocIfF w env (s.mem = [] ∨ s.n < initialSize) initialSize
  F.lift (wr 0 NUL)
  fgetsLoopF w env data (data.length + 1) 0

/-- `get_line_file`: common.hpp:45-86 -/
def getLineFileF (w : Alloc) (unix : Bool) (env : Env) (data : Bytes) : F Io (Option Nat) :=
  if unix then getlinePosixF w env data else getlinePortableF w env data

/-- `if (ssize == -1 && errno == ENOMEM) throw std::bad_alloc{};`: common.hpp:141-149.  Nothing sets `errno` to 0 before, so an
old ENOMEM counts as well. -/
def lineOrBadAlloc : Option Nat → F Io (Option Nat)
  | some k => pure (some k)
  | none => do
    if (← F.errnoIsEnomem) then F.badAlloc else pure none

/-- `get_line`: common.hpp:127-150 -/
def getLineF (w : Alloc) (env : Env) (src : Src) : F Io (Option Nat) := do
  match src with
  | .file unix data => do
    let r ← getLineFileF w unix env data
    F.lift (M.modify fun s => { s with curr := advance s.curr r })
    lineOrBadAlloc r
  | .buf ptr size => do
    let r ← getLineBufferF w env ptr size
    lineOrBadAlloc r

end Io

namespace Reader

/-- `get_line(next_line_buffer_, ...)`: parser.hpp:852-854 -/
def getLineNextF (w : Alloc) (x : Ctx) : F Reader (Option Nat) := F.zoom ioNext setNext (Io.getLineF w x.env x.src)

/-- `get_line(helper_buffer_, ...)`: parser.hpp:1005-1007 -/
def getLineHelperF (w : Alloc) (x : Ctx) : F Reader (Option Nat) := F.zoom ioHelper setHelper (Io.getLineF w x.env x.src)

/-- the loop of `read_next`: parser.hpp:845-866 -/
def readNextLoopF (w : Alloc) (x : Ctx) : Nat → F Reader Bool
  | 0 => F.lift M.nofuel
  | f + 1 => do
    F.lift (M.modify fun s => { s with lineNumber := s.lineNumber + 1 })
    let s ← F.get
    F.lift (if s.next.size > 0 then wrNext 0 NUL else pure ())
    F.lift (M.modify fun s => { s with charsRead := s.curr })
    match (← getLineNextF w x) with
    | none => pure false
    | some ssize =>
      let size ← F.lift (removeEolNext ssize)
      if x.cfg.ignoreEmpty ∧ size = 0 then readNextLoopF w x f
      else
        F.lift (M.modify fun s => { s with nextLineSize := size })
        pure true

/-- `read_next`: parser.hpp:842-869 -/
def readNextF (w : Alloc) (x : Ctx) : F Reader Bool := do
  F.lift (onNext (Conv.clearError x.cfg))
  readNextLoopF w x (bound x)

/-- `realloc_concat`: parser.hpp:987-997.  `buffer_size` is assigned (990) before `strict_realloc` (991-992) can throw. -/
def reallocConcatF (w : Alloc) (x : Ctx) (second : Nat) : F Reader Unit := do
  if (← F.request w) then F.lift (reallocConcat x second)
  else
    F.lift (M.modify fun s => { s with next := { s.next with size := s.nextLineSize + second + 3 } })
    F.badAlloc

/-- `append_next_line_to_buffer`: parser.hpp:999-1018 -/
def appendNextLineF (w : Alloc) (x : Ctx) : F Reader Bool := do
  F.lift undoRemoveEol
  F.lift (M.modify fun s => { s with charsRead := s.curr })
  match (← getLineHelperF w x) with
  | none => pure false
  | some ssize =>
    F.lift (M.modify fun s => { s with lineNumber := s.lineNumber + 1 })
    let size ← F.lift (removeEolHelper ssize)
    reallocConcatF w x size
    pure true

/-- the escape loops of `parse`: parser.hpp:874-887 and 904-917 -/
def escapeLoopF (w : Alloc) (x : Ctx) : Nat → Nat → F Reader (Option Nat)
  | 0, _ => F.lift M.nofuel
  | f + 1, limit => do
    let s ← F.get
    if (← F.lift (escapedEol x s.nextLineSize)) then
      if (← F.lift (multilineLimitReached x limit)) then pure none
      else if (← appendNextLineF w x) then escapeLoopF w x f (limit + 1)
      else
        F.lift (onNext (Conv.handleErrorUnterminatedEscape x.cfg))
        pure none
    else pure (some limit)

/-- the loop under `if constexpr (escaped_multiline_enabled)` -/
def escapeLoopIfF (w : Alloc) (x : Ctx) (limit : Nat) : F Reader (Option Nat) :=
  if x.cfg.multiline ∧ x.cfg.escape ≠ [] then escapeLoopF w x (bound x) limit
  else pure (some limit)

/-- the quote loop of `parse`: parser.hpp:891-925 -/
def quoteLoopF (w : Alloc) (x : Ctx) : Nat → Nat → F Reader Unit
  | 0, _ => F.lift M.nofuel
  | f + 1, limit => do
    let s ← F.get
    if s.next.conv.spl.unterminatedQuote then
      if s.nextLineSize < s.next.conv.spl.escaped then F.lift M.ub
      else
        F.lift (M.modify fun s => { s with nextLineSize := s.nextLineSize - s.next.conv.spl.escaped })
        if (← F.lift (multilineLimitReached x limit)) then pure ()
        else if (← appendNextLineF w x) then
          match (← escapeLoopIfF w x (limit + 1)) with
          | none => pure ()
          | some limit' =>
            let s ← F.get
            F.lift (onNext (Conv.onSpl (Spl.resplit x.cfg s.nextLineSize x.delim)))
            quoteLoopF w x f limit'
        else F.lift (onNext (Conv.handleErrorUnterminatedQuote x.cfg))
    else pure ()

/-- `parse`: parser.hpp:871-926 -/
def parseF (w : Alloc) (x : Ctx) : F Reader Unit := do
  match (← escapeLoopIfF w x 0) with
  | none => pure ()
  | some limit =>
    F.lift (onNext (Conv.split x.cfg x.delim))
    if x.cfg.multiline ∧ x.cfg.quote ≠ none then quoteLoopF w x (bound x) limit
    else pure ()

end Reader

namespace Parser
variable {α : Type}

/-- a call on `reader_` -/
def onRdF (m : F Reader α) : F Parser α := F.zoom (·.rd) (fun s r => { s with rd := r }) m

/-- `try { m } catch (const ss::exception& e) { h(e) }`: `std::bad_alloc` is not caught -/
def tryCatchF (m : F Parser α) (h : Bytes → F Parser α) : F Parser α := fun p =>
  match m p with
  | .exc e p' => h e p'
  | r => r

/-- `read_line`: parser.hpp:760-762 -/
def readLineF (w : Alloc) (x : Ctx) : F Parser Unit := do
  let b ← onRdF (Reader.readNextF w x)
  F.lift (M.modify fun s => { s with eof := !b })

/-- `ignore_next`: parser.hpp:97-99 -/
def ignoreNextF (w : Alloc) (x : Ctx) : F Parser Bool := onRdF (Reader.readNextF w x)

/-- the first part of `get_next`: parser.hpp:117-128 -/
def parseRowF (w : Alloc) (x : Ctx) : F Parser Unit :=
  match x.cfg.mode with
  | .throw => tryCatchF (onRdF (Reader.parseF w x)) fun e => do
      readLineF w x
      F.lift (decorateRethrow x e)
  | _ => onRdF (Reader.parseF w x)

/-- the same under `if (!eof_)` -/
def parseRowIfF (w : Alloc) (x : Ctx) : F Parser Unit := do
  let s ← F.get
  if s.eof then pure () else parseRowF w x

/-- the last part of `get_next`: parser.hpp:144-162 -/
def convertRowF (w : Alloc) (x : Ctx) (rs : List Req) : F Parser (List Val) :=
  match x.cfg.mode with
  | .throw => tryCatchF
      (do
        let v ← F.lift (onCur (Conv.convertCached x.cfg rs))
        readLineF w x
        pure v)
      (fun e => do
        readLineF w x
        F.lift (decorateRethrow x e))
  | _ => do
    let v ← F.lift (onCur (Conv.convertCached x.cfg rs))
    let s ← F.get
    F.lift (if Conv.valid x.cfg s.rd.cur.conv then pure () else handleErrorInvalidConversion x)
    readLineF w x
    pure v

/-- `get_next<Ts...>()` (and `get_object`): parser.hpp:101-104, 115-163 -/
def getNextF (w : Alloc) (x : Ctx) (rs : List Req) : F Parser (List Val) := do
  parseRowIfF w x
  F.lift (onRd Reader.update)
  let s ← F.get
  if !Conv.valid x.cfg s.rd.cur.conv then
    F.lift (handleErrorInvalidConversion x)
    readLineF w x
    pure (Conv.defaults rs)
  else
    F.lift (clearError x.cfg)
    if s.eof then
      F.lift (handleError x.cfg (x.fileName ++ bs ": read on end of file"))
      pure (Conv.defaults rs)
    else convertRowF w x rs

/-- parser.hpp:41-46, 58-63 -/
def firstLineF (w : Alloc) (x : Ctx) : F Parser Unit := do
  readLineF w x
  if x.cfg.ignoreHeader then
    let _ ← ignoreNextF w x
    pure ()
  else
    let b ← F.lift (onRd Reader.getBuffer)
    F.lift (M.modify fun s => { s with rawHeader := b })

/-- `parser(file_name, delim)`: parser.hpp:38-51 -/
def newFileF (w : Alloc) (x : Ctx) : F Parser Unit :=
  match x.src with
  | .file _ _ => firstLineF w x
  | .buf _ _ => F.lift (newFile x)

/-- `parser(csv_data_buffer, csv_data_size, delim)`: parser.hpp:53-68 -/
def newBufferF (w : Alloc) (x : Ctx) : F Parser Unit :=
  match x.src with
  | .buf none _ => F.lift (newBuffer x)
  | _ => firstLineF w x

/-- `use_fields`: parser.hpp:204-249 -/
def useFieldsF (w : Alloc) (x : Ctx) (fs : List Bytes) : F Parser Unit := do
  F.lift (clearError x.cfg)
  F.lift (splitHeaderDataIf x fun s => s.header.isEmpty && !s.eof)
  let s ← F.get
  if !s.valid x.cfg then pure ()
  else if fs = [] then F.lift (handleError x.cfg (bs "received invalid argument for 'use_fields'"))
  else
    match (← F.lift (mapFields x fs fs)) with
    | none => pure ()
    | some sel =>
      F.lift (setMapping sel)
      let s ← F.get
      if s.line = 0 then
        let _ ← ignoreNextF w x
        pure ()
      else pure ()

/-- `try_next` (and `try_object`): parser.hpp:450-468, 514-521 -/
def tryNextF (w : Alloc) (x : Ctx) (a : Alt) : F Parser (Option (List Val) × Bool) := do
  let v ← getNextF w x a.reqs
  let s ← F.get
  if s.valid x.cfg then
    let called ← F.lift (tryInvoke x v a.fn)
    let s ← F.get
    pure (if s.valid x.cfg then some v else none, called)
  else pure (none, false)

/-- `try_next(...).or_else(...)...` -/
def tryChainF (w : Alloc) (x : Ctx) (a : Alt) (as : List Alt) : F Parser (List (Option (List Val) × Bool)) := do
  let r ← tryNextF w x a
  let rest ← F.lift (orElses x as)
  pure (r :: rest)

end Parser

/-- the call -/
def Op.execF (w : Alloc) (x : Ctx) : Op → F Parser Ret
  | .getNext rs => do
    let v ← Parser.getNextF w x rs
    let s ← F.get
    pure (.row (if s.valid x.cfg then some v else none))
  | .ignoreNext => do
    let b ← Parser.ignoreNextF w x
    pure (.flag b)
  | .header => F.lift (Op.exec x .header)
  | .rawHeader => F.lift (Op.exec x .rawHeader)
  | .fieldExists f => F.lift (Op.exec x (.fieldExists f))
  | .useFields fs => do
    Parser.useFieldsF w x fs
    pure .unit
  | .chain a as => do
    let s ← F.get
    if s.eof then pure (.opts [])
    else
      let l ← Parser.tryChainF w x a as
      pure (.opts l)

end Ssp
