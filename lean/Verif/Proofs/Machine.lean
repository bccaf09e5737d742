import Verif.Model.Parser
import Verif.Spec.Lines
import Verif.Proofs.ConvertLine
/-!
# The row machine

An abstract parser: it works on the list of unread raw lines, has no memory, no pointers, no environment, and is
deterministic.  `Verif.Proofs.MachineSim` proves that the model of the C++ code simulates it.  It is a proof device: the
theorems of `Verif.Props` are stated about the model of the code.

The outcome `ub` of the machine means "nothing is claimed".
-/
namespace Ssp
open Spec

/-- A converter: its error, the error of its splitter, and the columns it would convert (`none`: not known). -/
structure ASlot where
  err : ErrSt := {}
  serr : ErrSt := {}
  cols : Option (List Bytes) := none
  deriving DecidableEq

/-- The reader of the row machine. -/
structure MRd where
  cur : ASlot := {}
  next : ASlot := {}
  sel : List Nat := []
  ncols : Nat := 0
  /-- the text read ahead -/
  look : Bytes := []
  /-- its terminator was CRLF -/
  crlf : Bool := false
  /-- raw lines not yet read -/
  todo : List Bytes := []
  /-- number of reads that found the end of the input -/
  tries : Nat := 0
  ln : Nat := 0
  /-- bytes read -/
  off : Nat := 0
  /-- bytes read before the text read ahead -/
  pos : Nat := 0
  deriving DecidableEq

/-- The state of the row machine. -/
structure Mach where
  err : ErrSt := {}
  rd : MRd := {}
  header : List Bytes := []
  rawHeader : Bytes := []
  eof : Bool := false
  deriving DecidableEq

namespace MRd
variable {α : Type}

/-- the text read ahead after its first byte was overwritten -/
def zap (l : Bytes) : Bytes := l.set 0 NUL

/-- the text read ahead after a blank raw line `l` was read over it -/
def overlay (l look : Bytes) : Bytes := ((l.set 0 NUL ++ [NUL]) ++ look.drop (l.length + 1)).take look.length

/-- reading a line ahead -/
def readGo (ie : Bool) : List Bytes → MRd → Bool × MRd
  | [], a => (false, { a with ln := a.ln + 1, pos := a.off, tries := a.tries + 1, look := zap a.look, todo := [] })
  | l :: ls, a =>
    if ie = true ∧ chop l = [] then
      readGo ie ls { a with ln := a.ln + 1, pos := a.off, off := a.off + l.length, crlf := eolOf l == [CR, LF],
                            todo := ls, look := overlay l a.look }
    else (true, { a with ln := a.ln + 1, pos := a.off, off := a.off + l.length, crlf := eolOf l == [CR, LF],
                         todo := ls, look := chop l })

def readNext (x : Ctx) : M MRd Bool := fun a =>
  let r := readGo x.cfg.ignoreEmpty a.todo { a with next := { a.next with err := a.next.err.clear x.cfg.mode, cols := none } }
  .ok r.1 r.2

/-- `converter::split` of the text -/
def splitText (c : Cfg) (delim text : Bytes) : M MRd Unit := fun a =>
  if text = [] then .ok () { a with next := { a.next with cols := some [] } }
  else match endError c text.length (decodeRow c delim text).2 with
    | some m =>
      if c.mode = .throw then .exc m { a with next := { a.next with cols := none } }
      else .ok () { a with next := { a.next with serr := (a.next.serr.clear c.mode).set c.mode m, cols := none } }
    | none => .ok () { a with next := { a.next with
        serr := a.next.serr.clear c.mode
        cols := if (decodeRow c delim text).2.isOpenQuote then none else some (decodeRow c delim text).1 } }

/-- the number of escape characters at the end of the text -/
def trailing (c : Cfg) (t : Bytes) : Nat := (t.reverse.takeWhile (· ∈ c.escape)).length

/-- an escape character at the end of the text escapes what follows -/
def oddTail (c : Cfg) (t : Bytes) : Bool := trailing c t % 2 == 1

def failLimit (c : Cfg) : M MRd Unit := fun a =>
  if c.mode = .throw then .exc Conv.msgMultilineLimit { a with next := { a.next with cols := none } }
  else .ok () { a with next := { a.next with err := a.next.err.set c.mode Conv.msgMultilineLimit, cols := none } }

/-- `handle_error_unterminated_*` -/
def failOpen (c : Cfg) (m : Bytes) : M MRd Unit := fun a =>
  match c.mode with
  | .throw => .exc m { a with next := { a.next with cols := none } }
  | .bool => .ok () { a with next := { a.next with err := a.next.err.set .bool [], cols := none } }
  | .string => .ok () { a with next :=
      { err := { a.next.err with msg := m }, serr := { a.next.serr with msg := m }, cols := none } }

/-- append the next line to the text -/
def append : M MRd Bool := fun a =>
  match a.todo with
  | [] => .ok false { a with pos := a.off, tries := a.tries + 1, next := { a.next with cols := none } }
  | l :: ls => .ok true
    { a with look := a.look ++ (if a.crlf then [CR, LF] else [LF]) ++ chop l
             ln := a.ln + 1, pos := a.off, off := a.off + l.length, crlf := eolOf l == [CR, LF], todo := ls
             next := { a.next with cols := none } }

/-- The text of the open field is `pre` followed by the text read ahead without its first `before` bytes. -/
def escapeLoop (x : Ctx) (pre : Bytes) (before : Nat) : Nat → Nat → M MRd (Option Nat)
  | 0, _ => M.nofuel
  | f + 1, limit => do
    let a ← M.get
    if oddTail x.cfg (pre ++ a.look.drop before) then
      if x.cfg.mlLimit > 0 ∧ limit ≥ x.cfg.mlLimit then
        failLimit x.cfg
        pure none
      else if (← append) then escapeLoop x pre before f (limit + 1)
      else
        failOpen x.cfg Spl.msgUnterminatedEscape
        pure none
    else pure (some limit)

def escapeLoopIf (x : Ctx) (pre : Bytes) (before : Nat) (limit : Nat) : M MRd (Option Nat) :=
  if x.cfg.multiline ∧ x.cfg.escape ≠ [] then escapeLoop x pre before (Reader.bound x) limit
  else pure (some limit)

/-- `resplit`: `acc`, `n` and `o` describe the open field before `more` was appended: its decoded text, the size of the
text in the buffer, and how much of it belongs to the open field. -/
def resplitText (c : Cfg) (delim : Bytes) (fs : List Bytes) (acc : Bytes) (n o : Nat) (more : Bytes) :
    M MRd Unit := fun a =>
  let D := decode c delim .quoted acc more
  match endError c (n - o + acc.length + more.length) D.2 with
  | some m =>
    if c.mode = .throw then .exc m { a with next := { a.next with cols := none } }
    else .ok () { a with next := { a.next with serr := (a.next.serr.clear c.mode).set c.mode m, cols := none } }
  | none => .ok () { a with next := { a.next with
        serr := a.next.serr.clear c.mode
        cols := if D.2.isOpenQuote then none else some (fs ++ D.1) } }

/-- What stays in the buffer behind a text `t` that was split up to its first NUL only, `more` being the part in front of
it: `adv` of its bytes were used, and the buffer was shortened by the bytes removed from the open field. -/
def leftover (t more : Bytes) (adv : Nat) : Bytes := (t.drop adv).take (t.length - more.length)

/-- `tail`: what stands behind the open field in the buffer; it is empty unless the text contains NUL. -/
def quoteLoop (x : Ctx) : Nat → Nat → List Bytes → Bytes → Nat → Nat → Bytes → M MRd Unit
  | 0, _, _, _, _, _, _ => M.nofuel
  | f + 1, limit, fs, acc, n, o, tail => do
    let a ← M.get
    let before := a.look.length
    if x.cfg.mlLimit > 0 ∧ limit ≥ x.cfg.mlLimit then failLimit x.cfg
    else if (← append) then
      match (← escapeLoopIf x (acc ++ tail) before (limit + 1)) with
      | none => pure ()
      | some limit' =>
        let a ← M.get
        let t := tail ++ a.look.drop before
        let more := cutNul t
        resplitText x.cfg x.delim fs acc n o more
        match (decode x.cfg x.delim .quoted acc more).2 with
        | .openQuote acc' =>
          let n' := n - o + acc.length + more.length
          let o' := openLen x.cfg x.delim .quoted acc more
          quoteLoop x f limit' (fs ++ (decode x.cfg x.delim .quoted acc more).1) acc' n' o'
            (leftover t more (n' - o' + acc'.length - (n - o + acc.length)))
        | _ => pure ()
    else failOpen x.cfg Spl.msgUnterminatedQuote

def parse (x : Ctx) : M MRd Unit := do
  match (← escapeLoopIf x [] 0 0) with
  | none => pure ()
  | some limit =>
    let a ← M.get
    let text := cutNul a.look
    splitText x.cfg x.delim text
    if x.cfg.multiline ∧ x.cfg.quote ≠ none ∧ text ≠ [] then
      match (decodeRow x.cfg x.delim text).2 with
      | .openQuote acc =>
        quoteLoop x (Reader.bound x) limit (decodeRow x.cfg x.delim text).1 acc text.length
          (openLenRow x.cfg x.delim text)
          (leftover a.look text (text.length - openLenRow x.cfg x.delim text + acc.length))
      | _ => pure ()
    else pure ()

def update : M MRd Unit := M.modify fun a => { a with cur := a.next, next := a.cur }

/-- `convert` on the row in `cur`; `none`: some values -/
def convertCur (c : Cfg) (rs : List Req) : M MRd (Option (List Val)) := fun a =>
  let e0 := a.cur.err.clear c.mode
  if a.cur.serr.valid c.mode = false then
    .ok none { a with cur := { a.cur with err := match c.mode with
      | .string => { e0 with msg := a.cur.serr.msg }
      | .throw => e0
      | .bool => { e0 with flag := true } } }
  else match a.cur.cols with
    | none => .ub
    | some cs =>
      match rowResult rs a.sel a.ncols cs with
      | .ok vs => .ok (some vs) { a with cur := { a.cur with err := e0 } }
      | .error m =>
        if c.mode = .throw then .exc m { a with cur := { a.cur with err := e0 } }
        else .ok none { a with cur := { a.cur with err := e0.set c.mode m } }

end MRd

/-! ## The parser -/

namespace Mach
variable {α : Type}

/-- a call on the reader -/
def onRd (m : M MRd α) : M Mach α := fun s =>
  match m s.rd with
  | .ok a r => .ok a { s with rd := r }
  | .exc e r => .exc e { s with rd := r }
  | .ub => .ub
  | .nofuel => .nofuel

def tryCatch (m : M Mach α) (h : Bytes → M Mach α) : M Mach α := fun s =>
  match m s with
  | .exc e s' => h e s'
  | r => r

def valid (c : Cfg) (s : Mach) : Bool := s.err.valid c.mode
def line (s : Mach) : Nat := if s.rd.ln > 0 then s.rd.ln - 1 else s.rd.ln
def clearError (c : Cfg) : M Mach Unit := M.modify fun s => { s with err := s.err.clear c.mode }
def handleError (c : Cfg) (msg : Bytes) : M Mach Unit :=
  match c.mode with
  | .throw => M.throw msg
  | m => M.modify fun s => { s with err := s.err.set m msg }
def handleErrorInvalidConversion (x : Ctx) : M Mach Unit := M.modify fun s =>
  let msg := x.fileName ++ bs " " ++ dec s.rd.ln ++ bs ": " ++ s.rd.cur.err.msg
  { s with err := s.err.set x.cfg.mode msg }
def decorateRethrow (x : Ctx) (e : Bytes) : M Mach α := fun s =>
  .exc (x.fileName ++ bs " " ++ dec s.line ++ bs ": " ++ e) s
def readLine (x : Ctx) : M Mach Unit := do
  let b ← onRd (MRd.readNext x)
  M.modify fun s => { s with eof := !b }

def parseRow (x : Ctx) : M Mach Unit :=
  match x.cfg.mode with
  | .throw => tryCatch (onRd (MRd.parse x)) fun e => do
      readLine x
      decorateRethrow x e
  | _ => onRd (MRd.parse x)
def parseRowIf (x : Ctx) : M Mach Unit := fun s => if s.eof then .ok () s else parseRow x s

def convertRow (x : Ctx) (rs : List Req) : M Mach (Option (List Val)) :=
  match x.cfg.mode with
  | .throw => tryCatch
      (do
        let v ← onRd (MRd.convertCur x.cfg rs)
        readLine x
        pure v)
      (fun e => do
        readLine x
        decorateRethrow x e)
  | _ => do
    let v ← onRd (MRd.convertCur x.cfg rs)
    let s ← M.get
    (if s.rd.cur.err.valid x.cfg.mode then pure () else handleErrorInvalidConversion x)
    readLine x
    pure v

def getNext (x : Ctx) (rs : List Req) : M Mach (Option (List Val)) := do
  parseRowIf x
  onRd MRd.update
  let s ← M.get
  if !s.rd.cur.err.valid x.cfg.mode then
    handleErrorInvalidConversion x
    readLine x
    pure (some (Conv.defaults rs))
  else
    clearError x.cfg
    if s.eof then
      handleError x.cfg (x.fileName ++ bs ": read on end of file")
      pure (some (Conv.defaults rs))
    else convertRow x rs

def strictSplit (x : Ctx) : M Mach (Option Spl) := fun s =>
  match Spl.split (Parser.headerCfg x) x.delim { mem := s.rawHeader ++ [NUL] } with
  | .ok _ sp =>
    if sp.err.valid x.cfg.mode then .ok (some sp) s
    else .ok none { s with err := s.err.set x.cfg.mode (x.fileName ++ bs ": failed header parsing: " ++ sp.err.msg) }
  | .exc e _ => .exc (x.fileName ++ bs ": failed header parsing: " ++ e) s
  | .ub => .ub
  | .nofuel => .nofuel

def columnsOf (sp : Spl) : M Mach (List Bytes) := fun s =>
  if ∀ p ∈ sp.data, p.1 ≤ p.2 ∧ p.2 ≤ sp.mem.length then .ok (sp.data.map fun p => textAt sp.mem p.1 p.2) s else .ub

def getHeader (x : Ctx) : M Mach (List Bytes) := do
  clearError x.cfg
  match (← strictSplit x) with
  | none => pure []
  | some sp => columnsOf sp

def addHeader (x : Ctx) : List Bytes → M Mach Unit
  | [] => pure ()
  | f :: fs => do
    let s ← M.get
    if f ∈ s.header then
      handleError x.cfg (x.fileName ++ bs ": header contains duplicate: " ++ f)
      M.modify fun s => { s with header := [] }
    else
      M.modify fun s => { s with header := s.header ++ [f] }
      addHeader x fs

def splitHeaderData (x : Ctx) : M Mach Unit := do
  match (← strictSplit x) with
  | none => pure ()
  | some sp =>
    let fs ← columnsOf sp
    addHeader x fs

def splitHeaderDataIf (x : Ctx) (p : Mach → Bool) : M Mach Unit := fun s =>
  if p s then splitHeaderData x s else .ok () s

def headerIndex (s : Mach) (f : Bytes) : Option Nat := s.header.idxOf? f

def fieldExists (x : Ctx) (f : Bytes) : M Mach Bool := do
  clearError x.cfg
  splitHeaderDataIf x fun s => s.header.isEmpty
  let s ← M.get
  if !s.valid x.cfg then pure false
  else pure (s.headerIndex f).isSome

def mapFields (x : Ctx) (all : List Bytes) : List Bytes → M Mach (Option (List Nat))
  | [] => pure (some [])
  | f :: fs => do
    if all.count f ≠ 1 then
      handleError x.cfg (x.fileName ++ bs ": given field used multiple times: " ++ f)
      pure none
    else
      let s ← M.get
      match s.headerIndex f with
      | none =>
        handleError x.cfg (x.fileName ++ bs ": header does not contain given field: " ++ f)
        pure none
      | some i =>
        match (← mapFields x all fs) with
        | none => pure none
        | some is => pure (some (i :: is))

def setMapping (sel : List Nat) : M Mach Unit := M.modify fun s =>
  { s with rd := { s.rd with sel := sel, ncols := s.header.length } }

def useFields (x : Ctx) (fs : List Bytes) : M Mach Unit := do
  clearError x.cfg
  splitHeaderDataIf x fun s => s.header.isEmpty && !s.eof
  let s ← M.get
  if !s.valid x.cfg then pure ()
  else if fs = [] then handleError x.cfg (bs "received invalid argument for 'use_fields'")
  else
    match (← mapFields x fs fs) with
    | none => pure ()
    | some sel =>
      setMapping sel
      let s ← M.get
      if s.line = 0 then
        let _ ← onRd (MRd.readNext x)
        pure ()
      else pure ()

def tryInvoke (x : Ctx) (v : Option (List Val)) (fn : Option (List Val → Option Bool)) : M Mach Bool :=
  match fn with
  | none => pure false
  | some f =>
    match v with
    | none => M.ub
    | some v =>
      match f v with
      | some false => do
        handleError x.cfg (x.fileName ++ bs ": failed check")
        pure true
      | _ => pure true

/-- the optional of a composite: engaged with unknown values never happens in a run about which something is claimed -/
def optional (b : Bool) (v : Option (List Val)) : M Mach (Option (List Val)) :=
  if b then
    match v with
    | none => M.ub
    | some v => pure (some v)
  else pure none

def tryNext (x : Ctx) (a : Parser.Alt) : M Mach (Option (List Val) × Bool) := do
  let v ← getNext x a.reqs
  let s ← M.get
  if s.valid x.cfg then
    let called ← tryInvoke x v a.fn
    let s ← M.get
    let o ← optional (s.valid x.cfg) v
    pure (o, called)
  else pure (none, false)

def trySame (x : Ctx) (rs : List Req) : M Mach (Option (List Val)) := do
  clearError x.cfg
  let v ← onRd (MRd.convertCur x.cfg rs)
  let s ← M.get
  (if s.rd.cur.err.valid x.cfg.mode then pure () else handleErrorInvalidConversion x)
  pure v

def orElse (x : Ctx) (a : Parser.Alt) : M Mach (Option (List Val) × Bool) := do
  let s ← M.get
  if s.valid x.cfg then pure (none, false)
  else
    let v ← trySame x a.reqs
    let s ← M.get
    if s.valid x.cfg then
      let called ← tryInvoke x v a.fn
      let s ← M.get
      let o ← optional (s.valid x.cfg) v
      pure (o, called)
    else pure (none, false)

def orElses (x : Ctx) : List Parser.Alt → M Mach (List (Option (List Val) × Bool))
  | [] => pure []
  | a :: as => do
    let r ← orElse x a
    let rest ← orElses x as
    pure (r :: rest)

def tryChain (x : Ctx) (a : Parser.Alt) (as : List Parser.Alt) : M Mach (List (Option (List Val) × Bool)) := do
  let r ← tryNext x a
  let rest ← orElses x as
  pure (r :: rest)

/-- construction -/
def firstLine (x : Ctx) : M Mach Unit := do
  readLine x
  if x.cfg.ignoreHeader then
    let _ ← onRd (MRd.readNext x)
    pure ()
  else
    let a ← M.get
    M.modify fun s => { s with rawHeader := a.rd.look }

/-- the state before construction -/
def init (x : Ctx) : Mach := { rd := { todo := rawLines x.src.data } }

end Mach
end Ssp
