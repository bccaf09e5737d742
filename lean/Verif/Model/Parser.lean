import Verif.Model.Reader
/-!
# Model of `ss::parser` (include/ss/parser.hpp)
-/
namespace Ssp

/-- `ss::parser`: members parser.hpp:1056-1061 (`file_name_` is in `Ctx`). -/
structure Parser where
  err : ErrSt := {}
  rd : Reader := {}
  header : List Bytes := []
  rawHeader : Bytes := []
  eof : Bool := false
  deriving DecidableEq, Repr

namespace Parser
variable {α : Type}

/-- a call on `reader_` -/
def onRd (m : M Reader α) : M Parser α := fun s =>
  match m s.rd with
  | .ok a r => .ok a { s with rd := r }
  | .exc e r => .exc e { s with rd := r }
  | .ub => .ub
  | .nofuel => .nofuel

/-- a call on `reader_.converter_` -/
def onCur (m : M Conv α) : M Parser α := fun s =>
  match m s.rd.cur.conv with
  | .ok a cv => .ok a { s with rd := { s.rd with cur := { s.rd.cur with conv := cv } } }
  | .exc e cv => .exc e { s with rd := { s.rd with cur := { s.rd.cur with conv := cv } } }
  | .ub => .ub
  | .nofuel => .nofuel

/-- `try { m } catch (const ss::exception& e) { h(e) }` -/
def tryCatch (m : M Parser α) (h : Bytes → M Parser α) : M Parser α := fun s =>
  match m s with
  | .exc e s' => h e s'
  | r => r

/-- `valid()`: parser.hpp:78-86 -/
def valid (c : Cfg) (s : Parser) : Bool := s.err.valid c.mode

/-- `line()`: parser.hpp:106-109 -/
def line (s : Parser) : Nat := if s.rd.lineNumber > 0 then s.rd.lineNumber - 1 else s.rd.lineNumber

/-- `position()`: parser.hpp:111-113 -/
def position (s : Parser) : Nat := s.rd.charsRead

/-- `clear_error`: parser.hpp:585-591 -/
def clearError (c : Cfg) : M Parser Unit := M.modify fun s => { s with err := s.err.clear c.mode }

/-- the `handle_error_*` functions with a fixed message: parser.hpp:593-644, 660-732 -/
def handleError (c : Cfg) (msg : Bytes) : M Parser Unit :=
  match c.mode with
  | .throw => M.throw msg
  | m => M.modify fun s => { s with err := s.err.set m msg }

/-- `handle_error_invalid_conversion`: parser.hpp:645-656 -/
def handleErrorInvalidConversion (x : Ctx) : M Parser Unit := M.modify fun s =>
  let msg := x.fileName ++ bs " " ++ dec s.rd.lineNumber ++ bs ": " ++ s.rd.cur.conv.err.msg
  { s with err := s.err.set x.cfg.mode msg }

/-- `decorate_rethrow`: parser.hpp:746-754 -/
def decorateRethrow (x : Ctx) (e : Bytes) : M Parser α := fun s =>
  .exc (x.fileName ++ bs " " ++ dec s.line ++ bs ": " ++ e) s

/-- `read_line`: parser.hpp:760-762 -/
def readLine (x : Ctx) : M Parser Unit := do
  let b ← onRd (Reader.readNext x)
  M.modify fun s => { s with eof := !b }

/-- `ignore_next`: parser.hpp:97-99 -/
def ignoreNext (x : Ctx) : M Parser Bool := onRd (Reader.readNext x)

/-- the first part of `get_next`: parser.hpp:117-128 -/
def parseRow (x : Ctx) : M Parser Unit :=
  match x.cfg.mode with
  | .throw => tryCatch (onRd (Reader.parse x)) fun e => do
      readLine x
      decorateRethrow x e
  | _ => onRd (Reader.parse x)

/-- the same under `if (!eof_)` -/
def parseRowIf (x : Ctx) : M Parser Unit := fun s => if s.eof then .ok () s else parseRow x s

/-- the last part of `get_next`: parser.hpp:144-162 -/
def convertRow (x : Ctx) (rs : List Req) : M Parser (List Val) :=
  match x.cfg.mode with
  | .throw => tryCatch
      (do
        let v ← onCur (Conv.convertCached x.cfg rs)
        readLine x
        pure v)
      (fun e => do
        readLine x
        decorateRethrow x e)
  | _ => do
    let v ← onCur (Conv.convertCached x.cfg rs)
    let s ← M.get
    (if Conv.valid x.cfg s.rd.cur.conv then pure () else handleErrorInvalidConversion x)
    readLine x
    pure v

/-- `get_next<Ts...>()` (and `get_object`): parser.hpp:101-104, 115-163 -/
def getNext (x : Ctx) (rs : List Req) : M Parser (List Val) := do
  parseRowIf x
  onRd Reader.update
  let s ← M.get
  if !Conv.valid x.cfg s.rd.cur.conv then
    handleErrorInvalidConversion x
    readLine x
    pure (Conv.defaults rs)
  else
    clearError x.cfg
    if s.eof then
      handleError x.cfg (x.fileName ++ bs ": read on end of file")
      pure (Conv.defaults rs)
    else convertRow x rs

/-! ## Construction -/

/-- parser.hpp:41-46, 58-63 -/
def firstLine (x : Ctx) : M Parser Unit := do
  readLine x
  if x.cfg.ignoreHeader then
    let _ ← ignoreNext x
    pure ()
  else
    let b ← onRd Reader.getBuffer
    M.modify fun s => { s with rawHeader := b }

/-- `parser(file_name, delim)`: parser.hpp:38-51.  A file that could not be opened (`fopen` returned null, and
`csv_data_buffer_` is null too) is the source `.buf none 0`. -/
def newFile (x : Ctx) : M Parser Unit :=
  match x.src with
  | .file _ _ => firstLine x
  | .buf _ _ => do
    handleError x.cfg (x.fileName ++ bs ": could not be opened")
    M.modify fun s => { s with eof := true }

/-- `parser(csv_data_buffer, csv_data_size, delim)`: parser.hpp:53-68 -/
def newBuffer (x : Ctx) : M Parser Unit :=
  match x.src with
  | .buf none _ => do
    handleError x.cfg (x.fileName ++ bs ": received null data buffer")
    M.modify fun s => { s with eof := true }
  | _ => firstLine x

/-! ## Header -/

/-- the setup of `header_splitter`: parser.hpp:34-35.  `filter_not_t` only looks at the options themselves, so a
`multiline` inside an `ss::setup<...>` option stays. -/
def headerCfg (x : Ctx) : Cfg :=
  if x.wrapped then x.cfg else { x.cfg with multiline := false, mlLimit := 0 }

/-- `strict_split` on a copy of `raw_header_` with a new splitter: parser.hpp:531-549, 174-179, 551-557; `none`: it
returned false. -/
def strictSplit (x : Ctx) : M Parser (Option Spl) := fun s =>
  match Spl.split (headerCfg x) x.delim { mem := s.rawHeader ++ [NUL] } with
  | .ok _ sp =>
    if sp.err.valid x.cfg.mode then .ok (some sp) s
    else .ok none { s with err := s.err.set x.cfg.mode (x.fileName ++ bs ": failed header parsing: " ++ sp.err.msg) }
  | .exc e _ => .exc (x.fileName ++ bs ": failed header parsing: " ++ e) s
  | .ub => .ub
  | .nofuel => .nofuel

/-- `std::string{begin, end}` for every pair of the split data: parser.hpp:182-184, 559-560 -/
def columnsOf (sp : Spl) : M Parser (List Bytes) := fun s =>
  if ∀ p ∈ sp.data, p.1 ≤ p.2 ∧ p.2 ≤ sp.mem.length then .ok (sp.data.map fun p => textAt sp.mem p.1 p.2) s else .ub

/-- `header()`: parser.hpp:170-187 -/
def getHeader (x : Ctx) : M Parser (List Bytes) := do
  clearError x.cfg
  match (← strictSplit x) with
  | none => pure []
  | some sp => columnsOf sp

/-- the loop of `split_header_data`: parser.hpp:559-568 -/
def addHeader (x : Ctx) : List Bytes → M Parser Unit
  | [] => pure ()
  | f :: fs => do
    let s ← M.get
    if f ∈ s.header then
      handleError x.cfg (x.fileName ++ bs ": header contains duplicate: " ++ f)
      M.modify fun s => { s with header := [] }
    else
      M.modify fun s => { s with header := s.header ++ [f] }
      addHeader x fs

/-- `split_header_data`: parser.hpp:551-569 -/
def splitHeaderData (x : Ctx) : M Parser Unit := do
  match (← strictSplit x) with
  | none => pure ()
  | some sp =>
    let fs ← columnsOf sp
    addHeader x fs

/-- `split_header_data` under a condition -/
def splitHeaderDataIf (x : Ctx) (p : Parser → Bool) : M Parser Unit := fun s =>
  if p s then splitHeaderData x s else .ok () s

/-- `header_index`: parser.hpp:571-579 -/
def headerIndex (s : Parser) (f : Bytes) : Option Nat := s.header.idxOf? f

/-- `field_exists`: parser.hpp:189-202 -/
def fieldExists (x : Ctx) (f : Bytes) : M Parser Bool := do
  clearError x.cfg
  splitHeaderDataIf x fun s => s.header.isEmpty
  let s ← M.get
  if !s.valid x.cfg then pure false
  else pure (s.headerIndex f).isSome

/-- the loop of `use_fields`: parser.hpp:226-241; `none`: it returned with an error. -/
def mapFields (x : Ctx) (all : List Bytes) : List Bytes → M Parser (Option (List Nat))
  | [] => pure (some [])
  | f :: fs => do
    if all.count f ≠ 1 then
      handleError x.cfg (x.fileName ++ bs ": given field used multiple times: " ++ f)
      pure none
    else
      let s ← M.get
      match s.headerIndex f with
      | none =>
        handleError x.cfg (x.fileName ++ bs ": header does not contain given field: " ++ f)
        pure none
      | some i =>
        match (← mapFields x all fs) with
        | none => pure none
        | some is => pure (some (i :: is))

/-- `set_column_mapping` on both converters: parser.hpp:243-245, converter.hpp:409-413 -/
def setMapping (sel : List Nat) : M Parser Unit := M.modify fun s =>
  { s with rd := { s.rd with
      cur := { s.rd.cur with conv := { s.rd.cur.conv with mappings := sel, ncols := s.header.length } }
      next := { s.rd.next with conv := { s.rd.next.conv with mappings := sel, ncols := s.header.length } } } }

/-- `use_fields`: parser.hpp:204-249 -/
def useFields (x : Ctx) (fs : List Bytes) : M Parser Unit := do
  clearError x.cfg
  splitHeaderDataIf x fun s => s.header.isEmpty && !s.eof
  let s ← M.get
  if !s.valid x.cfg then pure ()
  else if fs = [] then handleError x.cfg (bs "received invalid argument for 'use_fields'")
  else
    match (← mapFields x fs fs) with
    | none => pure ()
    | some sel =>
      setMapping sel
      let s ← M.get
      if s.line = 0 then
        let _ ← ignoreNext x
        pure ()
      else pure ()

/-! ## Iterators -/

/-- `iterable::iterator`: parser.hpp:256-318: `parser_ != nullptr` and `value_` -/
structure Iter where
  active : Bool
  value : List Val

/-- `operator++`: parser.hpp:282-295 -/
def iterIncr (x : Ctx) (rs : List Req) (it : Iter) : M Parser Iter := do
  let s ← M.get
  if !it.active || s.eof then pure { it with active := false }
  else
    let v ← getNext x rs
    pure { it with value := v }

/-- the rest of a range based for loop: `it != end()`, body (collects `*it`), `++it` -/
def iterLoop (x : Ctx) (rs : List Req) : Nat → Iter → M Parser (List (List Val))
  | 0, _ => M.nofuel
  | f + 1, it =>
    if it.active then do
      let it' ← iterIncr x rs it
      let vs ← iterLoop x rs f it'
      pure (it.value :: vs)
    else pure []

/-- `for (auto& v : p.iterate<...>())`: parser.hpp:320-343, with the values visited. -/
def iterate (x : Ctx) (rs : List Req) (fuel : Nat) : M Parser (List (List Val)) := do
  let it ← iterIncr x rs { active := true, value := Conv.defaults rs }
  iterLoop x rs fuel it

/-- `while (!p.eof()) p.get_next<...>()`, with the values returned -/
def whileNotEof (x : Ctx) (rs : List Req) : Nat → M Parser (List (List Val))
  | 0 => M.nofuel
  | f + 1 => do
    let s ← M.get
    if s.eof then pure []
    else
      let v ← getNext x rs
      let vs ← whileNotEof x rs f
      pure (v :: vs)

/-! ## Composites -/

/-- An alternative of a composite conversion: the types, and the callback if one was passed.  A callback returns
nothing (`none`) or something used as a condition. -/
structure Alt where
  reqs : List Req
  fn : Option (List Val → Option Bool) := none

/-- `try_invoke`: parser.hpp:472-491.  Returns whether a callback was called. -/
def tryInvoke (x : Ctx) (v : List Val) (fn : Option (List Val → Option Bool)) : M Parser Bool :=
  match fn with
  | none => pure false
  | some f =>
    match f v with
    | some false => do
      handleError x.cfg (x.fileName ++ bs ": failed check")
      pure true
    | _ => pure true

/-- `try_next` (and `try_object`): parser.hpp:450-468, 514-521.  Returns the optional of the composite and whether the
callback was called. -/
def tryNext (x : Ctx) (a : Alt) : M Parser (Option (List Val) × Bool) := do
  let v ← getNext x a.reqs
  let s ← M.get
  if s.valid x.cfg then
    let called ← tryInvoke x v a.fn
    let s ← M.get
    pure (if s.valid x.cfg then some v else none, called)
  else pure (none, false)

/-- `try_same`: parser.hpp:431-440 -/
def trySame (x : Ctx) (rs : List Req) : M Parser (List Val) := do
  clearError x.cfg
  let v ← onCur (Conv.convertCached x.cfg rs)
  let s ← M.get
  (if Conv.valid x.cfg s.rd.cur.conv then pure () else handleErrorInvalidConversion x)
  pure v

/-- `or_else` (and `or_object`): parser.hpp:355-377, 401-429 -/
def orElse (x : Ctx) (a : Alt) : M Parser (Option (List Val) × Bool) := do
  let s ← M.get
  if s.valid x.cfg then pure (none, false)
  else
    let v ← trySame x a.reqs
    let s ← M.get
    if s.valid x.cfg then
      let called ← tryInvoke x v a.fn
      let s ← M.get
      pure (if s.valid x.cfg then some v else none, called)
    else pure (none, false)

/-- a chain of `or_else` -/
def orElses (x : Ctx) : List Alt → M Parser (List (Option (List Val) × Bool))
  | [] => pure []
  | a :: as => do
    let r ← orElse x a
    let rest ← orElses x as
    pure (r :: rest)

/-- `try_next(...).or_else(...)...`: the optionals of `values()`, each with whether its callback was called -/
def tryChain (x : Ctx) (a : Alt) (as : List Alt) : M Parser (List (Option (List Val) × Bool)) := do
  let r ← tryNext x a
  let rest ← orElses x as
  pure (r :: rest)

/-- `on_error`: parser.hpp:383-398.  `some m`: the callback was called, and `m` is the `error_msg()` it is given (under
`string_error`; without it the callback has no arguments).  The callback itself is not modelled. -/
def onError (x : Ctx) : M Parser (Option Bytes) := fun s => .ok (if s.valid x.cfg then none else some s.err.msg) s

/-- a link of a chain behind `try_next` -/
inductive Link where
  | orElse (a : Alt)
  | onError

/-- what a link of a chain did: the optional and whether the callback was called, or how the error callback was called -/
inductive LinkOut where
  | opt (v : Option (List Val)) (called : Bool)
  | err (called : Option Bytes)
  deriving DecidableEq

/-- `.or_else(...)` and `.on_error(...)` in any order; `values()` are the optionals -/
def links (x : Ctx) : List Link → M Parser (List LinkOut)
  | [] => pure []
  | .orElse a :: ls => do
    let r ← orElse x a
    let rest ← links x ls
    pure (.opt r.1 r.2 :: rest)
  | .onError :: ls => do
    let r ← onError x
    let rest ← links x ls
    pure (.err r :: rest)

/-- `try_next(...)` followed by links -/
def tryLinks (x : Ctx) (a : Alt) (ls : List Link) : M Parser (List LinkOut) := do
  let r ← tryNext x a
  let rest ← links x ls
  pure (.opt r.1 r.2 :: rest)

end Parser
end Ssp
