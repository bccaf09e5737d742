import Verif.Model.Extract
/-!
# Model of `ss::converter` (include/ss/converter.hpp)
-/
namespace Ssp

/-- A requested type: `void`, a plain type, or a validator (a type with `ss_valid`, converter.hpp:24-40): the
type it operates on, the predicate, and the text reported when it fails (`error()` or "validation error",
converter.hpp:441-450). -/
inductive Req where
  | void
  | ty (t : Ty)
  | valid (t : Ty) (p : Val → Bool) (msg : Bytes)

/-- `ss::converter`: converter.hpp:491-498 -/
structure Conv where
  spl : Spl := {}
  err : ErrSt := {}
  /-- `column_mappings_` -/
  mappings : List Nat := []
  /-- `number_of_columns_` -/
  ncols : Nat := 0
  deriving DecidableEq, Repr

namespace Conv

/-- a call on the member `splitter_` -/
def onSpl {α : Type} (m : M Spl α) : M Conv α := fun s =>
  match m s.spl with
  | .ok a sp => .ok a { s with spl := sp }
  | .exc e sp => .exc e { s with spl := sp }
  | .ub => .ub
  | .nofuel => .nofuel

/-- the `handle_error_*` functions other than `handle_error_bad_split`: converter.hpp:273-348 -/
def handleError (c : Cfg) (msg : Bytes) : M Conv Unit :=
  match c.mode with
  | .throw => M.throw msg
  | m => M.modify (fun s => { s with err := s.err.set m msg })

/-- `handle_error_bad_split`: converter.hpp:240-247 -/
def handleErrorBadSplit (c : Cfg) : M Conv Unit :=
  M.modify fun s =>
    match c.mode with
    | .string => { s with err := { s.err with msg := s.spl.err.msg } }
    | .throw => s
    | .bool => { s with err := { s.err with flag := true } }

/-- `clear_error`: converter.hpp:219-225 -/
def clearError (c : Cfg) : M Conv Unit := M.modify fun s => { s with err := s.err.clear c.mode }

/-- `error_sufix`: converter.hpp:227-238 -/
def errorSuffix (text : Bytes) (pos : Nat) : Bytes :=
  bs "at column " ++ dec (pos + 1) ++ bs ": '" ++ text ++ bs "'"

/-- converter.hpp:287-298 -/
def msgInvalidConversion (text : Bytes) (pos : Nat) : Bytes :=
  bs "invalid conversion for parameter " ++ errorSuffix text pos
/-- converter.hpp:300-310 -/
def msgValidationFailed (error text : Bytes) (pos : Nat) : Bytes := error ++ bs " " ++ errorSuffix text pos
/-- converter.hpp:312-329 -/
def msgNumberOfColumns (expected got : Nat) : Bytes :=
  bs "invalid number of columns, expected: " ++ dec expected ++ bs ", got: " ++ dec got
/-- converter.hpp:331-348 -/
def msgIncompatibleMapping (arguments mapping : Nat) : Bytes :=
  bs "number of arguments does not match mapping, expected: " ++ dec mapping ++ bs ", got: " ++ dec arguments
/-- converter.hpp:274 -/
def msgMultilineLimit : Bytes := bs "multiline limit reached"

/-- `split`: converter.hpp:191-199, on the line stored in `spl.mem` (`line[0]` is read). -/
def split (c : Cfg) (delim : Bytes) : M Conv Unit := do
  M.modify fun s => { s with spl := { s.spl with data := [] } }
  let b ← onSpl (Spl.rd 0)
  if b = NUL then pure ()
  else onSpl (Spl.split c delim)

/-- `column_position`: converter.hpp:401-406; out of range is undefined behaviour. -/
def columnPosition (i : Nat) : M Conv Nat := fun s =>
  if s.mappings = [] then .ok i s
  else match s.mappings[i]? with
    | some p => .ok p s
    | none => .ub

/-- `elems[i]` -/
def elemAt (elems : List (Nat × Nat)) (i : Nat) : M Conv (Nat × Nat) := fun s =>
  match elems[i]? with
  | some p => .ok p s
  | none => .ub

/-- `extract(msg.first, msg.second, dst)` on pointers into the line.  Dangling pointers (`gen` and `lineGen`
differ) and ranges outside the storage are undefined behaviour. -/
def extractAt (t : Ty) (p : Nat × Nat) (dst : Val) : M Conv (Bool × Val) := fun s =>
  if s.spl.gen ≠ s.spl.lineGen ∨ p.2 < p.1 ∨ s.spl.mem.length < p.2 then .ub
  else match extract s.spl.mem p.1 p.2 t dst with
    | some r => .ok r s
    | none => .ub

/-- the text of a column, as printed in error messages -/
def textOf (p : Nat × Nat) : M Conv Bytes := fun s => .ok (textAt s.spl.mem p.1 p.2) s

/-- `extract_one`: converter.hpp:424-451.  Returns the new value of the destination. -/
def extractOne (c : Cfg) (r : Req) (p : Nat × Nat) (pos : Nat) (dst : Val) : M Conv Val := do
  let s ← M.get
  if !s.err.valid c.mode then pure dst
  else match r with
    | .void => pure dst
    | .ty .str => do
      let (_, v) ← extractAt .str p dst
      pure v
    | .ty t => do
      let (ok, v) ← extractAt t p dst
      if !ok then
        let text ← textOf p
        handleError c (msgInvalidConversion text pos)
        pure v
      else pure v
    | .valid t q msg => do
      let (ok, v) ← extractAt t p dst
      if !ok then
        let text ← textOf p
        handleError c (msgInvalidConversion text pos)
        pure v
      else if !q v then
        let text ← textOf p
        handleError c (msgValidationFailed msg text pos)
        pure v
      else pure v

/-- the value an element of the returned tuple has before its column is extracted -/
def _root_.Ssp.Req.dflt : Req → Val
  | .void => .other 0
  | .ty t => t.dflt
  | .valid t _ _ => t.dflt

/-- `ret{}`: the returned tuple, value initialised -/
def defaults (rs : List Req) : List Val :=
  rs.filterMap fun r => match r with
    | .void => none
    | r => some r.dflt

/-- `extract_multiple<ArgN, TupN, Ts...>`: converter.hpp:454-475.  `rs` are the requested types from position
`i` on; returns the elements of the tuple from there on. -/
def extractMultiple (c : Cfg) (elems : List (Nat × Nat)) : List Req → Nat → M Conv (List Val)
  | [], _ => pure []
  | .void :: rs, i => extractMultiple c elems rs (i + 1)
  | r :: rs, i => do
    let k ← columnPosition i
    let p ← elemAt elems k
    let v ← extractOne c r p i r.dflt
    let vs ← extractMultiple c elems rs (i + 1)
    pure (v :: vs)

/-- `convert_impl`: converter.hpp:355-385 -/
def convertImpl (c : Cfg) (rs : List Req) (elems : List (Nat × Nat)) : M Conv (List Val) := do
  clearError c
  let s ← M.get
  if !s.spl.err.valid c.mode then
    handleErrorBadSplit c
    pure (defaults rs)
  else if s.mappings = [] then
    if rs.length ≠ elems.length then
      handleError c (msgNumberOfColumns rs.length elems.length)
      pure (defaults rs)
    else extractMultiple c elems rs 0
  else if rs.length ≠ s.mappings.length then
    handleError c (msgIncompatibleMapping rs.length s.mappings.length)
    pure (defaults rs)
  else if elems.length ≠ s.ncols then
    handleError c (msgNumberOfColumns s.ncols elems.length)
    pure (defaults rs)
  else extractMultiple c elems rs 0

/-- `convert<Ts...>()` on the cached split: converter.hpp:164-168 (and 151-162: a tuple or a class with `tied`
is unpacked to the same `convert_impl`). -/
def convertCached (c : Cfg) (rs : List Req) : M Conv (List Val) := do
  let s ← M.get
  convertImpl c rs s.spl.data

/-- `convert<Ts...>(line, delim)`: converter.hpp:119-130 -/
def convertLine (c : Cfg) (rs : List Req) (delim : Bytes) : M Conv (List Val) := do
  split c delim
  let s ← M.get
  if s.spl.err.valid c.mode then convertImpl c rs s.spl.data
  else
    handleErrorBadSplit c
    pure (defaults rs)

/-- `valid()` -/
def valid (c : Cfg) (s : Conv) : Bool := s.err.valid c.mode

/-- `handle_error_unterminated_escape`: converter.hpp:249-259 -/
def handleErrorUnterminatedEscape (c : Cfg) : M Conv Unit :=
  match c.mode with
  | .bool => M.modify fun s => { s with err := s.err.set .bool [] }
  | _ => do
    onSpl (Spl.handleError c Spl.msgUnterminatedEscape)
    M.modify fun s => { s with err := { s.err with msg := s.spl.err.msg } }

/-- `handle_error_unterminated_quote`: converter.hpp:261-271 -/
def handleErrorUnterminatedQuote (c : Cfg) : M Conv Unit :=
  match c.mode with
  | .bool => M.modify fun s => { s with err := s.err.set .bool [] }
  | _ => do
    onSpl (Spl.handleError c Spl.msgUnterminatedQuote)
    M.modify fun s => { s with err := { s.err with msg := s.spl.err.msg } }

/-- `handle_error_multiline_limit_reached`: converter.hpp:273-285 -/
def handleErrorMultilineLimit (c : Cfg) : M Conv Unit := do
  M.modify fun s => { s with spl := { s.spl with unterminatedQuote := false } }
  handleError c msgMultilineLimit

end Conv
end Ssp
