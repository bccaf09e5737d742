import Verif.Model.Object
/-!
# Model of calls in which code of the user throws

The conversion functions (`ss::extract` specialised by the user), validators (`ss_valid`) and callbacks of a user may throw
exceptions of their own, which are no `ss::exception` and which the library does not catch.  In the rest of the model they
do not throw.  Here a call returns `none` when such an exception leaves it.
-/
namespace Ssp

/-- A requested type, and the texts for which the user's conversion or validator throws. -/
structure UReq where
  req : Req
  throws : Bytes → Bool := fun _ => false

namespace Conv

/-- `extract_one` (converter.hpp:424-451) whose conversion or validator may throw: nothing is converted once there is an
error (427-429); a dangling or wild range is undefined before the user's code can look at it. -/
def extractOneU (c : Cfg) (u : UReq) (p : Nat × Nat) (pos : Nat) (dst : Val) : M Conv (Option Val) := do
  let s ← M.get
  if !s.err.valid c.mode then pure (some dst)
  else if s.spl.gen ≠ s.spl.lineGen ∨ p.2 < p.1 ∨ s.spl.mem.length < p.2 then M.ub
  else if u.throws (textAt s.spl.mem p.1 p.2) then pure none
  else do
    let v ← extractOne c u.req p pos dst
    pure (some v)

/-- `extract_multiple`: converter.hpp:454-475 -/
def extractMultipleU (c : Cfg) (elems : List (Nat × Nat)) : List UReq → Nat → M Conv (Option (List Val))
  | [], _ => pure (some [])
  | u :: us, i =>
    match u.req with
    | .void => extractMultipleU c elems us (i + 1)
    | r => do
      let k ← columnPosition i
      let p ← elemAt elems k
      match (← extractOneU c u p i r.dflt) with
      | none => pure none
      | some v =>
        match (← extractMultipleU c elems us (i + 1)) with
        | none => pure none
        | some vs => pure (some (v :: vs))

/-- `convert_impl`: converter.hpp:355-385 -/
def convertImplU (c : Cfg) (us : List UReq) (elems : List (Nat × Nat)) : M Conv (Option (List Val)) := do
  clearError c
  let s ← M.get
  if !s.spl.err.valid c.mode then
    handleErrorBadSplit c
    pure (some (defaults (us.map (·.req))))
  else if s.mappings = [] then
    if us.length ≠ elems.length then
      handleError c (msgNumberOfColumns us.length elems.length)
      pure (some (defaults (us.map (·.req))))
    else extractMultipleU c elems us 0
  else if us.length ≠ s.mappings.length then
    handleError c (msgIncompatibleMapping us.length s.mappings.length)
    pure (some (defaults (us.map (·.req))))
  else if elems.length ≠ s.ncols then
    handleError c (msgNumberOfColumns s.ncols elems.length)
    pure (some (defaults (us.map (·.req))))
  else extractMultipleU c elems us 0

/-- `convert<Ts...>()` on the cached split: converter.hpp:164-168 -/
def convertCachedU (c : Cfg) (us : List UReq) : M Conv (Option (List Val)) := do
  let s ← M.get
  convertImplU c us s.spl.data

end Conv

namespace Parser

/-- the last part of `get_next`: parser.hpp:144-162.  Only `ss::exception` is caught (149): the user's exception leaves
`get_next` without `read_line`. -/
def convertRowU (x : Ctx) (us : List UReq) : M Parser (Option (List Val)) :=
  match x.cfg.mode with
  | .throw => tryCatch
      (do
        match (← onCur (Conv.convertCachedU x.cfg us)) with
        | none => pure none
        | some v =>
          readLine x
          pure (some v))
      (fun e => do
        readLine x
        decorateRethrow x e)
  | _ => do
    match (← onCur (Conv.convertCachedU x.cfg us)) with
    | none => pure none
    | some v =>
      let s ← M.get
      (if Conv.valid x.cfg s.rd.cur.conv then pure () else handleErrorInvalidConversion x)
      readLine x
      pure (some v)

/-- `get_next<Ts...>()`: parser.hpp:115-163 -/
def getNextU (x : Ctx) (us : List UReq) : M Parser (Option (List Val)) := do
  parseRowIf x
  onRd Reader.update
  let s ← M.get
  if !Conv.valid x.cfg s.rd.cur.conv then
    handleErrorInvalidConversion x
    readLine x
    pure (some (Conv.defaults (us.map (·.req))))
  else
    clearError x.cfg
    if s.eof then
      handleError x.cfg (x.fileName ++ bs ": read on end of file")
      pure (some (Conv.defaults (us.map (·.req))))
    else convertRowU x us

/-- An alternative whose callback may throw: `throws` tells for which values. -/
structure UAlt where
  alt : Alt
  throws : List Val → Bool

/-- `try_next` with a callback that may throw: parser.hpp:450-459, 514-521, 472-512 -/
def tryNextU (x : Ctx) (a : UAlt) : M Parser (Option (Option (List Val) × Bool)) := do
  let v ← getNext x a.alt.reqs
  let s ← M.get
  if s.valid x.cfg then
    if a.alt.fn.isSome && a.throws v then pure none
    else
      let called ← tryInvoke x v a.alt.fn
      let s ← M.get
      pure (some (if s.valid x.cfg then some v else none, called))
  else pure (some (none, false))

end Parser
end Ssp
