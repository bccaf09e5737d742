import Verif.Model.UserThrow
/-!
# Model of composites in which code of the user throws

As `Verif.Model.UserThrow`, for `try_next(...).or_else(...).on_error(...)`: a conversion or validator of any alternative, the
callback of any alternative and the callback of `on_error` may throw.  A call returns `none` when the exception leaves it.
-/
namespace Ssp
namespace Parser

/-- An alternative: the types, the callback if one was passed, and for which values this callback throws. -/
structure UCAlt where
  reqs : List UReq
  fn : Option (List Val → Option Bool) := none
  throws : List Val → Bool := fun _ => false

/-- `try_invoke` with a callback that may throw: parser.hpp:472-491.  Nothing is written before the callback is called. -/
def tryInvokeU (x : Ctx) (v : List Val) (a : UCAlt) : M Parser (Option Bool) :=
  if a.fn.isSome && a.throws v then pure none
  else do
    let b ← tryInvoke x v a.fn
    pure (some b)

/-- `try_next`: parser.hpp:450-459, 514-521 -/
def tryNextUC (x : Ctx) (a : UCAlt) : M Parser (Option (Option (List Val) × Bool)) := do
  match (← getNextU x a.reqs) with
  | none => pure none
  | some v =>
    let s ← M.get
    if s.valid x.cfg then
      match (← tryInvokeU x v a) with
      | none => pure none
      | some called =>
        let s ← M.get
        pure (some (if s.valid x.cfg then some v else none, called))
    else pure (some (none, false))

/-- `try_same`: parser.hpp:431-440 -/
def trySameU (x : Ctx) (us : List UReq) : M Parser (Option (List Val)) := do
  clearError x.cfg
  match (← onCur (Conv.convertCachedU x.cfg us)) with
  | none => pure none
  | some v =>
    let s ← M.get
    (if Conv.valid x.cfg s.rd.cur.conv then pure () else handleErrorInvalidConversion x)
    pure (some v)

/-- `or_else`: parser.hpp:355-368, 401-429 -/
def orElseU (x : Ctx) (a : UCAlt) : M Parser (Option (Option (List Val) × Bool)) := do
  let s ← M.get
  if s.valid x.cfg then pure (some (none, false))
  else
    match (← trySameU x a.reqs) with
    | none => pure none
    | some v =>
      let s ← M.get
      if s.valid x.cfg then
        match (← tryInvokeU x v a) with
        | none => pure none
        | some called =>
          let s ← M.get
          pure (some (if s.valid x.cfg then some v else none, called))
      else pure (some (none, false))

/-- `on_error` with a callback that throws for some messages: parser.hpp:383-398 -/
def onErrorU (x : Ctx) (throws : Bytes → Bool) : M Parser (Option (Option Bytes)) := do
  match (← onError x) with
  | none => pure (some none)
  | some m => if throws m then pure none else pure (some (some m))

/-- a link of a chain behind `try_next` -/
inductive ULink where
  | orElse (a : UCAlt)
  | onError (throws : Bytes → Bool)

/-- `.or_else(...)` and `.on_error(...)` in any order: parser.hpp:355-398 -/
def linksU (x : Ctx) : List ULink → M Parser (Option (List LinkOut))
  | [] => pure (some [])
  | .orElse a :: ls => do
    match (← orElseU x a) with
    | none => pure none
    | some r =>
      match (← linksU x ls) with
      | none => pure none
      | some rest => pure (some (.opt r.1 r.2 :: rest))
  | .onError throws :: ls => do
    match (← onErrorU x throws) with
    | none => pure none
    | some r =>
      match (← linksU x ls) with
      | none => pure none
      | some rest => pure (some (.err r :: rest))

/-- `try_next(...)` followed by links: parser.hpp:450-459, 355-398 -/
def tryLinksU (x : Ctx) (a : UCAlt) (ls : List ULink) : M Parser (Option (List LinkOut)) := do
  match (← tryNextUC x a) with
  | none => pure none
  | some r =>
    match (← linksU x ls) with
    | none => pure none
    | some rest => pure (some (.opt r.1 r.2 :: rest))

/-- the same chain written by someone whose code does not throw -/
def UCAlt.plain (a : UCAlt) : Alt := ⟨a.reqs.map (·.req), a.fn⟩

def ULink.plain : ULink → Link
  | .orElse a => .orElse a.plain
  | .onError _ => .onError

end Parser
end Ssp
