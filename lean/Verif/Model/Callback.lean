import Verif.Model.Parser
import Verif.Model.Types
/-!
# Model of callbacks with effects (include/ss/parser.hpp:348-446, 450-521)

In `Verif.Model.Parser` a callback is a function of the values of the row.  Here it is a callable object: which arguments it
can be called with decides what it is called with, it has access to data `γ` of the user's program, which it reads and
changes, and it is given references, so that it may also change the values.
-/
namespace Ssp

/-- An argument of a callback: a value, or a `std::tuple` of values. -/
inductive CbArg where
  | val (v : Val)
  | tup (vs : List Val)
  deriving DecidableEq

/-- the values in an argument -/
def CbArg.values : CbArg → List Val
  | .val v => [v]
  | .tup vs => vs

/-- A callable object.  `takes ts`: `std::is_invocable_v` with lvalues of the types `ts` (this includes overloads, default
arguments, `auto` and parameter packs).  `call args g`: what it returns (`none`: `void`, else what the returned value is as
a condition), the arguments afterwards (a parameter that is a reference can be assigned to), and the user's data afterwards. -/
structure Callable (γ : Type) where
  takes : List (Tp Req) → Bool
  call : List CbArg → γ → Option Bool × List CbArg × γ

namespace Callable
variable {γ : Type}

/-- how `try_invoke_impl` calls the callback: parser.hpp:498-512 -/
inductive Form where
  | nothing
  | whole
  | spread
  deriving DecidableEq

/-- the `if constexpr`s of `try_invoke_impl`: parser.hpp:498-512; `t` is the type of the row.  (If the last form is not
possible either, the program does not compile.) -/
def form (f : Callable γ) (t : Tp Req) : Form :=
  if f.takes [] then .nothing
  else if f.takes [t] then .whole
  else .spread

end Callable

/-- The object in which the values of a row are kept: one value as it is, more in a tuple (converter.hpp:478-489) -/
def rowArg : List Val → CbArg
  | [v] => .val v
  | vs => .tup vs

/-- `try_invoke_impl`: parser.hpp:495-510.  `fun()`, `std::invoke(fun, arg)` or `std::apply(fun, arg)`, where `arg` is an
lvalue (`*value`, 407 and 516), so that changes of it stay.  Returns what the callback returned, the values afterwards, and
the user's data. -/
def Callable.invoke {γ : Type} (f : Callable γ) (t : Tp Req) (vs : List Val) (g : γ) : Option Bool × List Val × γ :=
  match f.form t with
  | .nothing =>
    let r := f.call [] g
    (r.1, vs, r.2.2)
  | .whole =>
    let r := f.call [rowArg vs] g
    (r.1, r.2.1.flatMap CbArg.values, r.2.2)
  | .spread =>
    let r := f.call (vs.map .val) g
    (r.1, r.2.1.flatMap CbArg.values, r.2.2)

namespace Parser
variable {γ : Type}

/-- An alternative: the types, and the callback if one was passed. -/
structure CbAlt (γ : Type) where
  reqs : List Req
  fn : Option (Callable γ) := none

/-- the type of the rows of an alternative: `no_void_validator_tup_t<Ts...>` (parser.hpp:358, 452) -/
def CbAlt.type (a : CbAlt γ) : Tp Req := (Tp.rowType (a.reqs.map .base)).getD (.tup [])

/-- `try_invoke`: parser.hpp:472-491.  Returns the values and the user's data afterwards. -/
def tryInvokeC (x : Ctx) (a : CbAlt γ) (vs : List Val) (g : γ) : M Parser (List Val × γ) :=
  match a.fn with
  | none => pure (vs, g)
  | some f =>
    let r := f.invoke a.type vs g
    match r.1 with
    | some false => do
      handleError x.cfg (x.fileName ++ bs ": failed check")
      pure r.2
    | _ => pure r.2

/-- `try_next`: parser.hpp:450-459, 514-521.  Returns the optional of the composite and the user's data. -/
def tryNextC (x : Ctx) (a : CbAlt γ) (g : γ) : M Parser (Option (List Val) × γ) := do
  let v ← getNext x a.reqs
  let s ← M.get
  if s.valid x.cfg then
    let r ← tryInvokeC x a v g
    let s ← M.get
    pure (if s.valid x.cfg then some r.1 else none, r.2)
  else pure (none, g)

/-- `or_else`: parser.hpp:355-368, 411-429; `composite_with` (401-409) leaves the optional empty if the parser is not valid -/
def orElseC (x : Ctx) (a : CbAlt γ) (g : γ) : M Parser (Option (List Val) × γ) := do
  let s ← M.get
  if s.valid x.cfg then pure (none, g)
  else
    let v ← trySame x a.reqs
    let s ← M.get
    if s.valid x.cfg then
      let r ← tryInvokeC x a v g
      let s ← M.get
      pure (if s.valid x.cfg then some r.1 else none, r.2)
    else pure (none, g)

/-- `on_error`: parser.hpp:383-398.  A callback that can be called without arguments is, any other is given `error_msg()`. -/
def onErrorC (x : Ctx) (h : Callable γ) (g : γ) : M Parser γ := fun s =>
  if s.valid x.cfg then .ok g s
  else if h.takes [] then .ok (h.call [] g).2.2 s
  else .ok (h.call [.val (.str s.err.msg)] g).2.2 s

/-- a link of a chain behind `try_next` -/
inductive CbLink (γ : Type) where
  | orElse (a : CbAlt γ)
  | onError (h : Callable γ)

/-- `.or_else(...)` and `.on_error(...)` in any order: their optionals, and the user's data -/
def linksC (x : Ctx) : List (CbLink γ) → γ → M Parser (List (Option (List Val)) × γ)
  | [], g => pure ([], g)
  | .orElse a :: ls, g => do
    let r ← orElseC x a g
    let rest ← linksC x ls r.2
    pure (r.1 :: rest.1, rest.2)
  | .onError h :: ls, g => do
    let g' ← onErrorC x h g
    linksC x ls g'

/-- `try_next(...)` followed by links: `values()`, and the user's data -/
def tryLinksC (x : Ctx) (a : CbAlt γ) (ls : List (CbLink γ)) (g : γ) : M Parser (List (Option (List Val)) × γ) := do
  let r ← tryNextC x a g
  let rest ← linksC x ls r.2
  pure (r.1 :: rest.1, rest.2)

/-- `while (!p.eof()) { p.try_next(...).or_else(...)...; }`: the `values()` of each round, and the user's data -/
def loopC (x : Ctx) (a : CbAlt γ) (ls : List (CbLink γ)) : Nat → γ → M Parser (List (List (Option (List Val))) × γ)
  | 0, _ => M.nofuel
  | f + 1, g => do
    let s ← M.get
    if s.eof then pure ([], g)
    else
      let r ← tryLinksC x a ls g
      let rest ← loopC x a ls f r.2
      pure (r.1 :: rest.1, rest.2)

end Parser
end Ssp
