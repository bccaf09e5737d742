import Verif.Model.Parser
/-!
# Model of the calls that return objects instead of tuples

`get_object`, `try_object`, `or_object`, `iterate_object` (include/ss/parser.hpp) and `convert_object`
(include/ss/converter.hpp).  A constructor is a function from the values of a tuple to an object of type `β`; different
alternatives of one composite may make objects of different types: `β` is then their sum.
-/
namespace Ssp

/-- `to_object`: type_traits.hpp:366-383.  The elements of the tuple (or the one value that is no tuple) are passed to the
constructor, in order. -/
def toObject {β : Type} (mk : List Val → β) (v : List Val) : β := mk v

namespace Conv
variable {β : Type}

/-- `convert_object<T, Ts...>()` on the cached split: converter.hpp:139-142 (133-136: the same with given split data; and
153-158: a class with `tied`) -/
def convertObject (c : Cfg) (mk : List Val → β) (rs : List Req) : M Conv β := do
  let v ← convertCached c rs
  pure (toObject mk v)

/-- `convert_object<T, Ts...>(line, delim)`: converter.hpp:113-117 -/
def convertObjectLine (c : Cfg) (mk : List Val → β) (rs : List Req) (delim : Bytes) : M Conv β := do
  let v ← convertLine c rs delim
  pure (toObject mk v)

end Conv

namespace Parser
variable {β : Type}

/-- `get_object<T, Ts...>()`: parser.hpp:101-104 -/
def getObject (x : Ctx) (mk : List Val → β) (rs : List Req) : M Parser β := do
  let v ← getNext x rs
  pure (toObject mk v)

/-- An alternative with an object: the types, the constructor, and the callback if one was passed.  A callback is given the
object, and returns nothing (`none`) or something used as a condition. -/
structure ObjAlt (β : Type) where
  reqs : List Req
  make : List Val → β
  fn : Option (β → Option Bool) := none

/-- What an alternative with an object did: its optional, whether its callback was called, and whether its constructor was. -/
structure ObjOut (β : Type) where
  opt : Option β
  called : Bool
  built : Bool
  deriving DecidableEq

/-- `try_invoke` on an object: parser.hpp:472-491 -/
def tryInvokeObj (x : Ctx) (o : β) (fn : Option (β → Option Bool)) : M Parser Bool :=
  match fn with
  | none => pure false
  | some f =>
    match f o with
    | some false => do
      handleError x.cfg (x.fileName ++ bs ": failed check")
      pure true
    | _ => pure true

/-- `try_object`: parser.hpp:461-468, 514-521.  `get_object` constructs the object also if the row failed. -/
def tryObject (x : Ctx) (a : ObjAlt β) : M Parser (ObjOut β) := do
  let v ← getNext x a.reqs
  let o := toObject a.make v
  let s ← M.get
  if s.valid x.cfg then
    let called ← tryInvokeObj x o a.fn
    let s ← M.get
    pure ⟨if s.valid x.cfg then some o else none, called, true⟩
  else pure ⟨none, false, true⟩

/-- `or_object`: parser.hpp:370-376, 399-424 (and `or_else`, where the object is the tuple itself: 356-368) -/
def orObject (x : Ctx) (a : ObjAlt β) : M Parser (ObjOut β) := do
  let s ← M.get
  if s.valid x.cfg then pure ⟨none, false, false⟩
  else
    let v ← trySame x a.reqs
    let s ← M.get
    if s.valid x.cfg then
      let o := toObject a.make v
      let called ← tryInvokeObj x o a.fn
      let s ← M.get
      pure ⟨if s.valid x.cfg then some o else none, called, true⟩
    else pure ⟨none, false, false⟩

/-- a chain of `or_object` -/
def orObjects (x : Ctx) : List (ObjAlt β) → M Parser (List (ObjOut β))
  | [] => pure []
  | a :: as => do
    let r ← orObject x a
    let rest ← orObjects x as
    pure (r :: rest)

/-- `try_object(...).or_object(...)...` -/
def objChain (x : Ctx) (a : ObjAlt β) (as : List (ObjAlt β)) : M Parser (List (ObjOut β)) := do
  let r ← tryObject x a
  let rest ← orObjects x as
  pure (r :: rest)

/-- `iterable<true, T, Ts...>::iterator`: parser.hpp:256-318 -/
structure ObjIter (β : Type) where
  active : Bool
  value : β

/-- `operator++`: parser.hpp:282-295 -/
def objIncr (x : Ctx) (mk : List Val → β) (rs : List Req) (it : ObjIter β) : M Parser (ObjIter β) := do
  let s ← M.get
  if !it.active || s.eof then pure { it with active := false }
  else
    let v ← getObject x mk rs
    pure { it with value := v }

/-- the rest of a range based for loop: `it != end()`, body (collects `*it`), `++it` -/
def objLoop (x : Ctx) (mk : List Val → β) (rs : List Req) : Nat → ObjIter β → M Parser (List β)
  | 0, _ => M.nofuel
  | f + 1, it =>
    if it.active then do
      let it' ← objIncr x mk rs it
      let vs ← objLoop x mk rs f it'
      pure (it.value :: vs)
    else pure []

/-- `for (auto& o : p.iterate_object<T, Ts...>())`: parser.hpp:320-343, with the objects visited; `o0` is `T{}`. -/
def iterateObject (x : Ctx) (mk : List Val → β) (o0 : β) (rs : List Req) (fuel : Nat) : M Parser (List β) := do
  let it ← objIncr x mk rs { active := true, value := o0 }
  objLoop x mk rs fuel it

end Parser
end Ssp
