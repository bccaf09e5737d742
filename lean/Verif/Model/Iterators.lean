import Verif.Spec.Parser
/-!
# Model of programs that use the iterators of a parser themselves (include/ss/parser.hpp:255-343)

`Verif.Model.Parser` has the range based `for` loop only.  Here a program holds any number of iterators of one parser, made
by `begin()`, by copying and by the postfix `++`, increments them in any order, and calls the parser in between.
-/
namespace Ssp
namespace Parser

/-- What a program does with a parser `p`, with `r = p.iterate<Ts...>()` and the iterators of `r`, which are numbered in the
order of their construction. -/
inductive ItAct where
  /-- `auto it = r.begin();` -/
  | begin
  /-- `auto it = r.end();` -/
  | «end»
  /-- `++it_i;` -/
  | incr (i : Nat)
  /-- `auto it = it_i++;` -/
  | postIncr (i : Nat)
  /-- `auto it = it_i;` -/
  | copy (i : Nat)
  /-- a call on the parser itself -/
  | call (op : Op)

/-- What is seen of an action: nothing; the incremented iterator equals `r.end()` now; the incremented iterator has a value
(or an exception was thrown), and this is seen of the value and of the parser; this was seen of the call. -/
inductive ItEv where
  | none
  | ended
  | got (o : Obs)
  | called (o : Obs)
  deriving DecidableEq

/-- `++it` and what is seen of it; an exception is caught by the user, the iterator is not changed then (`none`). -/
def incrObs (x : Ctx) (rs : List Req) (it : Iter) (s : Parser) : Option (ItEv × Option Iter × Parser) :=
  match iterIncr x rs it s with
  | .ok it' s' =>
    if it'.active then some (.got (observe x (.row (if s'.valid x.cfg then some it'.value else none)) s'), some it', s')
    else some (.ended, some it', s')
  | .exc e s' => some (.got (observe x (.thrown e) s'), none, s')
  | .ub => none
  | .nofuel => none

/-- The effect of an action.  (One that names an iterator that does not exist does nothing.) -/
def itStep (x : Ctx) (rs : List Req) (its : List Iter) (s : Parser) : ItAct → Option (ItEv × List Iter × Parser)
  -- parser.hpp:322-324: `return ++iterator{parser_};`
  | .begin =>
    match incrObs x rs { active := true, value := Conv.defaults rs } s with
    | none => none
    | some (e, it, s') => some (e, its ++ it.toList, s')
  -- parser.hpp:326-328, 261-262
  | .end => some (.none, its ++ [{ active := false, value := Conv.defaults rs }], s)
  -- parser.hpp:282-295
  | .incr i =>
    match its[i]? with
    | none => some (.none, its, s)
    | some it =>
      match incrObs x rs it s with
      | none => none
      | some (e, it', s') => some (e, its.set i (it'.getD it), s')
  -- parser.hpp:297-301: `auto result = *this; ++*this; return result;`
  | .postIncr i =>
    match its[i]? with
    | none => some (.none, its, s)
    | some it =>
      match incrObs x rs it s with
      | none => none
      | some (e, none, s') => some (e, its, s')
      | some (e, some it', s') => some (e, its.set i it' ++ [it], s')
  -- parser.hpp:267
  | .copy i =>
    match its[i]? with
    | none => some (.none, its, s)
    | some it => some (.none, its ++ [it], s)
  | .call op =>
    match step x op s with
    | none => none
    | some (o, s') => some (.called o, its, s')

/-- Actions one after the other. -/
def itRun (x : Ctx) (rs : List Req) : List ItAct → List Iter → Parser → Option (List ItEv × List Iter × Parser)
  | [], its, s => some ([], its, s)
  | a :: as, its, s =>
    match itStep x rs its s a with
    | none => none
    | some (e, its', s') =>
      match itRun x rs as its' s' with
      | none => none
      | some (es, its'', s'') => some (e :: es, its'', s'')

/-- `it_i == it_j`: parser.hpp:303-308; two values have the same address iff they are of the same iterator -/
def itEq (its : List Iter) (i j : Nat) : Bool :=
  match its[i]?, its[j]? with
  | some a, some b => (!a.active && !b.active) || (a.active == b.active && i == j)
  | _, _ => false

end Parser
end Ssp
