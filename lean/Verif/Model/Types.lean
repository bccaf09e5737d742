import Verif.Model.Converter
import Verif.Model.Setup
/-!
# Model of the type functions (include/ss/type_traits.hpp, include/ss/converter.hpp:17-93)

A class template that computes a type is a function on types; `none` means that it cannot be instantiated (no
specialisation fits, or two fit and neither is more specialised).  A parameter pack is a list.
-/
namespace Ssp

/-- Types, as far as the type functions look at them: `std::tuple<...>`, `std::false_type`, and all the others. -/
inductive Tp (α : Type) where
  | base (a : α)
  | falseType
  | tup (ts : List (Tp α))

namespace Tp
variable {α : Type}

/-- `tup_cat`: type_traits.hpp:12-26 -/
def cat : Tp α → Tp α → Option (Tp α)
  | .tup ts, .tup us => some (.tup (ts ++ us))
  | t, .tup us => some (.tup (t :: us))
  | _, _ => none

/-- `left_of_impl`: type_traits.hpp:32-52; the `static_assert`s: `N < 128`, `N != 0` (always true here) -/
def leftOf : Nat → List (Tp α) → Option (Tp α)
  | 0, t :: _ => some (.tup [t])
  | n + 1, t :: ts => if n + 1 < 128 then (leftOf n ts).bind (cat t) else none
  | _, [] => none

/-- `first_t`: type_traits.hpp:54-55; `sizeof...(Ts) - 2` of a shorter pack is a huge number -/
def first (ts : List (Tp α)) : Option (Tp α) := if ts.length < 2 then none else leftOf (ts.length - 2) ts
/-- `head_t`: type_traits.hpp:57-58 -/
def head (ts : List (Tp α)) : Option (Tp α) := leftOf 0 ts

/-- `right_of_impl`: type_traits.hpp:64-78 -/
def rightOf : Nat → List (Tp α) → Option (Tp α)
  | 0, t :: ts => some (.tup (t :: ts))
  | n + 1, _ :: ts => rightOf n ts
  | _, [] => none

/-- `tail_t`: type_traits.hpp:80-81 -/
def tail (ts : List (Tp α)) : Option (Tp α) := rightOf 1 ts
/-- `last_t`: type_traits.hpp:83-84; `sizeof...(Ts) - 1` of the empty pack is a huge number -/
def last (ts : List (Tp α)) : Option (Tp α) := if ts.length < 1 then none else rightOf (ts.length - 1) ts

/-- the elements of `apply_trait<Trait, std::tuple<Ts...>>`: type_traits.hpp:90-112.  The primary template also takes
`std::tuple<>`, as a type like any other. -/
def applyTrait (f : Tp α → Tp α) : Tp α → Option (Tp α)
  | .tup (t :: t' :: ts) => (applyTrait f (.tup (t' :: ts))).bind (cat (f t))
  | .tup [t] => some (.tup [f t])
  | t => some (.tup [f t])

/-- `optional_trait`: type_traits.hpp:118-130 -/
def optional (p : Tp α → Bool) (t : Tp α) : Tp α := if p t then t else .falseType

/-- `apply_optional_trait`: type_traits.hpp:132-153, the same scheme as `apply_trait` -/
def applyOptional (p : Tp α → Bool) (t : Tp α) : Option (Tp α) := applyTrait (optional p) t

/-- `remove_false<Ts...>`: type_traits.hpp:162-195.  For `std::tuple<std::false_type>` the specialisations
`<std::tuple<std::false_type, Ts...>>` and `<std::tuple<T>>` fit and neither is more specialised. -/
def removeFalse : List (Tp α) → Option (Tp α)
  | [] => none
  | [.falseType] => some (.tup [])
  | [.tup [.falseType]] => none
  | [.tup [t]] => some (.tup [t])
  | [.tup (.falseType :: t :: ts)] => removeFalse (t :: ts)
  | [.tup (t :: t' :: ts)] => (removeFalse (t' :: ts)).bind (cat t)
  | [t] => some (.tup [t])
  | .falseType :: t :: ts => removeFalse (t :: ts)
  | t :: t' :: ts => (removeFalse (t' :: ts)).bind (cat t)
termination_by ts => sizeOf ts

/-- `filter_if_t<Trait, Ts...>`: type_traits.hpp:213-227 -/
def filterIf (p : Tp α → Bool) (ts : List (Tp α)) : Option (Tp α) :=
  match ts with
  | [.tup us] => (applyOptional p (.tup us)).bind fun t => removeFalse [t]
  | ts => (applyOptional p (.tup ts)).bind fun t => removeFalse [t]

/-- `filter_not_t<Trait, Ts...>`: type_traits.hpp:229-242, `negate_impl`: 201-205 -/
def filterNot (p : Tp α → Bool) (ts : List (Tp α)) : Option (Tp α) := filterIf (fun t => !p t) ts

/-- `std::tuple_size` -/
def size : Tp α → Option Nat
  | .tup ts => some ts.length
  | _ => none

/-- `count_v<Trait, Ts...>`: type_traits.hpp:248-269 -/
def count (p : Tp α → Bool) : List (Tp α) → Option Nat
  | [] => some 0
  | [t] => some (p t).toNat
  | ts => (filterIf p ts).bind size

/-- `count_not_v<Trait, Ts...>`: type_traits.hpp:275-296 -/
def countNot (p : Tp α → Bool) : List (Tp α) → Option Nat
  | [] => some 0
  | [t] => some (!p t).toNat
  | ts => (filterNot p ts).bind size

/-- the pack that `all_of`, `any_of` and `none_of` look at: a tuple is unpacked (type_traits.hpp:302-350) -/
def unpack : List (Tp α) → List (Tp α)
  | [.tup us] => us
  | ts => ts

/-- `all_of_v`: type_traits.hpp:302-313 -/
def allOf (p : Tp α → Bool) (ts : List (Tp α)) : Option Bool := (count p (unpack ts)).map (· == (unpack ts).length)
/-- `any_of_v`: type_traits.hpp:319-332; `static_assert(sizeof...(Ts) > 0)` -/
def anyOf (p : Tp α → Bool) (ts : List (Tp α)) : Option Bool :=
  if unpack ts = [] then none else (count p (unpack ts)).map (fun n => decide (n > 0))
/-- `none_of_v`: type_traits.hpp:338-349 -/
def noneOf (p : Tp α → Bool) (ts : List (Tp α)) : Option Bool := (count p (unpack ts)).map (· == 0)

/-! ## The type of a row -/

/-- `std::is_void` -/
def isVoid : Tp Req → Bool
  | .base .void => true
  | _ => false

/-- `no_validator_t`: converter.hpp:27-41 -/
def noValidator : Tp Req → Tp Req
  | .base (.valid t _ _) => .base (.ty t)
  | t => t

/-- `no_validator_tup_t`: converter.hpp:43-53 -/
def noValidatorTup : List (Tp Req) → Option (Tp Req)
  | [.tup [t]] => some (noValidator t)
  | [.tup ts] => noValidatorTup ts
  | ts => applyTrait noValidator (.tup ts)
termination_by ts => sizeOf ts

/-- `no_void_validator_tup_t`: converter.hpp:62-78 -/
def noVoidValidatorTup : List (Tp Req) → Option (Tp Req)
  | [.tup ts] => (filterNot isVoid ts).bind fun t => noValidatorTup [t]
  | ts => (filterNot isVoid ts).bind fun t => noValidatorTup [t]

/-- `extract_tuple<Ts...>` compiles only with a type that is not void: converter.hpp:480-481 -/
def rowType (ts : List (Tp Req)) : Option (Tp Req) :=
  match allOf isVoid ts with
  | some false => noVoidValidatorTup ts
  | _ => none

/-- `convert<T, Ts...>(elems)`: converter.hpp:147-162 - the pack of types `convert_impl` is called with.  (A class with a
`tied` method is not a `Tp`; `convert_impl` gets the decayed types of the tuple it returns.) -/
def convertPack : List (Tp Req) → List (Tp Req)
  | [.tup ts] => ts
  | ts => ts

/-- where `extract_multiple<ArgN, TupN, Ts...>` puts the conversions: pairs of the number of a requested type and the place of
its value - `none` for the object itself (`one_element`), else the index for `std::get` (converter.hpp:454-475) -/
def places (one : Bool) : List (Tp Req) → Nat → Nat → List (Nat × Option Nat)
  | [], _, _ => []
  | t :: ts, argN, tupN =>
    if isVoid t then places one ts (argN + 1) tupN
    else (argN, if one then none else some tupN) :: places one ts (argN + 1) (tupN + 1)

/-- `extract_multiple<0, 0, Ts...>` with `one_element`: converter.hpp:460,483 -/
def destinations (ts : List (Tp Req)) : Option (List (Nat × Option Nat)) :=
  (countNot isVoid ts).map fun n => places (n == 1) ts 0 0

/-- the type of the object a place is in: the whole, or `std::tuple_element` -/
def at? : Tp α → Option Nat → Option (Tp α)
  | t, none => some t
  | .tup ts, some k => ts[k]?
  | _, some _ => none

/-! ## Options -/
end Tp

/-- a template argument of a parser: an option, or `ss::setup<...>` of options -/
inductive OptArg where
  | opt (o : Opt)
  | setup (os : List Opt)

namespace Tp

/-- `is_instance_of_multiline`: setup.hpp:138-142 -/
def isMultiline : Tp OptArg → Bool
  | .base (.opt (.multiline _ _)) => true
  | _ => false

/-- an argument of `setup<Options...>` that is not unpacked: a type that is not an option does not compile -/
def asOpt : Tp OptArg → Opt
  | .base (.opt o) => o
  | _ => .other

/-- The options `setup<Options...>` sees: `setup<setup<...>>` and `setup<std::tuple<...>>` are unpacked (setup.hpp:292-296). -/
def setupOptions : List (Tp OptArg) → List Opt
  | [.base (.setup os)] => os
  | [.tup ts] => setupOptions ts
  | ts => ts.map asOpt
termination_by ts => sizeOf ts

/-- The options of the splitter of the header: parser.hpp:34-35. -/
def headerOptions (ts : List (Tp OptArg)) : Option (List Opt) := (filterNot isMultiline ts).map fun t => setupOptions [t]

end Tp
end Ssp
