import Verif.Model.Splitter
/-!
# Model of `ss::setup` (include/ss/setup.hpp)

An option list is resolved at compile time; the static asserts are the Boolean `Setup.compiles`.
-/
namespace Ssp

/-- A template argument of `ss::setup`.  `quote` takes one character, the other matchers a pack (setup.hpp:77-90); an
empty pack cannot be used (`match_impl<>` does not exist, setup.hpp:14-20).  `other` is any type that is not an option. -/
inductive Opt where
  | quote (q : Byte)
  | escape (cs : List Byte)
  | trim (cs : List Byte)
  | trimLeft (cs : List Byte)
  | trimRight (cs : List Byte)
  /-- `multiline_restricted<S, B>`; `multiline` is `multiline_restricted<0, true>` (setup.hpp:130-136) -/
  | multiline (size : Nat) (enabled : Bool)
  | stringError
  | ignoreHeader
  | ignoreEmpty
  | throwOnError
  | other
  deriving DecidableEq, Repr

namespace Setup

/-- which option a template argument is: setup.hpp:92-97,138-145,197-214 -/
inductive Kind where
  | quote | escape | trim | trimLeft | trimRight | multiline | stringError | ignoreHeader | ignoreEmpty | throwOnError
  | other
  deriving DecidableEq, Repr

def _root_.Ssp.Opt.kind : Opt → Kind
  | .quote _ => .quote
  | .escape _ => .escape
  | .trim _ => .trim
  | .trimLeft _ => .trimLeft
  | .trimRight _ => .trimRight
  | .multiline _ _ => .multiline
  | .stringError => .stringError
  | .ignoreHeader => .ignoreHeader
  | .ignoreEmpty => .ignoreEmpty
  | .throwOnError => .throwOnError
  | .other => .other

/-- the characters of a matcher option -/
def _root_.Ssp.Opt.chars : Opt → List Byte
  | .quote q => [q]
  | .escape cs => cs
  | .trim cs => cs
  | .trimLeft cs => cs
  | .trimRight cs => cs
  | _ => []

/-- `count_v<is_kind, Options...>`: type_traits.hpp:246-263 -/
def count (k : Kind) (l : List Opt) : Nat := (l.filter fun o => o.kind = k).length

/-- `get_matcher_t<Matcher, Options...>::matches`: setup.hpp:102-122; the disabled matcher is `['\0']`. -/
def matcher (k : Kind) : List Opt → List Byte
  | [] => [NUL]
  | o :: l => if o.kind = k then o.chars else matcher k l

/-- `M::enabled` (setup.hpp:36,64): everything but `matcher<'\0'>` -/
def enabled (m : List Byte) : Bool := m != [NUL]

/-- the static assert in `matcher` (setup.hpp:22-29,38-39), which the specialisation `matcher<'\0'>` does not have;
and a usable pack is not empty -/
def matcherOk (m : List Byte) : Bool := !enabled m || (!m.isEmpty && !m.contains NUL)

/-- `matches_intersect`: setup.hpp:42-52 -/
def intersect (a b : List Byte) : Bool := a.any fun x => b.any fun y => x != NUL && x == y

/-- `get_multiline_t`: setup.hpp:147-163 -/
def getMultiline : List Opt → Nat × Bool
  | [] => (0, false)
  | .multiline n b :: _ => (n, b)
  | _ :: l => getMultiline l

/-- `trim_left` / `trim_right` as seen from outside: setup.hpp:244-247 -/
def trimL (l : List Opt) : List Byte := if enabled (matcher .trim l) then matcher .trim l else matcher .trimLeft l
def trimR (l : List Opt) : List Byte := if enabled (matcher .trim l) then matcher .trim l else matcher .trimRight l

/-- `count_matcher`: setup.hpp:192-199,215 -/
def countMatcher (l : List Opt) : Nat :=
  (l.filter fun o => o.kind = .quote || o.kind = .escape || o.kind = .trim || o.kind = .trimLeft || o.kind = .trimRight).length

/-- All static asserts: setup.hpp:38-39 (matchers), 110-112 (`get_matcher`), 255-297 (`setup`). -/
def compiles (l : List Opt) : Bool :=
  count .quote l ≤ 1 && count .escape l ≤ 1 && count .trim l ≤ 1 && count .trimLeft l ≤ 1 && count .trimRight l ≤ 1 &&
  matcherOk (matcher .quote l) && matcherOk (matcher .escape l) && matcherOk (matcher .trim l) &&
  matcherOk (matcher .trimLeft l) && matcherOk (matcher .trimRight l) &&
  !intersect (matcher .escape l) (matcher .quote l) &&
  !(intersect (matcher .quote l) (trimL l) || intersect (matcher .quote l) (trimR l)) &&
  !(intersect (matcher .escape l) (trimL l) || intersect (matcher .escape l) (trimR l)) &&
  (!(getMultiline l).2 || ((getMultiline l).2 && (enabled (matcher .quote l) || enabled (matcher .escape l)))) &&
  (!(enabled (matcher .trim l) && enabled (matcher .trimLeft l)) &&
    !(enabled (matcher .trim l) && enabled (matcher .trimRight l))) &&
  count .multiline l ≤ 1 && count .stringError l ≤ 1 && count .throwOnError l ≤ 1 &&
  count .throwOnError l + count .stringError l ≤ 1 &&
  (countMatcher l + count .multiline l + count .stringError l + count .ignoreHeader l + count .ignoreEmpty l +
    count .throwOnError l == l.length)

/-- a matcher as the rest of the library sees it: nothing when disabled -/
def active (m : List Byte) : List Byte := if enabled m then m else []

/-- The members of `setup` the library uses: setup.hpp:240-253. -/
def resolve (l : List Opt) : Cfg where
  quote := (active (matcher .quote l)).head?
  escape := active (matcher .escape l)
  trimL := active (trimL l)
  trimR := active (trimR l)
  multiline := (getMultiline l).2
  mlLimit := (getMultiline l).1
  mode := if count .throwOnError l = 1 then .throw else if count .stringError l = 1 then .string else .bool
  ignoreHeader := count .ignoreHeader l == 1
  ignoreEmpty := count .ignoreEmpty l == 1

end Setup
end Ssp
