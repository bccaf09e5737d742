import Verif.Model.Splitter
/-!
# Model of value extraction (include/ss/extract.hpp) and restrictions (include/ss/restrictions.hpp)
-/
namespace Ssp

/-- An integer type of C++ with two's complement range. -/
structure IntTy where
  signed : Bool
  bits : Nat
  deriving DecidableEq, Repr

/-- `std::numeric_limits<T>::min()` -/
def IntTy.min (t : IntTy) : Int := if t.signed then -(2 ^ (t.bits - 1) : Nat) else 0
/-- `std::numeric_limits<T>::max()` -/
def IntTy.max (t : IntTy) : Int := if t.signed then (2 ^ (t.bits - 1) : Nat) - 1 else (2 ^ t.bits : Nat) - 1

/-- The C++ values that conversions produce. -/
inductive Val where
  | int (n : Int)
  | bool (b : Bool)
  | char (b : Byte)
  /-- `std::string` -/
  | str (t : Bytes)
  /-- `std::string_view`, represented by the bytes it shows when it is returned -/
  | view (t : Bytes)
  /-- `std::nullopt` -/
  | nullopt
  | engaged (v : Val)
  /-- alternative `i` of a variant -/
  | alt (i : Nat) (v : Val)
  /-- a value of a user defined (or floating point) type -/
  | other (n : Nat)
  deriving DecidableEq, Repr

/-- The types a column can be converted to.  `int` stands for every integral type other than `bool` and
`char`, and for `ss::int8/uint8` (extract.hpp:79-141,164-177).  Floating point types and types with a user defined
`ss::extract` are `custom`: an arbitrary function from the text and the old value of the destination to
success and the new value of the destination. -/
inductive Ty where
  | int (t : IntTy)
  | bool
  | char
  | str
  | view
  | opt (t : Ty)
  | variant (ts : List Ty)
  | custom (dflt : Val) (f : Bytes → Val → Bool × Val)

/-- Is `b` one of '0'..'9'? -/
def isDigit (b : Byte) : Bool := 48 ≤ b && b ≤ 57

/-- Value of a digit string, most significant digit first. -/
def digitsVal (ds : Bytes) : Nat := ds.foldl (fun a d => 10 * a + (d.toNat - 48)) 0

/-- `std::from_chars` for integers, base 10, by its contract [charconv.from.chars]: the longest match of
the pattern of strtol without sign '+' and with '-' only for signed types; `(value or error, matched length)`. -/
def fromChars (t : IntTy) (s : Bytes) : Option Int × Nat :=
  let neg := t.signed && s.head? == some 45
  let ds := (if neg then s.tail else s).takeWhile isDigit
  if ds = [] then (none, 0)
  else
    let n : Int := if neg then -(digitsVal ds : Int) else digitsVal ds
    let p := (if neg then 1 else 0) + ds.length
    if t.min ≤ n ∧ n ≤ t.max then (some n, p) else (none, p)

/-- `to_num` for integers: extract.hpp:116-141 -/
def toNum (t : IntTy) (s : Bytes) : Option Int :=
  match fromChars t s with
  | (some n, p) => if p ≠ s.length then none else some n
  | (none, _) => none

/-- The bytes `[b, e)` of a block. -/
def textAt (mem : Bytes) (b e : Nat) : Bytes := (mem.drop b).take (e - b)

mutual
/-- A value initialised object of the type (`ret{}` in extract_tuple, converter.hpp:482). -/
def Ty.dflt : Ty → Val
  | .int _ => .int 0
  | .bool => .bool false
  | .char => .char 0
  | .str => .str []
  | .view => .view []
  | .opt _ => .nullopt
  | .variant ts => dfltAlt ts
  | .custom v _ => v
/-- the first alternative of a variant -/
def dfltAlt : List Ty → Val
  | [] => .other 0
  | t :: _ => .alt 0 t.dflt
end

/-- `extract(begin, end, bool&)`: extract.hpp:215-240 -/
def extractBool (t : Bytes) (dst : Val) : Bool × Val :=
  if t.length = 1 then
    if t.head? = some 49 then (true, .bool true)
    else if t.head? = some 48 then (true, .bool false)
    else (false, dst)
  else if t.length = 4 ∧ t = bs "true" then (true, .bool true)
  else if t.length = 5 ∧ t = bs "false" then (true, .bool false)
  else (false, dst)

mutual
/-- `extract(begin, end, T& value)`: extract.hpp:164-262, on the range `[b, e)` of the block `mem`.
Returns success and the new value of the destination; `none` is an access outside the block. -/
def extract (mem : Bytes) (b e : Nat) : Ty → Val → Option (Bool × Val)
  | .int t, dst =>
    match toNum t (textAt mem b e) with
    | none => some (false, dst)
    | some n => some (true, .int n)
  | .bool, dst => some (extractBool (textAt mem b e) dst)
  -- `value = *begin; return (end == begin + 1)`
  | .char, _ =>
    match mem[b]? with
    | none => none
    | some x => some (e == b + 1, .char x)
  | .str, _ => some (true, .str (textAt mem b e))
  | .view, _ => some (true, .view (textAt mem b e))
  -- the local `raw_value` is default initialised
  | .opt t, _ =>
    match extract mem b e t t.dflt with
    | none => none
    | some (true, v) => some (true, .engaged v)
    | some (false, _) => some (true, .nullopt)
  | .variant ts, dst => extractVariant mem b e ts 0 dst
  | .custom _ f, dst => some (f (textAt mem b e) dst)
/-- `extract_variant<T, I>`: extract.hpp:191-203 -/
def extractVariant (mem : Bytes) (b e : Nat) : List Ty → Nat → Val → Option (Bool × Val)
  | [], _, dst => some (false, dst)
  | t :: ts, i, dst =>
    match extract mem b e t t.dflt with
    | none => none
    | some (true, v) => some (true, .alt i v)
    | some (false, _) => extractVariant mem b e ts (i + 1) dst
end

/-! ## Restrictions -/

/-- Integer promotion: types narrower than `int` (32 bits) become `int`. -/
def IntTy.promote (t : IntTy) : IntTy := if t.bits < 32 then ⟨true, 32⟩ else t

/-- Common type of the usual arithmetic conversions [expr.arith.conv]. -/
def IntTy.common (a b : IntTy) : IntTy :=
  let a := a.promote
  let b := b.promote
  if a.signed = b.signed then (if a.bits < b.bits then b else a)
  else
    let u := if a.signed then b else a
    let s := if a.signed then a else b
    if s.bits ≤ u.bits then u else s

/-- Conversion of a value to an integer type: modulo 2^bits for unsigned targets (a signed common type always
can hold the values of both operands). -/
def IntTy.convert (t : IntTy) (n : Int) : Int := if t.signed then n else n % (2 ^ t.bits : Nat)

/-- A constant in a template argument list, `auto N`. -/
structure Lit where
  ty : IntTy
  val : Int
  deriving DecidableEq, Repr

/-- `value < N` for `value` of type `t`, in C++ -/
def cLt (t : IntTy) (v : Int) (n : Lit) : Bool :=
  let k := t.common n.ty
  k.convert v < k.convert n.val
/-- `N < value` -/
def cGt (t : IntTy) (v : Int) (n : Lit) : Bool :=
  let k := t.common n.ty
  k.convert n.val < k.convert v
/-- `value == N` -/
def cEq (t : IntTy) (v : Int) (n : Lit) : Bool :=
  let k := t.common n.ty
  k.convert v == k.convert n.val

/-- The restrictions on integral (`T`, which may be `char`) values: restrictions.hpp:9-111. -/
inductive Restr where
  | ax (x : Lit) (xs : List Lit)
  | nx (x : Lit) (xs : List Lit)
  | gt (n : Lit)
  | gte (n : Lit)
  | lt (n : Lit)
  | lte (n : Lit)
  | ir (lo hi : Lit)
  | oor (lo hi : Lit)
  deriving DecidableEq, Repr

/-- `ax::ss_valid_impl`: restrictions.hpp:12-18 -/
def axValid (t : IntTy) (v : Int) : Lit → List Lit → Bool
  | x, [] => !cEq t v x
  | x, y :: ys => !cEq t v x && axValid t v y ys

/-- `nx::ss_valid_impl`: restrictions.hpp:37-43 -/
def nxValid (t : IntTy) (v : Int) : Lit → List Lit → Bool
  | x, [] => cEq t v x
  | x, y :: ys => cEq t v x || nxValid t v y ys

/-- `ss_valid` of a restriction over the integer type `t` -/
def Restr.valid (t : IntTy) (v : Int) : Restr → Bool
  | .ax x xs => axValid t v x xs
  | .nx x xs => nxValid t v x xs
  | .gt n => cGt t v n
  | .gte n => cGt t v n || cEq t v n
  | .lt n => cLt t v n
  | .lte n => cLt t v n || cEq t v n
  | .ir lo hi => (cGt t v lo || cEq t v lo) && (cLt t v hi || cEq t v hi)
  | .oor lo hi => cLt t v lo || cGt t v hi

/-- `error()` of a restriction, "validation error" (converter.hpp:446) when it has none. -/
def Restr.error : Restr → Bytes
  | .ax _ _ => bs "value excluded"
  | .nx _ _ => bs "value excluded"
  | _ => bs "validation error"

/-- `ne<std::string>::ss_valid`: restrictions.hpp:117-126 -/
def neValid : Val → Bool
  | .str t => !t.isEmpty
  | .view t => !t.isEmpty
  | _ => true

end Ssp
