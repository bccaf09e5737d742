import Verif.Model.Converter
/-!
# The project's own converter and extraction tests, run on the model

test/test_converter.cpp and test/test_extractions.cpp, transcribed (not the floating point ones: `double` is a stand-in
here).  These are not proofs of properties: they check that the *model* answers what the authors of the code expect of it.
Every `example` is evaluated by the kernel.
-/
namespace Ssp.Check

/-- `int` -/
abbrev int_ : Ty := .int ⟨true, 32⟩
/-- `ss::int8`, `ss::uint8` -/
abbrev i8 : Ty := .int ⟨true, 8⟩
abbrev u8 : Ty := .int ⟨false, 8⟩
/-- the `T` of the template test cases -/
abbrev templ : List IntTy := [⟨true, 32⟩, ⟨false, 8⟩]
/-- a stand-in for `double`: digits with at most one point; the value keeps the text -/
def isDbl (t : Bytes) : Bool :=
  t.all (fun b => isDigit b || b == 46) && t.any isDigit && decide ((t.filter (· == 46)).length ≤ 1)
/-- `double` -/
def dbl : Ty := .custom (.other 0) fun t dst => if isDbl t then (true, .engaged (.str t)) else (false, dst)
/-- the `double` written `t` -/
def d (t : String) : Val := .engaged (.str (bs t))
/-- `std::vector<int>` with the extract function of test_converter.cpp:580-592 -/
def vec : Ty := .custom (.other 0) fun t dst => if t.isEmpty then (false, dst) else (true, .other 123)

/-- a call `convert<rs...>(line, delim)` -/
structure Call where
  rs : List Req
  line : String
  delim : String := ","

/-- one call of a converter with the line in a buffer of its own, and what the user sees of it -/
inductive Seen where
  | valid (vs : List Val)
  | invalid
  | threw
  | bad
  deriving DecidableEq

/-- a call on the converter left by the previous ones -/
def call (c : Cfg) (k : Call) (s : Conv) : Seen × Conv :=
  match Conv.convertLine c k.rs (bs k.delim) { s with spl := { s.spl with mem := bs k.line ++ [NUL] } } with
  | .ok vs s' => (if s'.err.valid c.mode then .valid vs else .invalid, s')
  | .exc _ s' => (.threw, s')
  | _ => (.bad, s)

/-- all calls of a test case, on one converter: all give what is expected -/
def session (c : Cfg) : List (Call × Option (List Val)) → Conv → Bool
  | [], _ => true
  | (k, want) :: ks, s =>
    let r := call c k s
    decide (r.1 = match want with
      | some vs => .valid vs
      | none => if c.mode = .throw then .threw else .invalid) && session c ks r.2

/-- in every error mode -/
def everyMode (c : Cfg) (ks : List (Call × Option (List Val))) : Bool :=
  [ErrMode.bool, .string, .throw].all fun m => session { c with mode := m } ks {}

/-- restrictions over an integer type, with `int` template arguments -/
def restr (t : IntTy) (r : Restr) : Req :=
  .valid (.int t) (fun v => match v with | .int n => r.valid t n | _ => false) r.error
/-- an `int` template argument -/
def li (n : Int) : Lit := ⟨⟨true, 32⟩, n⟩
/-- `ss::ne` -/
def ne (t : Ty) : Req := .valid t neValid (bs "empty field")

/-! ## test_converter.cpp:4-47: split -/

/-- the fields of `c.split(line, delim)` -/
def splitOf (m : ErrMode) (line delim : String) : Option (List Bytes) :=
  match Conv.split { mode := m } (bs delim) { spl := { mem := bs line ++ [NUL] } } with
  | .ok _ s => some (s.spl.data.map fun p => textAt s.spl.mem p.1 p.2)
  | _ => none

example : ([ErrMode.bool, .string, .throw].all fun m =>
    ([("a,b,c,d", ["a", "b", "c", "d"], ","), ("", [], " "), (" x x x x | x ", [" x x x x ", " x "], "|"),
      ("a::b::c::d", ["a", "b", "c", "d"], "::"), ("x\t-\ty", ["x", "y"], "\t-\t"), ("x", ["x"], ",")] :
        List (String × List String × String)).all fun t =>
      decide (splitOf m t.1 t.2.2 = some (t.2.1.map bs))) = true := by decide +kernel

/-! ## test_converter.cpp:49-263: valid conversions -/

example : (templ.all fun t => everyMode {} [
    (⟨[.ty (.int t)], "5", ","⟩, some [.int 5]),
    (⟨[.ty (.int t), .void], "5,junk", ","⟩, some [.int 5]),
    (⟨[.void, .ty (.int t)], "junk,5", ","⟩, some [.int 5]),
    (⟨[.ty (.int t), .void, .void], "5\njunk\njunk", "\n"⟩, some [.int 5]),
    (⟨[.void, .ty (.int t), .void], "junk 5 junk", " "⟩, some [.int 5]),
    (⟨[.void, .void, .ty (.int t)], "junk\tjunk\t5", "\t"⟩, some [.int 5]),
    (⟨[.void, .void, .ty (.opt (.int t))], "junk\tjunk\t5", "\t"⟩, some [.engaged (.int 5)]),
    (⟨[.ty (.int t), .ty dbl, .void], "5,6.6,junk", ","⟩, some [.int 5, d "6.6"]),
    (⟨[.ty (.int t), .void, .ty dbl], "5,junk,6.6", ","⟩, some [.int 5, d "6.6"]),
    (⟨[.void, .ty (.int t), .ty dbl], "junk;5;6.6", ";"⟩, some [.int 5, d "6.6"]),
    (⟨[.void, .ty (.opt (.int t)), .ty dbl], "junk;5;6.6", ";"⟩, some [.engaged (.int 5), d "6.6"]),
    (⟨[.void, .ty (.opt (.int t)), .ty dbl], "junk;5.4;6.6", ";"⟩, some [.nullopt, d "6.6"]),
    (⟨[.void, .ty (.variant [.int t, dbl]), .ty dbl], "junk;5;6.6", ";"⟩, some [.alt 0 (.int 5), d "6.6"]),
    (⟨[.void, .ty (.variant [.int t, dbl]), .ty dbl], "junk;5.5;6.6", ";"⟩, some [.alt 1 (d "5.5"), d "6.6"]),
    (⟨[.void, .ty .view, .ty dbl, .ty .view], "junk;s1;6.6;s2", ";"⟩,
      some [.view (bs "s1"), d "6.6", .view (bs "s2")])]) = true := by decide +kernel

/-! ## test_converter.cpp:265-325: invalid conversions -/

example : (templ.all fun t => everyMode {} [
    (⟨[.ty (.int t)], "", ","⟩, none),
    (⟨[.ty (.int t)], "1", ""⟩, none),
    (⟨[.ty (.int t)], "10", ""⟩, none),
    (⟨[.ty (.int t), .void], "", ","⟩, none),
    (⟨[.ty (.int t), .void], ",junk", ","⟩, none),
    (⟨[.void, .ty (.int t)], "junk,", ","⟩, none),
    (⟨[.ty (.int t)], "x", ","⟩, none),
    (⟨[.ty (.int t), .void], "x", ","⟩, none),
    (⟨[.ty (.int t), .void], "x,junk", ","⟩, none),
    (⟨[.void, .ty (.int t)], "junk,x", ","⟩, none),
    (⟨[.void, .ty (.variant [.int t, dbl]), .ty dbl], "junk;.5.5;6", ";"⟩, none)]) = true := by decide +kernel

/-! ## test_converter.cpp:327-573: ax, nx, ir, oor -/

example : (templ.all fun t => everyMode {} [
    (⟨[restr t (.ax (li 0) [])], "0", ","⟩, none),
    (⟨[restr t (.ax (li 0) [li 1, li 2])], "1", ","⟩, none),
    (⟨[.void, .ty .char, restr t (.ax (li 0) [li 1, li 2])], "junk,c,1", ","⟩, none),
    (⟨[restr t (.ax (li 1) []), .ty .char], "1,c", ","⟩, none),
    (⟨[restr t (.ax (li 1) [])], "3", ","⟩, some [.int 3]),
    (⟨[.ty .char, restr t (.ax (li 1) [])], "c,3", ","⟩, some [.char 99, .int 3]),
    (⟨[restr t (.ax (li 1) []), .ty .char], "3,c", ","⟩, some [.int 3, .char 99])]) = true := by decide +kernel

example : everyMode {} [
    (⟨[restr ⟨true, 32⟩ (.nx (li 1) [])], "3", ","⟩, none),
    (⟨[.ty .char, restr ⟨true, 32⟩ (.nx (li 1) [li 2, li 69])], "c,3", ","⟩, none),
    (⟨[restr ⟨true, 32⟩ (.nx (li 1) []), .ty .char], "3,c", ","⟩, none),
    (⟨[restr ⟨true, 32⟩ (.nx (li 3) [])], "3", ","⟩, some [.int 3]),
    (⟨[restr ⟨true, 32⟩ (.nx (li 0) [li 1, li 2])], "2", ","⟩, some [.int 2]),
    (⟨[.ty .char, .void, restr ⟨true, 32⟩ (.nx (li 0) [li 1, li 2])], "c,junk,1", ","⟩, some [.char 99, .int 1]),
    (⟨[restr ⟨true, 32⟩ (.nx (li 1) []), .ty .char], "1,c", ","⟩, some [.int 1, .char 99])] = true := by decide +kernel

example : (templ.all fun t => everyMode {} [
    (⟨[restr t (.ir (li 0) (li 2))], "3", ","⟩, none),
    (⟨[.ty .char, restr t (.ir (li 4) (li 69))], "c,3", ","⟩, none),
    (⟨[restr t (.ir (li 1) (li 2)), .ty .char], "3,c", ","⟩, none),
    (⟨[restr t (.ir (li 1) (li 5))], "3", ","⟩, some [.int 3]),
    (⟨[restr t (.ir (li 0) (li 2))], "2", ","⟩, some [.int 2]),
    (⟨[.ty .char, .void, restr t (.ir (li 0) (li 1))], "c,junk,1", ","⟩, some [.char 99, .int 1]),
    (⟨[restr t (.ir (li 1) (li 20)), .ty .char], "1,c", ","⟩, some [.int 1, .char 99])]) = true := by decide +kernel

example : everyMode {} [
    (⟨[restr ⟨true, 32⟩ (.oor (li 1) (li 5))], "3", ","⟩, none),
    (⟨[restr ⟨true, 32⟩ (.oor (li 0) (li 2))], "2", ","⟩, none),
    (⟨[.ty .char, restr ⟨true, 32⟩ (.oor (li 0) (li 1)), .void], "c,1,junk", ","⟩, none),
    (⟨[restr ⟨true, 32⟩ (.oor (li 1) (li 20)), .ty .char], "1,c", ","⟩, none),
    (⟨[restr ⟨true, 32⟩ (.oor (li 0) (li 2))], "3", ","⟩, some [.int 3]),
    (⟨[.ty .char, .void, restr ⟨true, 32⟩ (.oor (li 4) (li 69))], "c,junk,3", ","⟩, some [.char 99, .int 3]),
    (⟨[restr ⟨true, 32⟩ (.oor (li 1) (li 2)), .ty .char], "3,c", ","⟩, some [.int 3, .char 99])] = true := by
  decide +kernel

/-! ## test_converter.cpp:575-668: ne -/

example : everyMode {} [
    (⟨[ne .str], "", ","⟩, none),
    (⟨[.ty int_, ne .str], "3,", ","⟩, none),
    (⟨[ne .str, .ty int_], ",3", ","⟩, none),
    (⟨[.void, ne .str, .ty int_], "junk,,3", ","⟩, none),
    (⟨[ne vec], "", ","⟩, none),
    (⟨[ne .str], "s", ","⟩, some [.str (bs "s")]),
    (⟨[.ty (.opt int_), ne .str], "1,s", ","⟩, some [.engaged (.int 1), .str (bs "s")]),
    (⟨[ne vec], "{1 2 3}", ","⟩, some [.other 123])] = true := by decide +kernel

/-! ## test_converter.cpp:670-783: lt, lte, gt, gte -/

example : everyMode {} [
    (⟨[restr ⟨true, 32⟩ (.lt (li 3))], "3", ","⟩, none),
    (⟨[restr ⟨true, 32⟩ (.lt (li 2))], "3", ","⟩, none),
    (⟨[restr ⟨true, 32⟩ (.gt (li 3))], "3", ","⟩, none),
    (⟨[restr ⟨true, 32⟩ (.gt (li 4))], "3", ","⟩, none),
    (⟨[restr ⟨true, 32⟩ (.lte (li 2))], "3", ","⟩, none),
    (⟨[restr ⟨true, 32⟩ (.gte (li 4))], "3", ","⟩, none),
    (⟨[restr ⟨true, 32⟩ (.lt (li 4))], "3", ","⟩, some [.int 3]),
    (⟨[restr ⟨true, 32⟩ (.gt (li 2))], "3", ","⟩, some [.int 3]),
    (⟨[restr ⟨true, 32⟩ (.lte (li 4))], "3", ","⟩, some [.int 3]),
    (⟨[restr ⟨true, 32⟩ (.lte (li 3))], "3", ","⟩, some [.int 3]),
    (⟨[restr ⟨true, 32⟩ (.gte (li 2))], "3", ","⟩, some [.int 3]),
    (⟨[restr ⟨true, 32⟩ (.gte (li 3))], "3", ","⟩, some [.int 3])] = true := by decide +kernel

/-! ## test_converter.cpp:785-902: error modes, quotes, spacing and escaping -/

example : everyMode {} [(⟨[.ty int_], "junk", ","⟩, none)] = true := by decide +kernel

example : everyMode {} [(⟨[.ty .str, .ty .str, .ty .str], "\"just\",\"some\",\"strings\"", ","⟩,
    some [.str (bs "\"just\""), .str (bs "\"some\""), .str (bs "\"strings\"")])] = true := by decide +kernel
example : everyMode { quote := some 34 } [(⟨[.ty .str, .ty .str, .ty dbl, .ty .char], "\"just\",some,\"12.3\",\"a\"", ","⟩,
    some [.str (bs "just"), .str (bs "some"), d "12.3", .char 97])] = true := by decide +kernel
example : everyMode { trimL := [32], trimR := [32] }
    [(⟨[.ty .str, .ty .str, .ty dbl, .ty .char], "    just  ,  some   ,  12.3 ,a     ", ","⟩,
    some [.str (bs "just"), .str (bs "some"), d "12.3", .char 97])] = true := by decide +kernel
example : everyMode { escape := [92] } [(⟨[.ty .str, .ty .str], "ju\\,st,strings", ","⟩,
    some [.str (bs "ju,st"), .str (bs "strings")])] = true := by decide +kernel
example : everyMode { escape := [92], trimL := [32], trimR := [32], quote := some 34 }
    [(⟨[.ty .str, .ty .str, .ty dbl, .ty .str], "  ju\\,st  ,  \"so,me\"  ,   12.34     ,   \"str\"\"ings\"", ","⟩,
    some [.str (bs "ju,st"), .str (bs "so,me"), d "12.34", .str (bs "str\"ings")])] = true := by decide +kernel

/-! ## test_converter.cpp:904-997: invalid splits -/

/-- the calls of the test, with the expected `unterminated_quote()` -/
def invalidSplits : List (Call × Bool) :=
  [(⟨[.ty .str, .ty .str, .ty dbl, .ty .char], "  \"just  , some ,   \"12.3\",\"a\"  ", ","⟩, false),
   (⟨[.ty .str, .ty .str, .ty dbl, .ty .str], "  ju\\,st  ,  \"so,me\"  ,   12.34     ,   \"str\"\"ings", ","⟩, true),
   (⟨[.ty .str, .ty .str, .ty dbl, .ty .str], "just,some,2,strings\\", ","⟩, false),
   (⟨[.ty .str, .ty .str, .ty dbl, .ty .str], "just,some,2,\"strings\\", ","⟩, false),
   (⟨[.ty .str, .ty .str, .ty dbl, .ty .str], "just,some,2,\"strings\\\"", ","⟩, true)]

/-- all invalid, with that flag; in string mode with a message -/
def sessionFlag (c : Cfg) : List (Call × Bool) → Conv → Bool
  | [], _ => true
  | (k, f) :: ks, s =>
    let r := call c k s
    decide (r.1 = (if c.mode = .throw then .threw else .invalid) ∧ r.2.spl.unterminatedQuote = f ∧
      (c.mode = .string → r.2.err.msg ≠ [])) && sessionFlag c ks r.2

example : ([ErrMode.bool, .string, .throw].all fun m =>
    sessionFlag { escape := [92], trimL := [32], trimR := [32], quote := some 34, mode := m } invalidSplits {}) = true := by
  decide +kernel

/-! ## test_extractions.cpp -/

/-- `ss::extract(s.c_str(), s.c_str() + s.size(), value)` -/
def ext (t : Ty) (s : String) : Option (Bool × Val) := extract (bs s ++ [NUL]) 0 (bs s).length t t.dflt

/-- test_extractions.cpp:72-83 -/
def decimal (t : IntTy) (s : String) (n : Int) : Bool :=
  decide (ext (.int t) s = some (true, .int n)) &&
  (!t.signed || decide (ext (.int t) ("-" ++ s) = some (true, .int (-n))))
example : (decimal ⟨true, 8⟩ "12" 12 && decimal ⟨false, 8⟩ "12" 12 && decimal ⟨true, 16⟩ "1234" 1234 &&
    decimal ⟨false, 16⟩ "1234" 1234 && decimal ⟨true, 32⟩ "1234" 1234 && decimal ⟨false, 32⟩ "1234" 1234 &&
    decimal ⟨true, 64⟩ "1234" 1234 && decimal ⟨false, 64⟩ "1234" 1234 &&
    decimal ⟨false, 64⟩ "1234567891011" 1234567891011) = true := by decide +kernel

/-- the value is rejected and the destination untouched -/
def rejected (t : Ty) (s : String) : Bool := decide (ext t s = some (false, t.dflt))
example : (rejected u8 "-12" && rejected (.int ⟨false, 64⟩) "-1234" && rejected int_ "123.4" && rejected int_ "xxx1" &&
    rejected int_ "") = true := by decide +kernel

/-- the limits are accepted; with the first digit that is not '9' replaced by '9' (or "-1") they are out of range -/
example : (decide (ext (.int ⟨true, 16⟩) "32767" = some (true, .int 32767)) && rejected (.int ⟨true, 16⟩) "92767" &&
    decide (ext (.int ⟨true, 16⟩) "-32768" = some (true, .int (-32768))) && rejected (.int ⟨true, 16⟩) "-92768" &&
    decide (ext (.int ⟨false, 16⟩) "65535" = some (true, .int 65535)) && rejected (.int ⟨false, 16⟩) "95535" &&
    decide (ext (.int ⟨false, 16⟩) "0" = some (true, .int 0)) && rejected (.int ⟨false, 16⟩) "-1" &&
    decide (ext (.int ⟨false, 8⟩) "255" = some (true, .int 255)) && rejected (.int ⟨false, 8⟩) "955" &&
    decide (ext (.int ⟨true, 64⟩) "9223372036854775807" = some (true, .int 9223372036854775807)) &&
    rejected (.int ⟨true, 64⟩) "9923372036854775807" &&
    decide (ext (.int ⟨true, 64⟩) "-9223372036854775808" = some (true, .int (-9223372036854775808))) &&
    rejected (.int ⟨true, 64⟩) "-9923372036854775808" &&
    decide (ext (.int ⟨false, 64⟩) "18446744073709551615" = some (true, .int 18446744073709551615)) &&
    rejected (.int ⟨false, 64⟩) "98446744073709551615") = true := by decide +kernel

/-- test_extractions.cpp:135-163: bool, char -/
example : (decide (ext .bool "1" = some (true, .bool true)) && decide (ext .bool "0" = some (true, .bool false)) &&
    decide (ext .bool "true" = some (true, .bool true)) && decide (ext .bool "false" = some (true, .bool false)) &&
    ["2", "tru", "truee", "xxx", ""].all (rejected .bool) &&
    decide (ext .char "a" = some (true, .char 97)) && decide (ext .char " " = some (true, .char 32)) &&
    ["aa", "xxx", ""].all (fun s => decide ((ext .char s).map Prod.fst = some false))) = true := by decide +kernel

/-- test_extractions.cpp:165-200: optional -/
example : ([int_, i8].all (fun t => decide (ext (.opt t) "1" = some (true, .engaged (.int 1))) &&
      decide (ext (.opt t) "69" = some (true, .engaged (.int 69))) &&
      decide (ext (.opt t) "-4" = some (true, .engaged (.int (-4))))) &&
    decide (ext (.opt .char) "x" = some (true, .engaged (.char 120))) &&
    [int_, i8, .char].all (fun t => ["aa", "xxx", ""].all fun s => decide (ext (.opt t) s = some (true, .nullopt)))) =
    true := by decide +kernel

/-- test_extractions.cpp:202-300: variant -/
example : ([int_, u8].all fun t =>
    decide (ext (.variant [t, dbl, .str]) "22" = some (true, .alt 0 (.int 22))) &&
    decide (ext (.variant [dbl, t, .str]) "22" = some (true, .alt 0 (d "22"))) &&
    decide (ext (.variant [.str, dbl, t]) "22" = some (true, .alt 0 (.str (bs "22")))) &&
    decide (ext (.variant [t]) "22" = some (true, .alt 0 (.int 22))) &&
    decide (ext (.variant [t, dbl, .str]) "22.2" = some (true, .alt 1 (d "22.2"))) &&
    decide (ext (.variant [dbl, t, .str]) "22.2" = some (true, .alt 0 (d "22.2"))) &&
    decide (ext (.variant [.str, dbl, t]) "22.2" = some (true, .alt 0 (.str (bs "22.2")))) &&
    decide (ext (.variant [t, dbl, .str]) "2.2.2" = some (true, .alt 2 (.str (bs "2.2.2")))) &&
    decide (ext (.variant [dbl, .str, t]) "2.2.2" = some (true, .alt 1 (.str (bs "2.2.2")))) &&
    decide (ext (.variant [.str, dbl, t]) "2.2.2" = some (true, .alt 0 (.str (bs "2.2.2")))) &&
    decide (ext (.variant [t, dbl]) "2.2.2" = some (false, .alt 0 (.int 0))) &&
    decide (ext (.variant [dbl, t]) "2.2.2" = some (false, .alt 0 (.other 0))) &&
    decide (ext (.variant [t]) "2.2.2" = some (false, .alt 0 (.int 0)))) = true := by decide +kernel

end Ssp.Check
