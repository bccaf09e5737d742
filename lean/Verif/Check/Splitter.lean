import Verif.Model.Splitter
import Verif.Model.Extract
/-!
# The project's own splitter tests, run on the model

test/test_splitter.cpp, transcribed.  These are not proofs of properties: they check that the *model* answers what the
authors of the code expect of it.  Every `example` is evaluated by the kernel.

`test_combinations` of the C++ tests splits every list of at most 3 of the given fields; here fewer
combinations and delimiters.
-/
namespace Ssp.Check

/-- `std::string(1, q)` etc. -/
abbrev q : Byte := 34
abbrev bsl : Byte := 92
abbrev sp : Byte := 32
abbrev tab : Byte := 9

/-- `words`: test_splitter.cpp:20-26 -/
def words (s : Spl) : List Bytes := s.data.map fun p => textAt s.mem p.1 p.2

/-- split a line in a fresh buffer with a fresh splitter -/
def run (c : Cfg) (line : String) (delim : String := ",") : Res Spl Unit :=
  Spl.split c (bs delim) { mem := bs line ++ [NUL] }

/-- the fields, if the splitter is valid -/
def fieldsOf : Cfg → Res Spl Unit → Option (List Bytes)
  | c, .ok _ s => if s.err.valid c.mode then some (words s) else none
  | _, _ => none

/-- test_splitter.cpp:61-73 -/
def spaced (input : List String) (s : String) : List String :=
  input ++ input.flatMap fun i => [s ++ i ++ s, i ++ s, s ++ i, s ++ s ++ i, s ++ s ++ i ++ s ++ s, i ++ s ++ s]
/-- test_splitter.cpp:75-89 -/
def spaced2 (input : List String) (s1 s2 : String) : List String :=
  input ++ input.flatMap fun i => [s1 ++ i ++ s2, s2 ++ i ++ s1, s2 ++ s2 ++ s1 ++ s1 ++ i, i ++ s1 ++ s2 ++ s1 ++ s2,
    s1 ++ s1 ++ s1 ++ i ++ s2 ++ s2 ++ s2, s2 ++ s2 ++ s2 ++ i ++ s1 ++ s1 ++ s1]
/-- test_splitter.cpp:91-101 -/
def spacedLeft (input : List String) (s : String) : List String :=
  input ++ input.flatMap fun i => [i, s ++ i, s ++ s ++ i, s ++ s ++ s ++ i]
/-- test_splitter.cpp:103-113 -/
def spacedRight (input : List String) (s : String) : List String :=
  input ++ input.flatMap fun i => [i, i ++ s, i ++ s ++ s, i ++ s ++ s ++ s]

/-- every field alone, and every field followed by the first one; the C++ tests use all lists of at most 3 fields -/
def lines (fields : List (Bytes × Bytes)) (d : Bytes) : List (Bytes × List Bytes) :=
  fields.map (fun f => (f.1, [f.2])) ++
  match fields with
  | [] => []
  | g :: _ => fields.map fun f => (f.1 ++ d ++ g.1, [f.2, g.2])

/-- `test_combinations`: test_splitter.cpp:158-190 -/
def combinations (c : Cfg) (matches_ : List (List String × String)) (delims : List String) : Bool :=
  let fields : List (Bytes × Bytes) := matches_.flatMap fun m => m.1.map fun x => (bs x, bs m.2)
  (delims.all fun d => (lines fields (bs d)).all fun l =>
    decide (fieldsOf c (Spl.split c (bs d) { mem := l.1 ++ [NUL] }) = some l.2)) &&
  (delims.all fun d => fields.all fun l =>
    decide (fieldsOf { c with mode := .throw } (Spl.split { c with mode := .throw } (bs d) { mem := l.1 ++ [NUL] }) =
      some [l.2]))

/-! ## test_splitter.cpp:192-200: no setup -/

example : combinations {} [(["x"], "x"), (["\""], "\""), ([""], ""), (["\n"], "\n"), (["\"\""], "\"\""),
    (["\" \\ \""], "\" \\ \""), (["     "], "     ")] [",", ";", "\t", "::"] = true := by decide +kernel

/-! ## test_splitter.cpp:202-245: quote -/

example : combinations { quote := some q } [(["\"\"\"\""], "\""), (["\"x\"\"x\"", "x\"x"], "x\"x"), (["\"\"", ""], ""),
    (["\"x\"", "x"], "x"), (["\"\"\"\"\"\""], "\"\""), (["\"\\\"", "\\"], "\\"),
    (["\"xxxxxxxxxx\"", "xxxxxxxxxx"], "xxxxxxxxxx")] [",", "::"] = true := by decide +kernel

example : combinations { quote := some q } [(["\"\"\"\""], "\""), (["\"\"", ""], ""), (["\",\""], ","),
    (["\"x,\""], "x,"), (["\",x\""], ",x"), (["\"x,x\""], "x,x"), (["\",,\""], ",,")] [","] = true := by decide +kernel

example : combinations { quote := some q } [(["\"\"\"\""], "\""), (["\"\"", ""], ""), (["\"::\""], "::"),
    (["\"x::\""], "x::"), (["\"::x\""], "::x"), (["\"x::x\""], "x::x"), (["\"::::\""], "::::")] ["::"] = true := by
  decide +kernel

/-! ## test_splitter.cpp:247-277: trim -/

example : combinations { trimL := [sp], trimR := [sp] } [(spaced ["x"] " ", "x"), (spaced ["yy"] " ", "yy"),
    (spaced ["y y"] " ", "y y"), (spaced [""] " ", "")] [",", "::"] = true := by decide +kernel

example : combinations { trimL := [sp, tab], trimR := [sp, tab] } [(spaced ["x"] " ", "x"), (spaced [""] " ", ""),
    (spaced ["z"] "\t", "z"), (spaced2 ["ab"] " " "\t", "ab"), (spaced2 ["a\tb"] " " "\t", "a\tb"),
    (spaced2 ["a \t b"] " " "\t", "a \t b")] [",", "::"] = true := by decide +kernel

/-! ## test_splitter.cpp:279-316: escape -/

example : combinations { escape := [bsl] } [(["x", "\\x"], "x"), (["xx", "\\xx", "x\\x", "\\x\\x"], "xx"),
    (["\\\\"], "\\")] [",", "::"] = true := by decide +kernel

example : combinations { escape := [bsl, 35] } [(["x", "\\x"], "x"), (["xx", "\\xx", "x\\x", "\\x\\x"], "xx"),
    (["\\\\"], "\\"), (["\\,"], ","), (["x#,"], "x,"), (["#,x"], ",x"), (["x\\,x"], "x,x")] [","] = true := by
  decide +kernel

example : combinations { escape := [bsl] } [(["x", "\\x"], "x"), (["xx", "\\xx", "x\\x", "\\x\\x"], "xx"),
    (["\\\\"], "\\"), (["\\:\\:"], "::"), (["x\\::x"], "x::x")] ["::"] = true := by decide +kernel

/-! ## test_splitter.cpp:318-349: quote and trim -/

example : combinations { quote := some q, trimL := [sp], trimR := [sp] } [(spaced ["\"\"\"\""] " ", "\""),
    (spaced ["\"x\"\"x\"", "x\"x"] " ", "x\"x"), (spaced ["\"\"", ""] " ", ""), (spaced ["\"\\\"", "\\"] " ", "\\")]
    [",", "::"] = true := by decide +kernel

example : combinations { quote := some q, trimL := [sp, tab], trimR := [sp, tab] } [(spaced ["\"\"\"\""] " ", "\""),
    (spaced2 ["\",\""] " " "\t", ","), (spaced2 ["\"x,\""] " " "\t", "x,"), (spaced2 ["\",x\""] " " "\t", ",x"),
    (spaced2 ["\"x,x\""] " " "\t", "x,x")] [","] = true := by decide +kernel

/-! ## test_splitter.cpp:351-394: quote and escape -/

example : combinations { quote := some q, escape := [bsl] } [(["\"\\\"\"", "\\\"", "\"\"\"\""], "\""),
    (["\"x\\\"x\"", "x\\\"x", "x\"x", "\"x\"\"x\""], "x\"x"), (["\"\"", ""], ""), (["\"x\"", "x"], "x"),
    (["\"\\\"\\\"\"", "\"\"\"\"\"\"", "\"\\\"\"\"\"", "\"\"\"\\\"\""], "\"\""), (["\"\\\\\"", "\\\\"], "\\")]
    [",", "::", " "] = true := by decide +kernel

example : combinations { quote := some 39, escape := [35] } [(["'xxxxxxxxxx'", "xxxxxxxxxx"], "xxxxxxxxxx"), (["''", ""], ""),
    (["'#\\'", "#\\"], "\\"), (["'#''", "#'", "''''"], "'"), (["'##'", "##"], "#")] [",", "::"] = true := by
  decide +kernel

example : combinations { quote := some q, escape := [bsl, 35] } [(["\"\\\"\"", "\\\"", "\"\"\"\""], "\""),
    (["\"\"", ""], ""), (["\"x,x\"", "x\\,x", "x#,x", "\"x\\,x\"", "\"x#,x\""], "x,x"),
    (["\"#\\\\#\"", "#\\\\#", "\\\\##", "\"\\\\##\""], "\\#")] [","] = true := by decide +kernel

/-! ## test_splitter.cpp:396-429: escape and trim -/

example : combinations { escape := [bsl], trimL := [sp], trimR := [sp] } [(spaced ["\\ x\\ ", "\\ \\x\\ "] " ", " x "),
    (spaced ["x", "\\x"] " ", "x"), (spaced ["\\\\"] " ", "\\")] [",", "::"] = true := by decide +kernel

example : combinations { escape := [bsl, 35], trimL := [sp], trimR := [sp] } [(spaced ["x", "\\x"] " ", "x"),
    (spaced ["\\\\"] " ", "\\"), (spaced ["\\,"] " ", ","), (spaced ["#,x"] " ", ",x"), (spaced ["x\\,x"] " ", "x,x")]
    [","] = true := by decide +kernel

example : combinations { escape := [bsl], trimL := [sp, tab], trimR := [sp, tab] } [(spaced ["x", "\\x"] " ", "x"),
    (spaced2 ["\\:\\:"] " " "\t", "::"), (spaced2 ["x\\::x"] " " "\t", "x::x")] ["::"] = true := by decide +kernel

/-! ## test_splitter.cpp:431-484: quote, escape and trim -/

example : combinations { quote := some q, escape := [bsl], trimL := [sp], trimR := [sp] }
    [(spaced ["\"\\\"\"", "\\\"", "\"\"\"\""] " ", "\""), (spaced ["\"\"", ""] " ", ""),
    (spaced ["\"\\\"\\\"\"", "\"\\\"\"\"\""] " ", "\"\""), (spaced ["\"\\\\\"", "\\\\"] " ", "\\")] ["::"] = true := by
  decide +kernel

example : combinations { quote := some 39, escape := [35], trimL := [sp, tab], trimR := [sp, tab] }
    [(spaced2 ["''", ""] " " "\t", ""), (spaced2 ["'#\\'", "#\\"] " " "\t", "\\"),
     (spaced2 ["'#''", "#'", "''''"] " " "\t", "'"), (spaced2 ["'##'", "##"] " " "\t", "#")] [","] = true := by
  decide +kernel

/-! ## test_splitter.cpp:498-528: error mode -/

example : (match run { mode := .string } "just,some,strings" "" with
    | .ok _ s => !s.err.valid .string && !s.unterminatedQuote && s.err.msg != [] | _ => false) = true := by decide +kernel
example : (match run { mode := .throw } "just,some,strings" "" with
    | .exc e s => e != [] && !s.unterminatedQuote | _ => false) = true := by decide +kernel
example : (match run { mode := .string, quote := some q } "\"just" with
    | .ok _ s => !s.err.valid .string && s.unterminatedQuote && s.err.msg != [] | _ => false) = true := by decide +kernel

/-! ## test_splitter.cpp:560-957: resplit, with and without throw_on_error

A test is a first line and a list of continuations; `over` says whether the continuation is written over the shifted
characters at the end (`append_overwrite_last`, test_helpers.hpp) or behind the line (`append`). -/

/-- the buffer of the tests after a continuation; the C++ buffer is NUL terminated -/
def extend (s : Spl) (more : Bytes) (over : Bool) : Bytes :=
  let t := s.mem.takeWhile (· ≠ NUL)
  t.take (t.length - if over then s.escaped else 0) ++ more ++ [NUL]

/-- `expect_unterminated_quote`, then every continuation but the last leaves the quote open -/
def resplits (c : Cfg) (first : String) : List (String × Bool) → Option (List Bytes × List Bytes)
  | conts =>
    match run c first with
    | .ok _ s =>
      if s.err.valid c.mode && s.unterminatedQuote then (go s conts).map fun r => ((words s).dropLast, r) else none
    | _ => none
where
  go (s : Spl) : List (String × Bool) → Option (List Bytes)
    | [] => some (words s)
    | (more, over) :: rest =>
      let mem := extend s (bs more) over
      match Spl.resplit c (mem.length - 1) (bs ",") { s with mem := mem } with
      | .ok _ s' =>
        if s'.err.valid c.mode && s'.unterminatedQuote == !rest.isEmpty then go s' rest else none
      | _ => none

/-- with both error modes -/
def resplitsTo (c : Cfg) (first : String) (conts : List (String × Bool)) (before after : List String) : Bool :=
  [ErrMode.bool, ErrMode.throw].all fun m =>
    decide (resplits { c with mode := m } first conts = some (before.map bs, after.map bs))

def cq : Cfg := { quote := some q, multiline := true }
def cqe : Cfg := { quote := some q, escape := [bsl], multiline := true }

example : resplitsTo cqe "\"x" [("a\\x", true), ("\"", true)] [] ["xax"] = true := by decide +kernel
example : resplitsTo cq "\"just" [("\",strings", false)] [] ["just", "strings"] = true := by decide +kernel
example : resplitsTo cq "just,some,\"random" [("\",strings", false)] ["just", "some"]
    ["just", "some", "random", "strings"] = true := by decide +kernel
-- test_splitter.cpp:603: the last element of the first split is the line up to the open field
example : (match run cq "just,some,\"random" with
    | .ok _ s => decide (words s = [bs "just", bs "some", bs "just,some,\""]) | _ => false) = true := by decide +kernel
example : resplitsTo cq "\"just\",\"some\",\"ran\"\"" [(",dom\",\"strings\"", true)] ["just", "some"]
    ["just", "some", "ran\",dom", "strings"] = true := by decide +kernel
example : resplitsTo cq "\"just\",\"some\",\"ran" [(",dom", false), ("\",strings", false)] ["just", "some"]
    ["just", "some", "ran,dom", "strings"] = true := by decide +kernel
example : resplitsTo cqe "\"just\\\"some\",\"ra" [("n,dom\",str\\\"ings", false)] ["just\"some"]
    ["just\"some", "ran,dom", "str\"ings"] = true := by decide +kernel
example : resplitsTo cqe "3,4,\"just0\\\n1\\\n22\\\n33333x\\\n4" [("\nx5strings\"", true)] ["3", "4"]
    ["3", "4", "just0\n1\n22\n33333x\n4\nx5strings"] = true := by decide +kernel
example : resplitsTo cqe "\"just\\\"some\",\"ra\"\"" [("n,dom\",str\\\"ings", true)] ["just\"some"]
    ["just\"some", "ra\"n,dom", "str\"ings"] = true := by decide +kernel
example : resplitsTo cqe "\"just\\\"some\",\"r\\a\\a\\\\\\a\\\"" [("n,dom\",str\\\"ings", true)] ["just\"some"]
    ["just\"some", "raa\\a\"n,dom", "str\"ings"] = true := by decide +kernel
example : resplitsTo { cq with trimL := [sp], trimR := [sp] } "  \"just\" ,some,  \"ra " [(" n,dom\"  , strings   ", false)]
    ["just", "some"] ["just", "some", "ra  n,dom", "strings"] = true := by decide +kernel
example : resplitsTo { cqe with trimL := [sp], trimR := [sp] } "  \"ju\\\"st\" ,some,  \"ra \\\""
    [(" n,dom\"  , strings   ", true)] ["ju\"st", "some"] ["ju\"st", "some", "ra \" n,dom", "strings"] = true := by
  decide +kernel
-- test_splitter.cpp:738-757: invalid resplit size
example : (match run cqe "\"just\\\"some\",\"ra" with
    | .ok _ s =>
      match Spl.resplit cqe 4 (bs ",") { s with mem := extend s (bs "n,dom\",str\\\"ings") false } with
      | .ok _ s' => !s'.err.valid .bool
      | _ => false
    | _ => false) = true := by decide +kernel

/-! ## test_splitter.cpp:959-1044: invalid splits -/

def cqte (m : ErrMode) : Cfg := { quote := some q, trimL := [sp], trimR := [sp], escape := [bsl], mode := m }

/-- the outcome the tests expect: not valid (or an exception), this value of `unterminated_quote()`, and a text -/
def invalid (m : ErrMode) (line delim : String) (open_ : Bool) : Bool :=
  match run (cqte m) line delim with
  | .ok _ s => m != .throw && !s.err.valid m && s.unterminatedQuote == open_ && (m != .string || s.err.msg != [])
  | .exc e s => m == .throw && e != [] && s.unterminatedQuote == open_
  | _ => false

example : ([ErrMode.bool, .string, .throw].all fun m =>
    invalid m "some,random,strings" "" false && invalid m "some,\"random,\"strings\"" "," false &&
    invalid m "some,random,strings\\" "," false && invalid m "some,random,\"strings\\" "," false &&
    invalid m "some,random,\"strings" "," true) = true := by decide +kernel
-- invalid resplit, after the unterminated quote
example : ([ErrMode.bool, .string, .throw].all fun m =>
    match run (cqte m) "some,random,\"strings" with
    | .ok _ s | .exc _ s =>
      match Spl.resplit (cqte m) 4 (bs ",") { s with mem := bs "some" ++ [NUL] } with
      | .ok _ s' => m != .throw && !s'.err.valid m
      | .exc _ _ => m == .throw
      | _ => false
    | _ => false) = true := by decide +kernel

/-! ## test_splitter.cpp:1046-1243: trim_left, trim_right -/

example : combinations { trimL := [sp] } [(spacedLeft ["x "] " ", "x "), (spacedLeft ["yy "] " ", "yy "),
    (spacedLeft ["y y "] " ", "y y "), (spacedLeft [""] " ", "")] [",", "::"] = true := by decide +kernel
example : combinations { trimL := [sp, tab] } [(spacedLeft ["x "] " ", "x "), (spacedLeft [""] " ", ""),
    (spacedLeft ["z "] "\t", "z "), (spacedLeft ["ab\t "] " \t", "ab\t "), (spacedLeft ["a\tb "] " \t", "a\tb "),
    (spacedLeft ["a \t b "] " \t", "a \t b ")] [",", "::"] = true := by decide +kernel
example : combinations { trimR := [sp] } [(spacedRight [" x"] " ", " x"), (spacedRight [" yy"] " ", " yy"),
    (spacedRight [" y y"] " ", " y y"), (spacedRight [""] " ", "")] [",", "::"] = true := by decide +kernel
example : combinations { trimR := [sp, tab] } [(spacedRight [" x"] " ", " x"), (spacedRight [""] " ", ""),
    (spacedRight [" z"] "\t", " z"), (spacedRight ["\t ab"] " \t", "\t ab"), (spacedRight ["\ta\tb"] " \t", "\ta\tb"),
    (spacedRight [" \t a \t b"] " \t", " \t a \t b")] [",", "::"] = true := by decide +kernel
example : combinations { trimL := [95], trimR := [45] } [(spacedRight ["-x"] "-", "-x"), (spacedLeft ["yy_"] "_", "yy_"),
    (spacedRight ["-y y"] "-", "-y y"), (spacedLeft [""] "-", ""), (spacedLeft [""] "_", ""),
    (["___---", "_-", "______-"], "")] [",", "::"] = true := by decide +kernel
example : combinations { quote := some q, escape := [bsl], trimL := [95], trimR := [45] }
    [(spacedLeft ["\"\\\"\"", "\\\"", "\"\"\"\""] "_", "\""), (spacedLeft ["\"\"", ""] "_", ""),
    (spacedRight ["\"\\\"\\\"\"", "\"\\\"\"\"\""] "-", "\"\""), (spacedRight ["\"\\\\\"", "\\\\"] "-", "\\")]
    ["::"] = true := by decide +kernel

end Ssp.Check
