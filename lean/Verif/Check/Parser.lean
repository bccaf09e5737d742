import Verif.Model.Parser
import Verif.Check.Converter
/-!
# The project's own parser tests, run on the model

test/test_parser1_*.cpp, transcribed.  These are not proofs of properties: they check that the *model* answers what the
authors of the code expect of it.  Every `example` is evaluated by the kernel.  Each test runs in the three error modes, on
a file (read with `getline`, and with the portable loop) and on a data buffer.  Moves of parsers are not transcribed.
-/
namespace Ssp.Check

/-- `std::endl`-terminated lines -/
def file (ls : List String) : String := String.join (ls.map (· ++ "\n"))
/-- `make_and_write`, without the header: lines end alternately in "\n" and "\r\n" (test_parser1.hpp:79-113) -/
def written : List String → String
  | [] => ""
  | [a] => a ++ "\n"
  | a :: b :: ls => a ++ "\n" ++ b ++ "\r\n" ++ written ls
/-- the same without the last line break -/
def writtenNoEol : List String → String
  | [] => ""
  | [a] => a
  | [a, b] => a ++ "\n" ++ b
  | a :: b :: ls => a ++ "\n" ++ b ++ "\r\n" ++ writtenNoEol ls

/-- the sources a text is read from -/
def sources (d : String) : List Src := [.buf (some (bs d)) (bs d).length, .file true (bs d), .file false (bs d)]

/-- a parser with these options over a source -/
def pctx (c : Cfg) (s : Src) : Ctx :=
  { cfg := c, env := ⟨fun _ _ => 1, fun n => 2 * n⟩, src := s, delim := bs ",", fileName := bs "f", wrapped := false }

/-- construction; the state is kept if it threw -/
def start (x : Ctx) : Parser × Bool :=
  match (match x.src with | .file _ _ => Parser.newFile x | .buf _ _ => Parser.newBuffer x) {} with
  | .ok _ p => (p, p.valid x.cfg)
  | .exc _ p => (p, false)
  | _ => ({}, false)

/-- any call: what it returned (`none`: the call threw or left the parser invalid, with a message in string mode; that is
what `expect_error_on_command` checks), and the parser -/
def does {α : Type} (x : Ctx) (m : M Parser α) (p : Parser) : Option α × Parser :=
  match m p with
  | .ok a p' => (if p'.valid x.cfg then some a else none, p')
  | .exc _ p' => (none, p')
  | _ => (none, { eof := true })

/-- `while (!p.eof())` with everything `get_next` returned -/
def readAll (x : Ctx) (rs : List Req) : Nat → Parser → List (Option (List Val))
  | 0, _ => [some [], none]
  | f + 1, p => if p.eof then [] else
    let r := does x (Parser.getNext x rs) p
    r.1 :: readAll x rs f r.2

/-- the modes and sources -/
def everywhere (c : Cfg) (d : String) (t : Ctx → Bool) : Bool :=
  [ErrMode.bool, .string, .throw].all fun m => (sources d).all fun s => t (pctx { c with mode := m } s)

/-- reading everything with `get_next<rs...>` gives exactly these results -/
def reads (c : Cfg) (rs : List Req) (d : String) (want : List (Option (List Val))) : Bool :=
  everywhere c d fun x => (start x).2 && decide (readAll x rs 40 (start x).1 = want)

/-- `int, double, std::string` -/
abbrev ids : List Req := [.ty int_, .ty dbl, .ty .str]
/-- a row of the tests -/
def row (i : Int) (f : String) (s : String) : Option (List Val) := some [.int i, d f, .str (bs s)]

/-! ## test_parser1_1.cpp:3-50: no file, null buffer -/

example : ([ErrMode.bool, .string, .throw].all fun m => [0, 10].all fun n => !(start (pctx { mode := m } (.buf none n))).2) =
    true := by decide +kernel

/-! ## test_parser1_1.cpp:72-137: position, line -/

/-- the lines of these two tests -/
def ylines : List String := ["1,21,x", "321,4,y", "54,6,zz", "7,876,uuuu", "910,10,v", "10,321,ww"]

/-- position and line before every `get_next`, and at the end -/
def track (x : Ctx) : Nat → Parser → List (Nat × Nat)
  | 0, _ => []
  | f + 1, p => if p.eof then [(0, p.line)] else (p.position, p.line) :: track x f (does x (Parser.getNext x [.ty .str, .ty .str, .ty .str]) p).2

example : everywhere {} (written ylines) (fun x =>
    decide (track x 20 (start x).1 = [(0, 0), (7, 1), (16, 2), (24, 3), (36, 4), (45, 5), (0, 6)])) = true := by decide +kernel

/-! ## test_parser1_1.cpp:139-395: various valid cases -/

/-- the data of the test -/
def xlines : List String := ["1,2.0,x", "3,4.0,y", "5,6.0,z", "7,8.0,u", "9,10.0,v", "11,12.0,w"]
/-- the rows -/
def xrows : List (Option (List Val)) :=
  [row 1 "2.0" "x", row 3 "4.0" "y", row 5 "6.0" "z", row 7 "8.0" "u", row 9 "10.0" "v", row 11 "12.0" "w"]

example : reads {} ids (written xlines) xrows = true := by decide +kernel

/-- a range based for loop (over a text all of whose rows are good) -/
example : everywhere {} (written xlines) (fun x =>
    decide ((does x (Parser.iterate x ids 40) (start x).1).1 = some (xrows.filterMap id))) = true := by decide +kernel

/-- `ignore_next` first -/
example : everywhere {} (written xlines) (fun x =>
    let p := (does x (Parser.ignoreNext x) (start x).1).2
    decide (readAll x ids 40 p = xrows.tail) &&
    decide ((does x (Parser.iterate x ids 40) p).1 = some (xrows.tail.filterMap id))) = true := by decide +kernel

/-- restrictions -/
example : (decide (reads {} [restr ⟨true, 32⟩ (.ax (li 3) []), .ty dbl, .ty .str] (written xlines)
      [row 1 "2.0" "x", none, row 5 "6.0" "z", row 7 "8.0" "u", row 9 "10.0" "v", row 11 "12.0" "w"] = true) &&
    decide (reads {} [restr ⟨true, 32⟩ (.nx (li 3) []), .ty dbl, .ty .str] (written xlines)
      [none, row 3 "4.0" "y", none, none, none, none] = true)) = true := by decide +kernel

/-- no rows -/
example : reads {} ids "" [] = true := by decide +kernel

/-! ## test_parser1_1.cpp:404-620: composite conversions -/

/-- the text of the test -/
def compositeText : String := file
  ["10,a,11.1", "10,20,11.1", "junk", "10,11.1", "1,11.1,a", "junk", "10,junk", "11,junk", "10,11.1,c", "10,20", "10,22.2,f"]

/-- `test_struct`, `test_tuple` -/
abbrev tstruct : List Req := [.ty int_, .ty dbl, .ty .char]
abbrev ttuple : List Req := [.ty dbl, .ty .char, .ty dbl]
/-- a callback that must not be called is visible in the result: `called` -/
def cb : Option (List Val → Option Bool) := some fun _ => none
/-- `[] { return false; }` -/
def no : Option (List Val → Option Bool) := some fun _ => some false

/-- the chains, in order: the first alternative and the links -/
def chains : List (Parser.Alt × List Parser.Link) :=
  [ (⟨[.ty int_, .ty int_, .ty dbl], cb⟩, [.orElse ⟨tstruct, cb⟩, .orElse ⟨[.ty int_, .ty .char, .ty dbl], cb⟩, .onError,
      .orElse ⟨ttuple, cb⟩]),
    (⟨[.ty int_, .ty int_, .ty dbl], cb⟩, [.onError, .orElse ⟨tstruct, cb⟩, .onError, .orElse ⟨ttuple, cb⟩, .onError,
      .orElse ⟨[.ty int_, .ty .char, .ty dbl], cb⟩]),
    (⟨tstruct, cb⟩, [.onError, .orElse ⟨[.ty int_, .ty .char, .ty .char], cb⟩, .orElse ⟨tstruct, cb⟩, .orElse ⟨ttuple, cb⟩,
      .orElse ⟨[.ty int_, .ty .char, .ty dbl], cb⟩]),
    (⟨[.ty int_, .ty dbl], cb⟩, [.orElse ⟨[.ty int_, .ty dbl], cb⟩]),
    (⟨[.ty int_, .ty dbl], cb⟩, [.orElse ⟨tstruct, cb⟩]),
    (⟨[.ty int_, .ty int_, .ty dbl], cb⟩, [.orElse ⟨tstruct, none⟩, .orElse ⟨tstruct, cb⟩, .orElse ⟨ttuple, cb⟩,
      .orElse ⟨[.ty int_, .ty dbl], cb⟩, .onError, .onError]),
    (⟨[.ty int_, .ty (.opt int_)], none⟩, [.onError, .onError, .orElse ⟨[.ty int_, .ty .str], cb⟩, .onError, .onError,
      .onError]),
    (⟨[.ty int_, .ty (.variant [int_, .str])], none⟩, [.onError, .orElse ⟨[.ty int_, .ty .str], cb⟩, .onError]),
    (⟨tstruct, none⟩, [.orElse ⟨[.ty int_], cb⟩]),
    (⟨[.ty int_, .ty int_], no⟩, [.orElse ⟨[.ty int_, .ty dbl], no⟩, .orElse ⟨[.ty int_, .ty int_], none⟩,
      .orElse ⟨[.ty int_, .ty int_], cb⟩]),
    (⟨tstruct, no⟩, [.orElse ⟨[.ty int_, .ty dbl], no⟩, .orElse ⟨tstruct, none⟩, .orElse ⟨[.ty int_, .ty int_], cb⟩]) ]

/-- what is seen of a link: the value, whether the callback was called; whether the error callback was called with a
message that is not empty -/
def seen : Parser.LinkOut → Option (List Val) × Bool × Bool
  | .opt v called => (v, called, false)
  | .err none => (none, false, false)
  | .err (some m) => (none, false, !m.isEmpty)

/-- run the chains -/
def runChains (x : Ctx) : List (Parser.Alt × List Parser.Link) → Parser →
    List (List (Option (List Val) × Bool × Bool) × Bool) × Parser
  | [], p => ([], p)
  | (a, ls) :: rest, p =>
    if p.eof then ([], p) else
    match Parser.tryLinks x a ls p with
    | .ok o p' => let r := runChains x rest p'; ((o.map seen, p'.valid x.cfg) :: r.1, r.2)
    | _ => ([], p)

/-- nothing -/
abbrev o : Option (List Val) × Bool × Bool := (none, false, false)
/-- the error callback was called -/
abbrev err : Option (List Val) × Bool × Bool := (none, false, true)

/-- what the test requires -/
def chainsWant : List (List (Option (List Val) × Bool × Bool) × Bool) :=
  [ ([o, o, (some [.int 10, .char 97, d "11.1"], true, false), o, o], true),
    ([(some [.int 10, .int 20, d "11.1"], true, false), o, o, o, o, o, o], true),
    ([o, err, o, o, o, o], false),
    ([(some [.int 10, d "11.1"], true, false), o], true),
    ([o, (some [.int 1, d "11.1", .char 97], true, false)], true),
    ([o, o, o, o, o, err, err], false),
    ([(some [.int 10, .nullopt], false, false), o, o, o, o, o, o], true),
    ([(some [.int 11, .alt 1 (.str (bs "junk"))], false, false), o, o, o], true),
    ([(some [.int 10, d "11.1", .char 99], false, false), o], true),
    ([(none, true, false), (none, true, false), (some [.int 10, .int 20], false, false), o], true),
    ([(none, true, false), o, (some [.int 10, d "22.2", .char 102], false, false), o], true) ]

example : ((sources compositeText).all fun s =>
    let x := pctx { mode := .string } s
    let r := runChains x chains (start x).1
    decide (r.1 = chainsWant) && r.2.eof) = true := by decide +kernel

/-! ## test_parser1_1.cpp:622-675: no line break at the end -/

example : reads {} ids (writtenNoEol ["1,2,X"]) [row 1 "2" "X"] = true := by decide +kernel
example : reads {} ids (writtenNoEol ["1,2,X", "3,4,YY"]) [row 1 "2" "X", row 3 "4" "YY"] = true := by decide +kernel
example : reads {} ids (writtenNoEol ["1,2,X", "3,4,YY", "5,6,ZZZ", "7,8,UUU"])
    [row 1 "2" "X", row 3 "4" "YY", row 5 "6" "ZZZ", row 7 "8" "UUU"] = true := by decide +kernel
/-- lines around the initial buffer size -/
example : ([123, 124, 125].all fun n => let s := "".pushn 'X' n; reads {} ids (writtenNoEol ["1,2," ++ s]) [row 1 "2" s]) =
    true := by decide +kernel

/-! ## test_parser1_2.cpp:65-101: error modes -/

example : reads {} [.ty int_] (file ["junk", "junk"]) [none, none] = true := by decide +kernel

/-! ## test_parser1_2.cpp:103-265: multiline -/

example : reads { multiline := true, quote := some 34 } ids
    (written ["1,2,\"x\r\nx\nx\"", "3,4,\"y\ny\r\ny\"", "5,6,\"z\nz\"", "7,8,\"u\"\"\"", "9,10,v", "11,12,\"w\n\""])
    [row 1 "2" "x\r\nx\nx", row 3 "4" "y\ny\r\ny", row 5 "6" "z\nz", row 7 "8" "u\"", row 9 "10" "v", row 11 "12" "w\n"] =
    true := by decide +kernel

example : reads { multiline := true, escape := [92] } ids
    (written ["1,2,x\\\nx\\\r\nx", "5,6,z\\\nz\\\nz", "7,8,u", "3,4,y\\\ny\\\ny", "9,10,v\\\\", "11,12,w\\\n"])
    [row 1 "2" "x\nx\r\nx", row 5 "6" "z\nz\nz", row 7 "8" "u", row 3 "4" "y\ny\ny", row 9 "10" "v\\", row 11 "12" "w\n"] =
    true := by decide +kernel

example : reads { multiline := true, quote := some 34, escape := [92] } ids
    (file ["1,2,\"just\\\n\nstrings\"", "3,4,\"just\r\nsome\\\r\n\n\\\nstrings\"", "5,6,\"just\\\n\\\r\n\r\n\nstrings",
      "7,8,\"just strings\"", "9,10,just strings"])
    [row 1 "2" "just\n\nstrings", row 3 "4" "just\r\nsome\r\n\n\nstrings", none, row 9 "10" "just strings"] = true := by
  decide +kernel

/-! ## test_parser1_3.cpp:3-66: multiline_restricted -/

/-- the text of the test -/
def restrictedText : String := file
  ["1,2,\"just\n\nstrings\"", "3,4,\"ju\n\r\n\nnk\"", "5,6,just\\\n\\\r\nstrings", "7,8,ju\\\n\\\n\\\nnk", "99,100,\"\n\n\n\n",
   "9,10,\"just\\\n\nstrings\"", "11,12,\"ju\\\n|\n\n\n\n\nk\"", "13,14,\"ju\\\n\\\n15,16\"\\\n\\\\\n\nnk\"",
   "17,18,\"ju\\\n\\\n\\\n\\\\\n\nnk\"", "19,20,just strings"]

example : everywhere { multiline := true, mlLimit := 2, quote := some 34, escape := [92] } restrictedText (fun x =>
    let r := readAll x ids 60 (start x).1
    decide ((r.filter (· = none)).length = 20) &&
    decide (r.filter (· ≠ none) =
      [row 1 "2" "just\n\nstrings", row 5 "6" "just\n\r\nstrings", row 9 "10" "just\n\nstrings",
       row 19 "20" "just strings"])) = true := by decide +kernel

end Ssp.Check
