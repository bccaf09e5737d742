import Verif.Check.Parser
/-!
# The project's own parser tests, run on the model: rows with errors, headers, empty lines

test/test_parser1_3.cpp (68-314), test_parser1_4.cpp, test_parser1_5.cpp, transcribed, as in `Check/Parser.lean`.
-/
namespace Ssp.Check

/-! ## test_parser1_3.cpp:68-314: unterminated rows -/

/-- `test_unterminated_line`: the rows before `bad` are good, that one is an error -/
def unterminated (c : Cfg) (ls : List String) (bad : Nat) : Bool :=
  everywhere { c with multiline := true, mlLimit := 3 } (file ls) fun x =>
    let r := (readAll x ids 40 (start x).1).take (bad + 1)
    decide (r.length = bad + 1) && r.dropLast.all Option.isSome && decide (r.getLast? = some none)

/-- the options -/
abbrev esc : Cfg := { escape := [92] }
abbrev quo : Cfg := { quote := some 34 }
abbrev both : Cfg := { quote := some 34, escape := [92] }

/-- unterminated escape -/
example : ([esc, both].all fun c =>
    unterminated c ["1,2,just\\"] 0 && unterminated c ["1,2,just\\", "9,8,second"] 0 &&
    unterminated c ["9,8,first", "1,2,just\\"] 1 && unterminated c ["9,8,first", "1,2,just\\", "3,4,third"] 1 &&
    unterminated c ["9,8,first", "1,2,just\\\nstrings\\", "3,4,th\\\nird"] 1 &&
    unterminated c ["9,8,first", "3,4,second", "1,2,just\\"] 2 &&
    unterminated c ["9,8,\\first", "3,4,second", "1,2,jus\\t\\"] 2) = true := by decide +kernel

/-- unterminated quote -/
example : ([quo, both].all fun c =>
    unterminated c ["1,2,\"just"] 0 && unterminated c ["1,2,\"just", "9,8,second"] 0 &&
    unterminated c ["9,8,first", "1,2,\"just"] 1 && unterminated c ["9,8,first", "1,2,\"just", "3,4,th\\,ird"] 1 &&
    unterminated c ["9,8,first", "3,4,second", "1,2,\"just"] 2 &&
    unterminated c ["9,8,\"first\"", "\"3\",4,\"sec,ond\"", "1,2,\"ju\"\"st"] 2) = true := by decide +kernel

/-- unterminated quote and escape -/
example : (unterminated both ["1,2,\"just\\"] 0 && unterminated both ["1,2,\"just\\\n\\"] 0 &&
    unterminated both ["1,2,\"just\n\\"] 0 && unterminated both ["9,8,first", "1,2,\"just\n\\"] 1 &&
    unterminated both ["9,8,first", "1,2,\"just\n\\", "4,3,thrid"] 1 &&
    unterminated both ["9,8,f\\\nirst", "1,2,\"just\n\\", "4,3,thrid"] 1 &&
    unterminated both ["9,8,\"f\ni\nrst\"", "1,2,\"just\n\\", "4,3,thrid"] 1) = true := by decide +kernel

/-- multiline limit reached, escape -/
example : ([esc, both].all fun c =>
    unterminated c ["1,2,\\\n\\\n\\\n\\\njust"] 0 && unterminated c ["9,8,first", "1,2,\\\n\\\n\\\n\\\njust"] 1 &&
    unterminated c ["9,8,fi\\\nrs\\\nt", "1,2,\\\n\\\n\\\n\\\njust"] 1 &&
    unterminated c ["9,8,first", "1,2,\\\n\\\n\\\n\\\njust", "4,3,third"] 1) = true := by decide +kernel

/-- multiline limit reached, quote -/
example : ([quo, both].all fun c =>
    unterminated c ["1,2,\"\n\n\n\n\njust\""] 0 && unterminated c ["9,8,first", "1,2,\"\n\n\n\n\njust\""] 1 &&
    unterminated c ["9,8,\"fir\nst\"", "1,2,\"\n\n\n\n\njust\""] 1) = true := by decide +kernel

/-- multiline limit reached, quote and escape -/
example : (unterminated both ["1,2,\"\\\n\n\\\n\\\n\\\njust"] 0 &&
    unterminated both ["9,8,first", "1,2,\"\\\n\n\\\n\\\n\\\njust"] 1 &&
    unterminated both ["9,8,fi\\\nrst", "1,2,\"\\\n\n\\\n\\\n\\\njust"] 1 &&
    unterminated both ["9,8,\"fi\nrst\"", "1,2,\"\\\n\n\\\n\\\n\\\njust"] 1 &&
    unterminated both ["9,8,\"fi\nr\\\nst\"", "1,2,\"\\\n\n\\\n\\\n\\\njust"] 1) = true := by decide +kernel

/-! ## test_parser1_4.cpp: headers -/

/-- `p.header()` is this and the parser is valid, `raw_header()` is the joined header -/
def headerIs (x : Ctx) (h : List String) (p : Parser) : Bool :=
  decide ((does x (Parser.getHeader x) p).1 = some (h.map bs)) && decide (p.rawHeader = bs (String.intercalate "," h))

/-- the text of the test -/
def hfile : String := "Int,Double,String\n" ++ written xlines
/-- its header -/
def hnames : List String := ["Int", "Double", "String"]
/-- the column of a name -/
def reqOf : String → Req
  | "Int" => .ty int_
  | "Double" => .ty dbl
  | _ => .ty .str
/-- the value of a name in a row -/
def valOf (r : List Val) : String → Val
  | "Int" => r.getD 0 (.other 0)
  | "Double" => r.getD 1 (.other 0)
  | _ => r.getD 2 (.other 0)

/-- `test_fields` -/
def fieldsTest (fs : List String) : Bool :=
  everywhere {} hfile fun x =>
    let p0 := (start x).1
    let e := does x (Parser.fieldExists x (bs "Unknown")) p0
    let u := does x (Parser.useFields x (fs.map bs)) e.2
    decide (e.1 = some false) && decide (u.1 = some ()) && headerIs x hnames u.2 &&
    decide (readAll x (fs.map reqOf) 40 u.2 = xrows.map fun r => r.map fun v => fs.map (valOf v))

example : ([["String"], ["Int"], ["Double"], ["String", "Int"], ["Double", "Int"]].all fieldsTest) = true := by
  decide +kernel
example : ([["String", "Int", "Double"], ["Int", "Double", "String"], ["Double", "String", "Int"]].all fieldsTest) = true := by
  decide +kernel

/-- `ignore_next`, then everything -/
example : everywhere {} hfile (fun x =>
    decide (readAll x ids 40 (does x (Parser.ignoreNext x) (start x).1).2 = xrows)) = true := by decide +kernel
/-- without it the header is a bad row -/
example : reads {} ids hfile (none :: xrows) = true := by decide +kernel

/-- `use_fields` between rows -/
example : everywhere {} hfile (fun x =>
    let p := (does x (Parser.useFields x [bs "Int", bs "Double"]) (start x).1).2
    let r1 := does x (Parser.getNext x [.ty int_, .ty dbl]) p
    let p := (does x (Parser.useFields x [bs "Double", bs "Int"]) r1.2).2
    let r2 := does x (Parser.getNext x [.ty dbl, .ty int_]) p
    let p := (does x (Parser.useFields x [bs "String"]) r2.2).2
    let r3 := does x (Parser.getNext x [.ty .str]) p
    let p := (does x (Parser.useFields x [bs "String", bs "Int", bs "Double"]) r3.2).2
    let r4 := does x (Parser.getNext x [.ty .str, .ty int_, .ty dbl]) p
    headerIs x hnames r4.2 &&
    decide (r1.1 = some [.int 1, d "2.0"] ∧ r2.1 = some [d "4.0", .int 3] ∧ r3.1 = some [.str (bs "z")] ∧
      r4.1 = some [.str (bs "u"), .int 7, d "8.0"])) = true := by decide +kernel

/-- the parts of a text between commas -/
def commas : List Char → List Char → List String
  | acc, [] => [String.ofList acc]
  | acc, c :: cs => if c = ',' then String.ofList acc :: commas [] cs else commas (acc ++ [c]) cs

/-- `test_invalid_fields` -/
def invalidFields (ls : List String) (fs : List String) : Bool :=
  everywhere {} (file ls) fun x =>
    let p := (start x).1
    let check (q : Parser) : Bool := headerIs x (match ls with | [] => [""] | l :: _ => commas [] l.toList) q
    let none_ := does x (Parser.useFields x []) p
    let unknown := does x (Parser.useFields x [bs "Unknown"]) p
    let all := does x (Parser.useFields x (fs.map bs)) p
    decide (none_.1 = none) && check none_.2 && decide (unknown.1 = none) && check unknown.2 && check p &&
    match fs with
    | [] => true
    | f :: _ =>
      let twice := does x (Parser.useFields x [bs f, bs f]) p
      let range := does x (do
        Parser.useFields x [bs f]
        let s ← M.get
        if s.valid x.cfg then Parser.getNext x [.ty .str, .ty .str] else pure []) p
      decide (twice.1 = none) && check twice.2 && decide (range.1 = none) && check range.2 &&
      decide (all.1.isSome = fs.Nodup) && check all.2

example : invalidFields [] [] = true := by decide +kernel
example : (invalidFields ["Int"] ["Int"] && invalidFields ["Int", "1"] ["Int"] && invalidFields ["Int", "1", "2"] ["Int"]) =
    true := by decide +kernel
example : (invalidFields ["Int,String"] ["Int", "String"] && invalidFields ["Int,String", "1,hi"] ["Int", "String"]) = true := by
  decide +kernel
example : (invalidFields ["Int,String,Double", "1,hi,2.34", "2,hello,3.45"] ["Int", "String", "Double"]) = true := by
  decide +kernel
example : (invalidFields ["Int,Int,Int"] ["Int", "Int", "Int"] && invalidFields ["Int,Int,Int", "1,2,3"] ["Int", "Int", "Int"] &&
    invalidFields ["Int,String,Int", "1,hi,3"] ["Int", "String", "Int"]) = true := by decide +kernel

/-- the text of "test invalid rows with header" -/
def badRows : String := file ["Int,String,Double", "1,line1,2.34", "2,line2", "3,line3,67.8", "4,line4,67.8,9", "5,line5,9.10",
  "six,line6,10.11"]

/-- the good rows read with these fields -/
def usedRows (fs : List String) (rs : List Req) (want : List (List Val)) : Bool :=
  everywhere {} badRows fun x =>
    let u := does x (Parser.useFields x (fs.map bs)) (start x).1
    decide (u.1 = some ()) && headerIs x ["Int", "String", "Double"] u.2 &&
    decide ((readAll x rs 40 u.2).filterMap id = want) && decide ((readAll x rs 40 u.2).length = 6)

example : usedRows ["Int", "String", "Double"] [.ty int_, .ty .str, .ty dbl]
    [[.int 1, .str (bs "line1"), d "2.34"], [.int 3, .str (bs "line3"), d "67.8"], [.int 5, .str (bs "line5"), d "9.10"]] =
    true := by decide +kernel
example : usedRows ["Double", "Int"] [.ty dbl, .ty int_] [[d "2.34", .int 1], [d "67.8", .int 3], [d "9.10", .int 5]] = true := by
  decide +kernel
example : usedRows ["String", "Double"] [.ty .str, .ty dbl]
    [[.str (bs "line1"), d "2.34"], [.str (bs "line3"), d "67.8"], [.str (bs "line5"), d "9.10"], [.str (bs "line6"), d "10.11"]] =
    true := by decide +kernel

/-! ## test_parser1_5.cpp: empty fields in headers, unterminated headers -/

example : everywhere {} (file ["", "1"]) (fun x => headerIs x [""] (start x).1) = true := by decide +kernel
example : everywhere {} (file [",,", "1,2,3"]) (fun x =>
    let p := (start x).1
    let e := does x (Parser.fieldExists x (bs "Int")) p
    headerIs x ["", "", ""] p && decide (e.1 = none) && decide ((does x (Parser.useFields x [bs "Int"]) e.2).1 = none)) = true := by
  decide +kernel

/-- a header with one empty field -/
def emptyField (h : String) : Bool :=
  everywhere {} (file [h, "1,2,3"]) fun x =>
    let p := (start x).1
    headerIs x (commas [] h.toList) p && ["Int0", "Int1", ""].all (fun f => decide ((does x (Parser.fieldExists x (bs f)) p).1 = some true)) &&
    ([["Int0"], ["Int1"], [""], ["", "Int0"], ["Int0", "Int1"], ["Int1", ""], ["Int0", "", "Int1"], ["", "Int1", "Int0"]].foldl
      (fun (a : Bool × Parser) fs => let r := does x (Parser.useFields x (fs.map bs)) a.2; (a.1 && r.1.isSome, r.2)) (true, p)).1

example : emptyField "Int0,Int1," = true := by decide +kernel
example : emptyField ",Int0,Int1" = true := by decide +kernel
example : emptyField "Int0,,Int1" = true := by decide +kernel

/-- `test_unterminated_quote_header`, `test_unterminated_escape_header` -/
def badHeader (c : Cfg) (h : String) : Bool :=
  everywhere c (file [h, "1"]) fun x =>
    let p := (start x).1
    let a := does x (Parser.getHeader x) p
    let b := does x (Parser.fieldExists x (bs "Int")) a.2
    let u := does x (Parser.useFields x [bs "Int"]) b.2
    decide (a.1 = none ∧ a.2.rawHeader = bs h ∧ b.1 = none ∧ u.1 = none)

example : ([quo, both, { quo with multiline := true }, { both with multiline := true }].all fun c => badHeader c "\"Int") = true := by
  decide +kernel
example : ([esc, both, { esc with multiline := true }, { both with multiline := true }].all fun c => badHeader c "Int\\") = true := by
  decide +kernel

/-! ## test_parser1_5.cpp: empty lines -/

/-- `test_ignore_empty`: with `ignore_empty` only the rows, without it the empty lines are errors -/
def emptyLines (ls : List String) : Bool :=
  let rows := ls.map fun l => if l = "" then none else some [Val.str (bs l)]
  reads { ignoreEmpty := true } [.ty .str] (written ls) (rows.filter Option.isSome) && reads {} [.ty .str] (written ls) rows

example : (emptyLines ["x", "y", "v", "w"] && emptyLines ["", "y", "v", "w"] && emptyLines ["x", "y", "v", ""] &&
    emptyLines ["x", "", "v", "w"] && emptyLines ["", "", "v", "w"]) = true := by decide +kernel
example : (emptyLines ["", "y", "v", ""] && emptyLines ["x", "y", "", ""] && emptyLines ["", "y", "", ""] &&
    emptyLines ["", "", "", ""] && emptyLines ["x", "", "", ""] && emptyLines ["", "", "", "w"] && emptyLines [""] &&
    emptyLines []) = true := by decide +kernel

end Ssp.Check
