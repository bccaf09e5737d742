import Verif.Spec.Parser
/-!
# Model of moving parsers (include/ss/parser.hpp:70-72, 776-825)

`Verif.Model.Own` follows the resources; here is what becomes of all the other members when a parser is moved, and what is
left in the parser it is moved from.
-/
namespace Ssp

/-- A parser with what is fixed during its life: of `x`, the setup and `wrapped` are its template arguments, `fileName` is
`file_name_`, `delim` is `reader_.delim_`, `src` is `reader_.file_` or `reader_.csv_data_buffer_` and `csv_data_size_`, and
`env` stands for the run time environment of its allocations. -/
structure Obj where
  x : Ctx
  s : Parser

namespace Obj

/-- what the implicit move of a `splitter` (splitter.hpp:470-484) leaves behind; its pointers are copied.  The block they
point into belongs to the reader. -/
def splLeft (p : Spl) : Spl := { p with data := [], err := { p.err with msg := [] } }

/-- what the implicit move of a `converter` (converter.hpp:491-498) leaves behind -/
def convLeft (c : Conv) : Conv :=
  { spl := splLeft c.spl, err := { c.err with msg := [] }, mappings := [], ncols := c.ncols }

/-- what the implicit move of a `splitter` makes, member by member: splitter.hpp:470-484 -/
def splMoved (p : Spl) : Spl where
  mem := p.mem
  gen := p.gen
  lineGen := p.lineGen
  data := p.data
  err := p.err
  unterminatedQuote := p.unterminatedQuote
  done := p.done
  resplitting := p.resplitting
  escaped := p.escaped
  begin_ := p.begin_
  curr := p.curr
  end_ := p.end_

/-- what the implicit move of a `converter` makes: converter.hpp:491-498 -/
def convMoved (c : Conv) : Conv where
  spl := splMoved c.spl
  err := c.err
  mappings := c.mappings
  ncols := c.ncols

/-- the reader made by `reader(reader&&)` (parser.hpp:776-795) and by `operator=(reader&&)` (parser.hpp:797-825), member by
member; a slot is `buffer_`, `converter_`, `buffer_size_` or their `next_line_` counterparts -/
def rdMoved (r : Reader) : Reader where
  cur := { conv := convMoved r.cur.conv, size := r.cur.size }
  next := { conv := convMoved r.next.conv, size := r.next.size }
  helper := r.helper
  helperSize := r.helperSize
  fpos := r.fpos
  tick := r.tick
  curr := r.curr
  crlf := r.crlf
  lineNumber := r.lineNumber
  charsRead := r.charsRead
  nextLineSize := r.nextLineSize

/-- the reader moved from: the three buffers become null (parser.hpp:791-794, 816-820), their sizes stay -/
def rdLeft (r : Reader) : Reader :=
  { r with
    cur := { r.cur with conv := { convLeft r.cur.conv with spl := { splLeft r.cur.conv.spl with mem := [] } } }
    next := { r.next with conv := { convLeft r.next.conv with spl := { splLeft r.next.conv.spl with mem := [] } } }
    helper := [] }

/-- what is left of `file_` and `csv_data_buffer_`: the file becomes null (and `csv_data_buffer_` of a file is null anyway);
a data buffer is forgotten by the move assignment (parser.hpp:820), not by the move constructor -/
def srcLeft (assigned : Bool) : Src → Src
  | .file _ _ => .buf none 0
  | .buf p n => .buf (if assigned then none else p) n

/-- the parser moved from: `std::string` and `std::vector` members are empty (the standard says "valid but unspecified" of
strings; all implementations leave them empty) -/
def left (assigned : Bool) (o : Obj) : Obj where
  x := { o.x with src := srcLeft assigned o.x.src, delim := [], fileName := [] }
  s :=
    { err := { o.s.err with msg := [] }
      rd := rdLeft o.s.rd
      header := []
      rawHeader := []
      eof := o.s.eof }

/-- `parser(parser&&) = default`: parser.hpp:70, with 776-795 -/
def moveConstruct (o : Obj) : Obj where
  x :=
    { cfg := o.x.cfg
      env := o.x.env
      src := o.x.src
      delim := o.x.delim
      fileName := o.x.fileName
      wrapped := o.x.wrapped }
  s :=
    { err := o.s.err
      rd := rdMoved o.s.rd
      header := o.s.header
      rawHeader := o.s.rawHeader
      eof := o.s.eof }

/-- `parser& operator=(parser&&) = default`: parser.hpp:71, with 797-825; all members of `d` are overwritten, its template
arguments stay. -/
def moveAssign (d o : Obj) : Obj where
  x :=
    { cfg := d.x.cfg
      env := o.x.env
      src := o.x.src
      delim := o.x.delim
      fileName := o.x.fileName
      wrapped := d.x.wrapped }
  s :=
    { err := o.s.err
      rd := rdMoved o.s.rd
      header := o.s.header
      rawHeader := o.s.rawHeader
      eof := o.s.eof }

end Obj

/-- What a program does with its parsers; they are numbered in the order of their construction. -/
inductive MAct where
  /-- a call on parser `i` -/
  | call (i : Nat) (op : Op)
  /-- a new parser, move constructed from parser `i` -/
  | moveConstruct (i : Nat)
  /-- `p_i = std::move(p_j)`, for two different parsers -/
  | moveAssign (i j : Nat)
  /-- the life of parser `i` ends -/
  | destroy (i : Nat)

/-- The effect of the actions on the parsers (`none`: destroyed), with what is observed of the calls; `none`: undefined
behaviour, or the program names a parser that does not exist. -/
def runMoves : List MAct → List (Option Obj) → Option (List Obs × List (Option Obj))
  | [], os => some ([], os)
  | .call i op :: as, os =>
    match os[i]? with
    | some (some o) =>
      match Parser.step o.x op o.s with
      | none => none
      | some (b, s') =>
        match runMoves as (os.set i (some { o with s := s' })) with
        | none => none
        | some (bs, os') => some (b :: bs, os')
    | _ => none
  | .moveConstruct i :: as, os =>
    match os[i]? with
    | some (some o) => runMoves as (os.set i (some (o.left false)) ++ [some o.moveConstruct])
    | _ => none
  | .moveAssign i j :: as, os =>
    match os[i]?, os[j]? with
    | some (some d), some (some o) =>
      if i = j then none else runMoves as ((os.set i (some (d.moveAssign o))).set j (some (o.left true)))
    | _, _ => none
  | .destroy i :: as, os =>
    match os[i]? with
    | some (some _) => runMoves as (os.set i none)
    | _ => none

end Ssp
