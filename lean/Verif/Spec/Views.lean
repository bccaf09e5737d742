import Verif.Spec.Parser
/-!
# What the values returned by a parser point to

`extract` stores in a `std::string_view` the two pointers of the column it is given (extract.hpp:258-262); so a view in
the returned row consists of the pointers of a column in the line buffer, and what it shows later is what is then in this
buffer between these pointers.
-/
namespace Ssp

/-- the requested types that have a value (all but `void`), with their positions, counted from `i` -/
def valued : List Req → Nat → List (Req × Nat)
  | [], _ => []
  | .void :: rs, i => valued rs (i + 1)
  | r :: rs, i => (r, i) :: valued rs (i + 1)

/-- the pointers (offsets in the line buffer) of the column that is converted to the requested type at position `i` -/
def Conv.column (s : Conv) (i : Nat) : Option (Nat × Nat) :=
  if s.mappings = [] then s.spl.data[i]? else (s.mappings[i]?).bind fun j => s.spl.data[j]?

/-- converting what is now between these pointers in the block `mem` gives the value `v` -/
def Req.Reads (mem : Bytes) (p : Nat × Nat) (v : Val) : Req → Prop
  | .void => False
  | .ty t => extract mem p.1 p.2 t t.dflt = some (true, v)
  | .valid t _ _ => extract mem p.1 p.2 t t.dflt = some (true, v)

/-- The calls between two rows: they neither return a row nor convert the present one. -/
def Op.Between : Op → Prop
  | .getNext _ => False
  | .chain _ _ => False
  | _ => True

/-- the block with the line of the row that was returned last -/
def Parser.block (s : Parser) : Bytes := s.rd.cur.conv.spl.mem

/-- how often this block was reallocated -/
def Parser.blockGen (s : Parser) : Nat := s.rd.cur.conv.spl.gen

/-- The `string_view`s in a value that was made from the text `t` by one of the library's conversions show `t`. -/
def Val.Shows (t : Bytes) : Val → Prop
  | .view u => u = t
  | .engaged v => v.Shows t
  | .alt _ v => v.Shows t
  | _ => True

mutual
/-- no user defined conversion is involved -/
def Ty.Plain : Ty → Prop
  | .custom _ _ => False
  | .opt t => t.Plain
  | .variant ts => PlainAll ts
  | _ => True
/-- the same for the alternatives of a variant -/
def PlainAll : List Ty → Prop
  | [] => True
  | t :: ts => t.Plain ∧ PlainAll ts
end

end Ssp
