import Verif.Model.Base
import Verif.Spec.Lines
/-!
# Model of the floating point conversion of the single header build (include/ss/extract.hpp:41-82)
-/
namespace Ssp

/-- What `std::strtod`/`std::strtof` does with a C string: the value (an abstract name of it) and the number of bytes
consumed, which are never more than there are before the terminator. -/
structure Strtod where
  parse : Bytes → Nat × Nat
  inside : ∀ s, (parse s).2 ≤ s.length

/-- `buff_max`: extract.hpp:49 -/
def buffMax : Nat := 64

/-- `to_num<float or double>` with SSP_DISABLE_FAST_FLOAT: extract.hpp:43-80, on the text of the column.  `junk` are
the contents of the uninitialised `short_buff`.  The outer `none` is an access outside a buffer. -/
def toNumFloat (st : Strtod) (junk : Nat → Byte) (t : Bytes) : Option (Option Nat) :=
  let buff : Option Bytes :=
    -- long_buff: extract.hpp:56-58
    if t.length > buffMax then some (t ++ [NUL])
    else
      -- short_buff: extract.hpp:59-63
      let short := (List.range buffMax).map junk
      if t.length < short.length then
        let short := short.set t.length NUL
        some (t ++ short.drop t.length)
      else none
  match buff with
  | none => none
  | some b =>
    if NUL ∈ b then
      let r := st.parse (cutNul b)
      -- `parse_end != buff + string_range`: extract.hpp:75-77
      if r.2 ≠ t.length then some none else some (some r.1)
    else none

end Ssp
