import Verif.Model.Line
/-!
# The lines of a text
-/
namespace Ssp

/-- The lines of a text, each with its LF (the last one possibly without). -/
def rawLines : Bytes → List Bytes
  | [] => []
  | x :: xs =>
    if x = LF then [x] :: rawLines xs
    else match rawLines xs with
      | [] => [[x]]
      | l :: ls => (x :: l) :: ls

/-- The terminator of a raw line: LF, CRLF or nothing. -/
def eolOf (l : Bytes) : Bytes :=
  if l.getLast? = some LF then
    if l.dropLast.getLast? = some CR then [CR, LF] else [LF]
  else []

/-- A raw line without its terminator. -/
def chop (l : Bytes) : Bytes := l.take (l.length - (eolOf l).length)

/-- The lines of a text, without their terminators. -/
def lines (t : Bytes) : List Bytes := (rawLines t).map chop

/-- the bytes of the input -/
def Src.data : Src → Bytes
  | .file _ d => d
  | .buf p _ => p.getD []

/-- The input is usable: a buffer of the given size (size 0 for a null pointer); data without NUL for the portable file
reader. -/
def Src.Fine : Src → Prop
  | .file unix d => unix = false → NUL ∉ d
  | .buf p n => n = (p.getD []).length

/-- the input is a buffer -/
def Src.isBuf : Src → Prop
  | .file _ _ => False
  | .buf _ _ => True

/-- `Grown src src'`: `src'` is the same input as `src` with bytes appended at its end -/
inductive Src.Grown : Src → Src → Prop
  | file {u : Bool} {p e : Bytes} : Grown (.file u p) (.file u (p ++ e))
  | buf {p e : Bytes} : Grown (.buf (some p) p.length) (.buf (some (p ++ e)) (p ++ e).length)

/-- What C string functions see of a text. -/
def cutNul (t : Bytes) : Bytes := t.takeWhile (· ≠ NUL)

end Ssp
