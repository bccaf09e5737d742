import Verif.Model.ReadError
import Verif.Spec.Lines
/-!
# What is read of a file that cannot be read to its end
-/
namespace Ssp

/-- the bytes behind the last LF -/
def openTail (t : Bytes) : Bytes := (t.reverse.takeWhile (· ≠ LF)).reverse

/-- What is taken for the contents of the file: everything that can be read; with the portable reader the line that cannot be
read to its end loses the bytes behind the last full piece of 127 bytes. -/
def FailingFile.readable (b : FailingFile) (unix : Bool) : Bytes :=
  if unix then b.data.take b.bad
  else (b.data.take b.bad).take ((b.data.take b.bad).length - (openTail (b.data.take b.bad)).length % 127)

/-- the file is read up to the begin of a line -/
def FailingFile.AtLine (b : FailingFile) (unix : Bool) (s : Io) : Prop :=
  ∃ n, s.fpos = ((rawLines (b.readable unix)).take n).flatten.length

end Ssp
