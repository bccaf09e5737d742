import Verif.Spec.Api
import Verif.Model.SplitCost
import Verif.Model.LineCost
import Verif.Model.ReaderCost
/-! # Specification: the work of reading a row that is given in pieces -/
namespace Ssp

/-- What counting adds to `Chain`: the pieces of a row are split one after the other, as the parser does with the lines of a
multi-line row; `n` is the number of steps (bytes looked at, bytes moved, columns noted or corrected) all these calls took
together and `k` is the number of pieces. -/
inductive CountedChain (c : Cfg) (delim : Bytes) : Bytes → Res Spl Unit → (n k : Nat) → Prop
  | first {line T : Bytes} {s : Spl} : Holds s line T →
      CountedChain c delim line (Spl.split c delim s) (Spl.splitK c delim s).2 1
  | more {text more T : Bytes} {s : Spl} {size n k : Nat} : CountedChain c delim text (.ok () s) n k →
      s.unterminatedQuote = true → NUL ∉ more → Spec.Joint c delim more → s.end_ - s.escaped + more.length ≤ size →
      CountedChain c delim (text ++ more) (Spl.resplit c size delim (s.extend more T))
        (n + (Spl.resplitK c size delim (s.extend more T)).2) (k + 1)

/-- `CountedReads read s ls n`: calling `read` again and again from the state `s` delivers the lines `ls`, each NUL terminated in the
line buffer, then end of file, and all these calls together take `n` steps. -/
inductive CountedReads (read : K Io (Option Nat)) : Io → List Bytes → (n : Nat) → Prop
  | eof {s s' : Io} {n : Nat} : read s = (.ok none s', n) → CountedReads read s [] n
  | line {s s' : Io} {l T : Bytes} {ls : List Bytes} {n m : Nat} : read s = (.ok (some l.length) s', n) → s'.mem = l ++ NUL :: T →
      CountedReads read s' ls m → CountedReads read s (l :: ls) (n + m)

/-- `CountedRows x s r n`: what a parser does to its reader in state `s` while all rows that are left are asked for: a line is read ahead,
split, and the buffers are exchanged (not when splitting throws), until the end of the input is found; there are `r` rows, and
reading and splitting them all takes `n` steps. -/
inductive CountedRows (x : Ctx) : Reader → (r n : Nat) → Prop
  | eof {s s' : Reader} {n : Nat} : Reader.readNextK x s = (.ok false s', n) → CountedRows x s 0 n
  | row {s s1 s2 s3 : Reader} {n m r k : Nat} : Reader.readNextK x s = (.ok true s1, n) → Reader.parseK x s1 = (.ok () s2, m) →
      Reader.update s2 = .ok () s3 → CountedRows x s3 r k → CountedRows x s (r + 1) (n + m + k)
  | thrown {s s1 s2 : Reader} {e : Bytes} {n m r k : Nat} : Reader.readNextK x s = (.ok true s1, n) → Reader.parseK x s1 = (.exc e s2, m) →
      CountedRows x s2 r k → CountedRows x s (r + 1) (n + m + k)

end Ssp
