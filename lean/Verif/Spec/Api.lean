import Verif.Spec.Split
import Verif.Model.Splitter
/-!
# What a caller observes of a splitter call
-/
namespace Ssp

/-- The columns a caller reads through the reported ranges, after the call. -/
def Spl.columns (s : Spl) : List Bytes :=
  s.data.map fun p => (s.mem.drop p.1).take (p.2 - p.1)

/-- The call returned, `valid()` holds and the reported columns are `fs`. -/
def Accepts (c : Cfg) (r : Res Spl Unit) (fs : List Bytes) : Prop :=
  ∃ s', r = .ok () s' ∧ s'.err.valid c.mode = true ∧ s'.columns = fs ∧ s'.unterminatedQuote = false

/-- The call reported the error `msg` in the way of the setup's error mode: an exception with this text,
this `error_msg()`, or just `!valid()`. -/
def Rejects (c : Cfg) (r : Res Spl Unit) (msg : Bytes) : Prop :=
  match c.mode with
  | .throw => ∃ s', r = .exc msg s'
  | .string => ∃ s', r = .ok () s' ∧ s'.err.valid c.mode = false ∧ s'.err.msg = msg
  | .bool => ∃ s', r = .ok () s' ∧ s'.err.valid c.mode = false

/-- `s` is a splitter on which a call can be made, and its storage holds the NUL terminated text `line`
followed by arbitrary bytes `T`. -/
structure Holds (s : Spl) (line T : Bytes) : Prop where
  mem : s.mem = line ++ NUL :: T
  nul : NUL ∉ line
  idle : s.resplitting = false

end Ssp

namespace Ssp

/-- The caller's side of a continuation (parser.hpp:830-838,983-1022): the part of the storage the
splitter has finished with - everything up to `end_ - size_shifted()` - is kept, `more` and a terminator
are put behind it; `T` is whatever the (re)allocated block contains after that. -/
def Spl.extend (s : Spl) (more T : Bytes) : Spl :=
  { s with mem := s.mem.take (s.end_ - s.escaped) ++ (more ++ NUL :: T), gen := s.gen + 1 }

/-- `Chain c delim text res`: `res` is the outcome of splitting `text` in pieces: a `split` of its
beginning, followed by any number of continuations, each of them made because the previous call flagged an
unterminated quote, and at a place where the text may be cut. -/
inductive Chain (c : Cfg) (delim : Bytes) : Bytes → Res Spl Unit → Prop
  | first {line T : Bytes} {s : Spl} : Holds s line T → Chain c delim line (Spl.split c delim s)
  | more {text more T : Bytes} {s : Spl} {size : Nat} : Chain c delim text (.ok () s) →
      s.unterminatedQuote = true → NUL ∉ more → Spec.Joint c delim more → s.end_ - s.escaped + more.length ≤ size →
      Chain c delim (text ++ more) (Spl.resplit c size delim (s.extend more T))

end Ssp
