import Verif.Model.Callback
import Verif.Spec.Types
import Verif.Spec.Parser
/-!
# What callbacks should do

`γ` is the data of the user's program that callbacks read and change.
-/
namespace Ssp.Spec
open Ssp Parser

variable {γ : Type}

/-- `Called f t vs g r vs' g'`: the callback `f` was called once for the values `vs` of a row of type `t` - without arguments,
if that is possible, else with the whole row, if that is possible, else with the values one by one -, it returned `r`, and
left the values as `vs'` and the user's data as `g'`. -/
inductive Called (f : Callable γ) (t : Tp Req) (vs : List Val) (g : γ) : Option Bool → List Val → γ → Prop
  | nothing {r as g'} : f.takes [] = true → f.call [] g = (r, as, g') → Called f t vs g r vs g'
  | whole {r as g'} : f.takes [] = false → f.takes [t] = true →
      f.call [match vs with | [v] => .val v | vs => .tup vs] g = (r, as, g') → Called f t vs g r (as.flatMap CbArg.values) g'
  | spread {r as g'} : f.takes [] = false → f.takes [t] = false → f.call (vs.map .val) g = (r, as, g') →
      Called f t vs g r (as.flatMap CbArg.values) g'

/-- Each alternative asks for at least one value (otherwise it does not compile). -/
def Asks : CbLink γ → Prop
  | .orElse a => valueTypes a.reqs ≠ []
  | .onError _ => True

/-- `Offered C e ls g os g'`: a row is offered to the alternatives in `ls` one after the other.  `C rs vs`: the row converts
to the values `vs` of the types `rs`.  `e`: an earlier alternative has taken the row.  `os`: the optionals; `g`, `g'`: the
user's data before and afterwards.  The first alternative that the row converts to and whose callback, if there is one, does
not return false takes the row.  `on_error` is called with some text, or with nothing if that is possible. -/
inductive Offered (C : List Req → List Val → Prop) : Bool → List (CbLink γ) → γ → List (Option (List Val)) → γ → Prop
  | nil {e g} : Offered C e [] g [] g
  /-- an earlier alternative has taken the row: this one has no value, its callback is not called -/
  | late {a ls g os g'} : Offered C true ls g os g' → Offered C true (.orElse a :: ls) g (none :: os) g'
  /-- the row does not convert: the callback is not called -/
  | unfit {a ls g os g'} : (∀ vs, ¬ C a.reqs vs) → Offered C false ls g os g' → Offered C false (.orElse a :: ls) g (none :: os) g'
  /-- the row converts, there is no callback -/
  | plain {a ls g os g' vs} : C a.reqs vs → a.fn = none → Offered C true ls g os g' →
      Offered C false (.orElse a :: ls) g (some vs :: os) g'
  /-- the row converts, the callback returns false: what it did stays, and the row is offered on -/
  | refused {a ls g os g' t f vs vs' g1} : C a.reqs vs → a.fn = some f → resultType (valueTypes a.reqs) = some t →
      Called f t vs g (some false) vs' g1 → Offered C false ls g1 os g' → Offered C false (.orElse a :: ls) g (none :: os) g'
  /-- the row converts, the callback returns true or nothing -/
  | taken {a ls g os g' t f vs r vs' g1} : C a.reqs vs → a.fn = some f → resultType (valueTypes a.reqs) = some t →
      Called f t vs g r vs' g1 → r ≠ some false → Offered C true ls g1 os g' →
      Offered C false (.orElse a :: ls) g (some vs' :: os) g'
  /-- `on_error` behind an alternative that took the row -/
  | fine {h ls g os g'} : Offered C true ls g os g' → Offered C true (.onError h :: ls) g os g'
  /-- `on_error` when no alternative has taken the row -/
  | failed {h ls g os g'} (m : Bytes) : Offered C false ls (h.call (if h.takes [] then [] else [.val (.str m)]) g).2.2 os g' →
      Offered C false (.onError h :: ls) g os g'

/-- The rows `ls` are offered to the chain `ks` one after the other; `C l`: the conversions of the row `l`. -/
inductive OfferedAll (C : Bytes → List Req → List Val → Prop) (ks : List (CbLink γ)) :
    List Bytes → γ → List (List (Option (List Val))) → γ → Prop
  | nil {g} : OfferedAll C ks [] g [] g
  | cons {l ls g g1 g2 os oss} : Offered (C l) false ks g os g1 → OfferedAll C ks ls g1 oss g2 →
      OfferedAll C ks (l :: ls) g (os :: oss) g2

end Ssp.Spec
