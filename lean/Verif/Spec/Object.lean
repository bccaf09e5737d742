import Verif.Model.Object
import Verif.Spec.Parser
/-!
# What a user observes of the calls that return objects
-/
namespace Ssp

/-- the same outcome with another returned value -/
def Res.map {σ α β : Type} (f : α → β) : Res σ α → Res σ β
  | .ok a s => .ok (f a) s
  | .exc e s => .exc e s
  | .ub => .ub
  | .nofuel => .nofuel

namespace Parser
variable {β : Type}

/-- The alternative converts the row `l` to the values `vs`. -/
def ObjAlt.Converts (x : Ctx) (s : Parser) (l : Bytes) (b : ObjAlt β) (vs : List Val) : Prop :=
  Ssp.Yields x.cfg (s.fresh x b.reqs l) vs

/-- Its callback, if it has one, does not refuse the object made of them either. -/
def ObjAlt.Suits (x : Ctx) (s : Parser) (l : Bytes) (b : ObjAlt β) (vs : List Val) : Prop :=
  b.Converts x s l vs ∧ ∀ f, b.fn = some f → f (b.make vs) ≠ some false

/-- The same alternative without objects: its callback makes the object from the tuple. -/
def ObjAlt.tuples (b : ObjAlt β) : Alt where
  reqs := b.reqs
  fn := b.fn.map fun f vs => f (b.make vs)

end Parser
end Ssp
