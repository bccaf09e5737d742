import Verif.Model.Base
/-!
# Counting the steps of an operation
-/
namespace Ssp

/-- A C++ operation together with the number of steps it took, also when it ends in an
exception. -/
def K (σ α : Type) := σ → Res σ α × Nat

namespace K
variable {σ α β : Type}

/-- an operation whose steps are `cost` -/
def of (m : M σ α) (cost : σ → Nat) : K σ α := fun s => (m s, cost s)
/-- an operation that takes no counted step -/
def free (m : M σ α) : K σ α := of m fun _ => 0

protected def pure (a : α) : K σ α := fun s => (.ok a s, 0)

protected def bind (k : K σ α) (f : α → K σ β) : K σ β := fun s =>
  match k s with
  | (.ok a s', n) => ((f a s').1, n + (f a s').2)
  | (.exc e s', n) => (.exc e s', n)
  | (.ub, n) => (.ub, n)
  | (.nofuel, n) => (.nofuel, n)

instance : Monad (K σ) where
  pure := K.pure
  bind := K.bind

end K

end Ssp
