import Verif.Spec.HashRing
import Verif.Spec.SBoxUniform
import Mathlib.Data.Fintype.Prod

/-!
# Random positions on the ring
-/

namespace Txstatsd.Spec

/-- The positions the replicas could have: `R` for each node, each below `P`. -/
abbrev Placing (N : Type) (R P : ℕ) := N × Fin R → Fin P

/-- With this hash the key is at position `p`, and the replicas are where `w` says. -/
def HashesTo {N : Type} {R P : ℕ} (H : Hashing N) (key : Str) (p : ℕ) (w : Placing N R P) : Prop :=
  H.hash key = p ∧ ∀ n (i : Fin R), H.hash (H.name n ++ c!":" ++ natStr i) = w (n, i)

end Txstatsd.Spec
