import Verif.Spec.SBoxUniform
import Verif.Spec.Distinct
import Verif.Model.DistinctFloat

/-!
# What a counter with random tables reports
-/

namespace Txstatsd.Spec

/-- A counter with `n` buckets and these tables that was given the sightings reports `e` for the time after `since`. -/
def Reports [Rounding] [FloatPow] (n : ℕ) (tables : List (Nat → Nat)) (h : List (ℚ × Str)) (since : ℚ) (e : ℤ) : Prop :=
  ∃ c, feed (.init n tables) h = .ok c ∧ c.distinctFloat (.fin since) = .ok e

/-- The tables `random.randint(0, 0xFFFFFFFF - 1)` can draw for `k` hash functions: the greatest number of 32 bits does not occur. -/
def Drawn {k : ℕ} (T : Fin k → Tables) : Prop := ∀ i b, (T i b : ℕ) ≤ 0xFFFFFFFF - 1

end Txstatsd.Spec
