import Verif.Spec.Sample

/-!
# Elementary statistics of a list of rationals
-/

namespace Txstatsd

/-- The arithmetic mean. -/
def meanOf (l : List ℚ) : ℚ := l.sum / l.length

/-- The sample variance `Σ (x - mean)² / (n - 1)`, 0 for at most one value. -/
def varianceOf (l : List ℚ) : ℚ :=
  if l.length ≤ 1 then 0 else (l.map fun x => (x - meanOf l) ^ 2).sum / ((l.length : ℚ) - 1)

/-- `m` is the least of the values. -/
def IsLeast' (l : List ℚ) (m : ℚ) : Prop := m ∈ l ∧ ∀ v ∈ l, m ≤ v

/-- `m` is the greatest of the values. -/
def IsGreatest' (l : List ℚ) (m : ℚ) : Prop := m ∈ l ∧ ∀ v ∈ l, v ≤ m

/-- `v` belongs in bin `j` of the `bins` equal bins that divide `[lo, hi]`; the last bin includes `hi`. -/
def InBin (lo hi : ℚ) (bins j : Nat) (v : ℚ) : Prop :=
  lo + j * ((hi - lo) / bins) ≤ v ∧ (v < lo + (j + 1) * ((hi - lo) / bins) ∨ (j + 1 = bins ∧ v = hi))

instance (lo hi : ℚ) (bins j : Nat) (v : ℚ) : Decidable (InBin lo hi bins j v) := by unfold InBin; infer_instance

end Txstatsd
