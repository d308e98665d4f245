import Verif.Spec.Durations
import Verif.Model.Ieee

/-!
# A clock of doubles
-/

namespace Txstatsd.Spec
variable [Rounding]

/-- A clock whose readings are doubles (below `2^60` seconds), that never goes back, and has not doubled its first reading (a clock
that counts from 1970 does that in 2080 if the server starts in 2025). -/
structure SteadyClock (w : World) : Prop where
  double : ∀ i, rnd (w.clk i) = .fin (w.clk i)
  forward : ∀ i j, i ≤ j → w.clk i ≤ w.clk j
  young : ∀ i j, i ≤ j → w.clk j ≤ 2 * w.clk i
  small : ∀ i, w.clk i ≤ 2 ^ 60

/-- `v` is `x` up to `k` times the relative error of two roundings. -/
def Within (k : ℕ) (v x : ℚ) : Prop := |v - x| ≤ (k : ℚ) / 2 ^ 52 * x

end Txstatsd.Spec
