import Verif.Spec.Decay
import Mathlib.MeasureTheory.Measure.Lebesgue.Basic

/-!
# Random draws of a decaying sample

`random()` is idealised: the draws are independent and uniform on the open interval from 0 to 1. A chance is then the volume of a
set of points of the unit cube, one coordinate for each draw.
-/

namespace Txstatsd.Spec

open MeasureTheory

/-- The possible draws for `m` values. -/
def cube (m : ℕ) : Set (Fin m → ℝ) := {u | ∀ k, 0 < u k ∧ u k < 1}

/-- The chance that the draws are in `A`. -/
noncomputable def chance {m : ℕ} (A : Set (Fin m → ℝ)) : ENNReal := volume (cube m ∩ A)

/-- Value `k` of `v` is offered at time `t k` with draw `u k`. -/
def offers {V : Type} {m : ℕ} (v : Fin m → V) (t u : Fin m → ℝ) : List (DecayOp ℝ V) :=
  List.ofFn fun k => .update (v k) (t k) (u k)

end Txstatsd.Spec
