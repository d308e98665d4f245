import Verif.Spec.Decay
import Mathlib.Tactic.Ring
import Mathlib.Tactic.Linarith
import Mathlib.Algebra.BigOperators.Intervals
import Mathlib.Algebra.Order.Field.Basic

set_option linter.unusedSectionVars false
set_option linter.unusedSimpArgs false
set_option linter.unusedVariables false

namespace Txstatsd
namespace Ewma
variable {K : Type} [Field K]

theorem runOps_snoc (e : Ewma K) (ops : List (EwmaOp K)) (o : EwmaOp K) :
    e.runOps (ops ++ [o]) = match o with | .update n => (e.runOps ops).update n | .tick => (e.runOps ops).tick := by
  unfold runOps; rw [List.foldl_append]; rfl

theorem intervalTotals_snoc (ops : List (EwmaOp K)) (o : EwmaOp K) :
    intervalTotals (ops ++ [o]) = match o with
      | .update n => ((intervalTotals ops).1 + n, (intervalTotals ops).2)
      | .tick => (0, (intervalTotals ops).2 ++ [(intervalTotals ops).1]) := by
  unfold intervalTotals; rw [List.foldl_append]; rfl

/-- The weighted mean of the rates. -/
def average (alpha : K) : List K → K
  | [] => 0
  | r :: rs => rs.foldl (fun m x => m + alpha * (x - m)) r

theorem average_snoc (alpha : K) (rs : List K) (x : K) (h : rs ≠ []) :
    average alpha (rs ++ [x]) = average alpha rs + alpha * (x - average alpha rs) := by
  cases rs with
  | nil => exact absurd rfl h
  | cons r rs => simp [average, List.foldl_append]

theorem run_spec (alpha interval : K) (ops : List (EwmaOp K)) :
    (init alpha interval).runOps ops =
      { interval := interval, alpha := alpha, initialized := !(instantRates interval ops).isEmpty,
        rate := average alpha (instantRates interval ops), uncounted := (intervalTotals ops).1 } := by
  induction ops using List.reverseRecOn with
  | nil => rfl
  | append_singleton os o ih =>
    rw [runOps_snoc, ih]
    cases o with
    | update n => simp [Ewma.update, instantRates, intervalTotals_snoc]
    | tick =>
      have e : instantRates interval (os ++ [.tick]) = instantRates interval os ++ [(intervalTotals os).1 / interval] := by
        simp [instantRates, intervalTotals_snoc]
      rw [e]
      simp only [Ewma.tick, intervalTotals_snoc]
      by_cases h : instantRates interval os = []
      · rw [h]; simp [average]
      · rw [average_snoc _ _ _ h]
        have : (instantRates interval os).isEmpty = false := by simpa using h
        simp [this]

theorem average_sum (alpha : K) (r : K) (rs : List K) :
    average alpha (r :: rs) = (1 - alpha) ^ rs.length * r +
      ∑ j ∈ Finset.range rs.length, alpha * (1 - alpha) ^ (rs.length - 1 - j) * rs.getD j 0 := by
  induction rs using List.reverseRecOn with
  | nil => simp [average]
  | append_singleton rs x ih =>
    rw [← List.cons_append, average_snoc _ _ _ (by simp), ih]
    simp only [List.length_append, List.length_singleton, Finset.sum_range_succ]
    have e : ∑ j ∈ Finset.range rs.length, alpha * (1 - alpha) ^ (rs.length + 1 - 1 - j) * (rs ++ [x]).getD j 0 =
        (1 - alpha) * ∑ j ∈ Finset.range rs.length, alpha * (1 - alpha) ^ (rs.length - 1 - j) * rs.getD j 0 := by
      rw [Finset.mul_sum]
      apply Finset.sum_congr rfl
      intro j hj
      rw [Finset.mem_range] at hj
      have h1 : rs.length + 1 - 1 - j = (rs.length - 1 - j) + 1 := by omega
      rw [h1, pow_succ, List.getD_eq_getElem?_getD, List.getD_eq_getElem?_getD, List.getElem?_append_left hj]
      ring
    rw [e]
    have h2 : (rs ++ [x]).getD rs.length 0 = x := by simp [List.getD]
    rw [h2]
    have h3 : rs.length + 1 - 1 - rs.length = 0 := by omega
    rw [h3, pow_succ]
    ring

theorem average_hull {K : Type} [Field K] [LinearOrder K] [IsStrictOrderedRing K] (alpha lo hi : K) (h0 : 0 ≤ alpha) (h1 : alpha ≤ 1) (rs : List K) (hne : rs ≠ [])
    (h : ∀ x ∈ rs, lo ≤ x ∧ x ≤ hi) : lo ≤ average alpha rs ∧ average alpha rs ≤ hi := by
  induction rs using List.reverseRecOn with
  | nil => exact absurd rfl hne
  | append_singleton rs x ih =>
    by_cases hr : rs = []
    · subst hr; simpa [average] using h x (by simp)
    · rw [average_snoc _ _ _ hr]
      obtain ⟨a, b⟩ := ih hr (fun y hy => h y (by simp [hy]))
      obtain ⟨c, d⟩ := h x (by simp)
      constructor <;> nlinarith

theorem average_idle (alpha : K) (rs : List K) (h : rs ≠ []) (k : Nat) :
    average alpha (rs ++ List.replicate k 0) = (1 - alpha) ^ k * average alpha rs := by
  induction k with
  | zero => simp
  | succ k ih =>
    rw [List.replicate_succ', ← List.append_assoc, average_snoc _ _ _ (by simp [h]), ih, pow_succ]
    ring

theorem totals_idle (ops : List (EwmaOp K)) (k : Nat) :
    intervalTotals (ops ++ .tick :: List.replicate k .tick) =
      (0, (intervalTotals ops).2 ++ (intervalTotals ops).1 :: List.replicate k 0) := by
  induction k with
  | zero => simpa using intervalTotals_snoc ops .tick
  | succ k ih =>
    rw [List.replicate_succ', ← List.cons_append, ← List.append_assoc, intervalTotals_snoc, ih]
    simp [List.replicate_succ']

end Ewma
end Txstatsd
