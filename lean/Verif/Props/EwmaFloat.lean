import Verif.Lemmas.EwmaFloat
import Verif.Model.Ewma

/-!
# Moving averages in doubles: C138
-/

namespace Txstatsd
open Spec

section
variable [Rounding] [Ieee]

/-- C138: in doubles too the moving average lies between the smallest and the greatest rate of the completed intervals, and no tick
raises. -/
theorem C138_hull (alpha : ℚ) (ha : rnd alpha = .fin alpha) (h0 : 0 ≤ alpha) (h1 : alpha ≤ 1 - 2 / 2 ^ 53) (i : ℤ) (hi : 0 < i)
    (hi2 : i ≤ 2 ^ 53) (lo hi' : ℚ) (hlo : rnd lo = .fin lo) (hhi : rnd hi' = .fin hi') (ops : List (EwmaOp ℤ))
    (ht : ∀ t ∈ (eventTotals ops).2, |t| ≤ 2 ^ 53 ∧ lo ≤ (t : ℚ) / i ∧ (t : ℚ) / i ≤ hi') (hne : (eventTotals ops).2 ≠ []) :
    ∃ q, ((FloatEwma.init (.flt (.fin alpha)) (.int i)).runOps ops).1.rate = .fin q ∧ lo ≤ q ∧ q ≤ hi' ∧
      ((FloatEwma.init (.flt (.fin alpha)) (.int i)).runOps ops).2 = [] := by
  obtain ⟨q, e, h⟩ := FloatEwma.run_state ha h0 h1 hi hi2 hlo hhi ops ht
  obtain ⟨_, a, b⟩ := h hne
  exact ⟨q, by rw [e], a, b, by rw [e]⟩

/-- C138: with the same number of events in every interval the average is the rate, rounded once. -/
theorem C138_constant (alpha : ℚ) (ha : rnd alpha = .fin alpha) (h0 : 0 ≤ alpha) (h1 : alpha ≤ 1 - 2 / 2 ^ 53) (i : ℤ) (hi : 0 < i)
    (hi2 : i ≤ 2 ^ 53) (n : ℤ) (hn : |n| ≤ 2 ^ 53) (ops : List (EwmaOp ℤ)) (ht : ∀ t ∈ (eventTotals ops).2, t = n)
    (hne : (eventTotals ops).2 ≠ []) :
    ((FloatEwma.init (.flt (.fin alpha)) (.int i)).runOps ops).1.rate = rnd ((n : ℚ) / i) := by
  obtain ⟨x, hx, xm, _⟩ := FloatEwma.instant hn hi hi2
  have key : ∀ ops : List (EwmaOp ℤ), (∀ t ∈ (eventTotals ops).2, t = n) →
      ∃ q, (FloatEwma.init (.flt (.fin alpha)) (.int i)).runOps ops =
        ({ interval := .int i, alpha := .fin alpha, initialized := !(eventTotals ops).2.isEmpty, rate := .fin q,
           uncounted := .int (eventTotals ops).1 }, []) ∧ ((eventTotals ops).2 ≠ [] → q = x) := by
    intro ops
    induction ops using List.reverseRecOn with
    | nil => intro _; exact ⟨0, rfl, fun h => absurd rfl h⟩
    | append_singleton os o ih =>
      intro ht
      rw [FloatEwma.run_snoc]
      cases o with
      | update m =>
        rw [FloatEwma.eventTotals_snoc] at ht
        obtain ⟨q, e, hq⟩ := ih ht
        refine ⟨q, ?_, by rw [FloatEwma.eventTotals_snoc]; exact hq⟩
        simp only [e, FloatEwma.eventTotals_snoc]
        rfl
      | tick =>
        rw [FloatEwma.eventTotals_snoc] at ht
        simp only at ht
        obtain ⟨q, e, hq⟩ := ih (fun t h => ht t (by simp [h]))
        have hcur := ht (eventTotals os).1 (by simp)
        obtain ⟨x', hx', _, hdiv⟩ := FloatEwma.instant hn hi hi2
        rw [hx] at hx'
        simp only [PyFloat.fin.injEq] at hx'
        subst hx'
        simp only [e, FloatEwma.eventTotals_snoc, FloatEwma.tick, hcur, hdiv]
        by_cases hemp : (eventTotals os).2 = []
        · exact ⟨x, by simp [hemp], fun _ => rfl⟩
        · have hqx := hq hemp
          subst hqx
          obtain ⟨r, hr, r0, r1⟩ := FloatEwma.step_between xm xm h0 h1
          rw [min_self] at r0
          rw [max_self] at r1
          have : r = q := le_antisymm r1 r0
          subst this
          have hb : (eventTotals os).2.isEmpty = false := by simpa using hemp
          exact ⟨r, by simp [hb, hr], fun _ => rfl⟩
  obtain ⟨q, e, h⟩ := key ops ht
  rw [e, hx, h hne]

/-- C138: intervals without events after a tick: the average only falls, never reaches zero if it was positive, and loses at least
`alpha / 2` of itself each time until it is below `2^-900`. -/
theorem C138_idle (alpha : ℚ) (ha : rnd alpha = .fin alpha) (h0 : 1 / 256 ≤ alpha) (h1 : alpha ≤ 1 / 4) (i : ℤ) (hi : 0 < i)
    (hi2 : i ≤ 2 ^ 53) (ops : List (EwmaOp ℤ)) (ht : ∀ t ∈ (eventTotals (ops ++ [.tick])).2, 0 ≤ t ∧ t ≤ 2 ^ 53) (k : ℕ) :
    ∃ q r, ((FloatEwma.init (.flt (.fin alpha)) (.int i)).runOps (ops ++ [.tick])).1.rate = .fin q ∧
      ((FloatEwma.init (.flt (.fin alpha)) (.int i)).runOps (ops ++ [.tick] ++ List.replicate k .tick)).1.rate = .fin r ∧
      0 ≤ r ∧ r ≤ q ∧ (0 < q → 0 < r) ∧ (r ≤ 2 ^ (-900 : ℤ) ∨ r ≤ (1 - alpha / 2) ^ k * q) := by
  have h53 : rnd ((2 : ℚ) ^ 53) = .fin (2 ^ 53) := by
    have := rnd_int (z := 2 ^ 53) (by norm_num)
    push_cast at this; exact this
  have hiq : (1 : ℚ) ≤ i := by exact_mod_cast hi
  have a0 : 0 ≤ alpha := le_trans (by norm_num) h0
  obtain ⟨q, e, h⟩ := FloatEwma.run_state ha a0 (le_trans h1 (by norm_num)) hi hi2 rnd_zero h53 (ops ++ [.tick]) (fun t h => by
    obtain ⟨t0, t1⟩ := ht t h
    have t0q : (0 : ℚ) ≤ t := by exact_mod_cast t0
    have t1q : (t : ℚ) ≤ 2 ^ 53 := by exact_mod_cast t1
    refine ⟨by rw [abs_of_nonneg t0]; exact t1, div_nonneg t0q (by linarith), ?_⟩
    rw [div_le_iff₀ (by linarith)]
    nlinarith)
  have hne : (eventTotals (ops ++ [.tick])).2 ≠ [] := by rw [FloatEwma.eventTotals_snoc]; simp
  obtain ⟨⟨qr, _⟩, q0, _⟩ := h hne
  have e1 : (eventTotals (ops ++ [.tick])).2.isEmpty = false := by simpa using hne
  have e2 : (eventTotals (ops ++ [.tick])).1 = 0 := by rw [FloatEwma.eventTotals_snoc]
  rw [e1, e2] at e
  obtain ⟨r, hr, _, r0, rq, rpos, rdec⟩ := FloatEwma.idle_run a0 h1 hi hi2 _ _ qr q0 e k
  exact ⟨q, r, by rw [e], by rw [hr], r0, rq, rpos, rdec h0⟩

end

section
variable [Rounding]

/-- C138: with an interval of zero every tick raises and forgets the events; the rate stays zero. -/
theorem C138_zero_interval [Ieee] (alpha : Num) (ops : List (EwmaOp ℤ)) (ht : ∀ t ∈ (eventTotals ops).2, |t| ≤ 2 ^ 53) :
    ((FloatEwma.init alpha (.int 0)).runOps ops).1.rate = .fin 0 ∧
    ((FloatEwma.init alpha (.int 0)).runOps ops).2 = (eventTotals ops).2.map fun _ => .zeroDivisionError := by
  have key : ∀ ops : List (EwmaOp ℤ), (∀ t ∈ (eventTotals ops).2, |t| ≤ 2 ^ 53) →
      (FloatEwma.init alpha (.int 0)).runOps ops =
        ({ interval := .int 0, alpha := alpha.toFloat, initialized := false, rate := .fin 0, uncounted := .int (eventTotals ops).1 },
         (eventTotals ops).2.map fun _ => .zeroDivisionError) := by
    intro ops
    induction ops using List.reverseRecOn with
    | nil => intro _; rfl
    | append_singleton os o ih =>
      intro ht
      rw [FloatEwma.run_snoc]
      cases o with
      | update m =>
        rw [FloatEwma.eventTotals_snoc] at ht
        simp only [ih ht, FloatEwma.eventTotals_snoc]
        rfl
      | tick =>
        rw [FloatEwma.eventTotals_snoc] at ht
        simp only at ht
        have h1 := ht (eventTotals os).1 (by simp)
        rw [ih (fun t h => ht t (by simp [h]))]
        have : (Num.int (eventTotals os).1).toFloat.div (Num.int 0).toFloat = .error .zeroDivisionError := by
          simp [Num.toFloat, rnd_int h1, rnd_zero, PyFloat.div]
        simp only [FloatEwma.tick, this, FloatEwma.eventTotals_snoc]
        simp
  rw [key ops ht]
  exact ⟨rfl, rfl⟩

end

/-- C138: the constants of the class (before rounding) are in the range of the theorems. -/
theorem C138_alphas : 1 / 256 < Ewma.m15Alpha ∧ Ewma.m1Alpha < 1 / 4 := by
  constructor
  · unfold Ewma.m15Alpha
    have h := Real.add_one_le_exp (5 / 60 / 15 : ℝ)
    have e : Real.exp (-5 / 60 / 15 : ℝ) = (Real.exp (5 / 60 / 15))⁻¹ := by
      rw [← Real.exp_neg]; congr 1; norm_num
    rw [e]
    have : (Real.exp (5 / 60 / 15 : ℝ))⁻¹ ≤ (5 / 60 / 15 + 1 : ℝ)⁻¹ := inv_anti₀ (by norm_num) h
    have h2 : (5 / 60 / 15 + 1 : ℝ)⁻¹ < 1 - 1 / 256 := by norm_num
    linarith
  · unfold Ewma.m1Alpha
    have h := Real.add_one_le_exp (-5 / 60 : ℝ)
    have : (-5 / 60 + 1 : ℝ) > 3 / 4 := by norm_num
    linarith

section
attribute [local instance] binary64

/-- Three events in one interval, then three intervals without: as in test_ewma.py. -/
example : eventTotals [.update 1, .update 2, .tick, .tick, .update 7] = (7, [3, 0]) := by decide
example : rnd (1 / 8) = .fin (1 / 8) ∧ (1 / 256 : ℚ) ≤ 1 / 8 ∧ (1 / 8 : ℚ) ≤ 1 / 4 := by
  refine ⟨by decide +kernel, by norm_num, by norm_num⟩
example : ((FloatEwma.init (.flt (.fin (1 / 8))) (.int 5)).runOps [.update 3, .tick, .update 3, .tick]).1.rate = rnd (3 / 5) := by
  decide +kernel
/-- The last positive double is not left: an eighth of it rounds to zero. -/
example : (PyFloat.fin (2 ^ (-1074 : ℤ))).add ((PyFloat.fin (1 / 8)).mul ((PyFloat.fin 0).sub (.fin (2 ^ (-1074 : ℤ))))) =
    .fin (2 ^ (-1074 : ℤ)) := by decide +kernel
end

end Txstatsd
