import Verif.Lemmas.Float
import Verif.Spec.EwmaFloat
import Mathlib.Data.List.Induction

set_option linter.unusedSectionVars false
set_option linter.unusedSimpArgs false
set_option linter.unusedVariables false

namespace Txstatsd
open Spec
namespace FloatEwma

section
variable [Rounding]

theorem run_snoc (e : FloatEwma) (ops : List (EwmaOp ℤ)) (o : EwmaOp ℤ) :
    e.runOps (ops ++ [o]) = match o with
      | .update n => ((e.runOps ops).1.update (.int n), (e.runOps ops).2)
      | .tick => ((e.runOps ops).1.tick.1, (e.runOps ops).2 ++ (e.runOps ops).1.tick.2.toList) := by
  unfold runOps; rw [List.foldl_append]; rfl

theorem eventTotals_snoc (ops : List (EwmaOp ℤ)) (o : EwmaOp ℤ) :
    eventTotals (ops ++ [o]) = match o with
      | .update n => ((eventTotals ops).1 + n, (eventTotals ops).2)
      | .tick => (0, (eventTotals ops).2 ++ [(eventTotals ops).1]) := by
  unfold eventTotals; rw [List.foldl_append]; rfl

end

variable [Rounding] [Ieee]

theorem rep_two_pow {k : ℤ} (h1 : -1074 ≤ k) (h2 : k < 1024) : rnd ((2 : ℚ) ^ k) = .fin (2 ^ k) := by
  refine Ieee.rep.2 ⟨⟨1, k, by norm_num, h1, by simp⟩, ?_⟩
  rw [abs_of_pos (two_zpow_pos _)]
  exact zpow_lt_zpow_right₀ (by norm_num) h2

/-- A double of moderate size. -/
def Mid (q : ℚ) : Prop := rnd q = .fin q ∧ |q| ≤ 2 ^ 53

theorem mid_diff {m x : ℚ} (hm : Mid m) (hx : Mid x) : ∃ d, rnd (x - m) = .fin d := by
  have h54 : rnd ((2 : ℚ) ^ (54 : ℤ)) = .fin (2 ^ (54 : ℤ)) := rep_two_pow (by norm_num) (by norm_num)
  have e : (2 : ℚ) ^ (54 : ℤ) = 2 ^ 53 + 2 ^ 53 := by norm_num
  have := abs_le.1 hm.2
  have := abs_le.1 hx.2
  obtain ⟨r, hr, _⟩ := rnd_between (q := x - m) (rep_neg h54) h54 (by rw [e]; linarith) (by rw [e]; linarith)
  exact ⟨r, hr⟩

/-- One step stays between the average and the new rate. -/
theorem step_between {m x alpha : ℚ} (hm : Mid m) (hx : Mid x) (h0 : 0 ≤ alpha) (h1 : alpha ≤ 1 - 2 / 2 ^ 53) :
    ∃ r, (PyFloat.fin m).add ((PyFloat.fin alpha).mul ((PyFloat.fin x).sub (.fin m))) = .fin r ∧ min m x ≤ r ∧ r ≤ max m x := by
  rcases le_total m x with h | h
  · obtain ⟨d, hd⟩ := mid_diff hm hx
    obtain ⟨r, hr, r0, rle⟩ := part_le hx.1 hm.1 h hd h0 h1
    obtain ⟨s, hs, s0, s1⟩ := rnd_between (q := m + r) hm.1 hx.1 (by linarith) (by linarith)
    refine ⟨s, ?_, by rw [min_eq_left h]; exact s0, by rw [max_eq_right h]; exact s1⟩
    simp only [PyFloat.sub, hd, PyFloat.mul, hr, PyFloat.add, hs]
  · obtain ⟨d, hd⟩ := mid_diff hx hm
    obtain ⟨r, hr, r0, rle⟩ := part_le hm.1 hx.1 h hd h0 h1
    obtain ⟨s, hs, s0, s1⟩ := rnd_between (q := m - r) hx.1 hm.1 (by linarith) (by linarith)
    refine ⟨s, ?_, by rw [min_eq_right h]; exact s0, by rw [max_eq_left h]; exact s1⟩
    have e1 : rnd (x - m) = .fin (-d) := by
      rw [show x - m = -(m - x) by ring, Ieee.neg, hd]; rfl
    have e2 : rnd (alpha * -d) = .fin (-r) := by
      rw [show alpha * -d = -(alpha * d) by ring, Ieee.neg, hr]; rfl
    simp only [PyFloat.sub, e1, PyFloat.mul, e2, PyFloat.add]
    rw [← sub_eq_add_neg]; exact hs

/-- The instantaneous rate. -/
theorem instant {t i : ℤ} (ht : |t| ≤ 2 ^ 53) (hi : 0 < i) (hi2 : i ≤ 2 ^ 53) :
    ∃ x, rnd ((t : ℚ) / i) = .fin x ∧ Mid x ∧ (Num.int t).toFloat.div (Num.int i).toFloat = .ok (.fin x) := by
  have hiq : (1 : ℚ) ≤ i := by exact_mod_cast hi
  have htq : |(t : ℚ)| ≤ 2 ^ 53 := by exact_mod_cast ht
  have h53 : rnd ((2 : ℚ) ^ 53) = .fin (2 ^ 53) := by
    have := rnd_int (z := 2 ^ 53) (by norm_num)
    push_cast at this; exact this
  have hb : |(t : ℚ) / i| ≤ 2 ^ 53 := by
    rw [abs_div, abs_of_pos (by linarith : (0 : ℚ) < i), div_le_iff₀ (by linarith)]
    nlinarith
  obtain ⟨x, hx, x0, x1⟩ := rnd_between (rep_neg h53) h53 (abs_le.1 hb).1 (abs_le.1 hb).2
  refine ⟨x, hx, ⟨Ieee.idem hx, abs_le.2 ⟨x0, x1⟩⟩, ?_⟩
  have hi0 : (i : ℚ) ≠ 0 := by linarith
  simp only [Num.toFloat, rnd_int ht, rnd_int (show |i| ≤ 2 ^ 53 by rw [abs_of_pos hi]; exact hi2), PyFloat.div, if_neg hi0, hx]

/-- The state after a history. -/
theorem run_state {alpha : ℚ} (ha : rnd alpha = .fin alpha) (h0 : 0 ≤ alpha) (h1 : alpha ≤ 1 - 2 / 2 ^ 53) {i : ℤ} (hi : 0 < i) (hi2 : i ≤ 2 ^ 53)
    {lo hi' : ℚ} (hlo : rnd lo = .fin lo) (hhi : rnd hi' = .fin hi') (ops : List (EwmaOp ℤ))
    (ht : ∀ t ∈ (eventTotals ops).2, |t| ≤ 2 ^ 53 ∧ lo ≤ (t : ℚ) / i ∧ (t : ℚ) / i ≤ hi') :
    ∃ q, (init (.flt (.fin alpha)) (.int i)).runOps ops =
      ({ interval := .int i, alpha := .fin alpha, initialized := !(eventTotals ops).2.isEmpty, rate := .fin q,
         uncounted := .int (eventTotals ops).1 }, []) ∧ ((eventTotals ops).2 ≠ [] → Mid q ∧ lo ≤ q ∧ q ≤ hi') := by
  induction ops using List.reverseRecOn with
  | nil => exact ⟨0, rfl, fun h => absurd rfl h⟩
  | append_singleton os o ih =>
    rw [run_snoc]
    cases o with
    | update n =>
      rw [eventTotals_snoc] at ht
      obtain ⟨q, e, hq⟩ := ih ht
      refine ⟨q, ?_, by rw [eventTotals_snoc]; exact hq⟩
      simp only [e, eventTotals_snoc]
      rfl
    | tick =>
      rw [eventTotals_snoc] at ht
      simp only at ht
      obtain ⟨q, e, hq⟩ := ih (fun t h => ht t (by simp [h]))
      obtain ⟨t1, t2, t3⟩ := ht (eventTotals os).1 (by simp)
      obtain ⟨x, hx, xm, hdiv⟩ := instant t1 hi hi2
      obtain ⟨x', hx', xl, xh⟩ := rnd_between hlo hhi t2 t3
      rw [hx] at hx'
      simp only [PyFloat.fin.injEq] at hx'
      subst hx'
      simp only [e, eventTotals_snoc, tick, hdiv]
      by_cases hemp : (eventTotals os).2 = []
      · exact ⟨x, by simp [hemp], fun _ => ⟨xm, xl, xh⟩⟩
      · obtain ⟨qm, ql, qh⟩ := hq hemp
        obtain ⟨r, hr, r0, r1⟩ := step_between qm xm h0 h1
        have hb : (eventTotals os).2.isEmpty = false := by simpa using hemp
        refine ⟨r, by simp [hb, hr], fun _ => ⟨⟨?_, ?_⟩, ?_, ?_⟩⟩
        · simp only [PyFloat.add, PyFloat.mul, PyFloat.sub] at hr
          obtain ⟨d, hd⟩ := mid_diff qm xm
          rw [hd] at hr
          simp only at hr
          cases hp : rnd (alpha * d) with
          | nan => rw [hp] at hr; cases hr
          | inf s => rw [hp] at hr; cases hr
          | fin p => rw [hp] at hr; exact Ieee.idem hr
        · have := abs_le.1 qm.2
          have := abs_le.1 xm.2
          refine abs_le.2 ⟨le_trans (le_min (by linarith) (by linarith)) r0, le_trans r1 (max_le (by linarith) (by linarith))⟩
        · exact le_trans (le_min ql xl) r0
        · exact le_trans r1 (max_le qh xh)

/-! ## Intervals without events -/

/-- One interval without events. -/
theorem idle_step {q alpha : ℚ} (hq : rnd q = .fin q) (q0 : 0 ≤ q) (h0 : 0 ≤ alpha) (h1 : alpha ≤ 1 / 4) :
    ∃ r, (PyFloat.fin q).add ((PyFloat.fin alpha).mul ((PyFloat.fin 0).sub (.fin q))) = .fin r ∧ rnd r = .fin r ∧ 0 ≤ r ∧ r ≤ q ∧
      (0 < q → 0 < r) ∧ (1 / 256 ≤ alpha → 2 ^ (-900 : ℤ) ≤ q → r ≤ (1 - alpha / 2) * q) := by
  have e1 : rnd (0 - q) = .fin (-q) := by rw [zero_sub]; exact rep_neg hq
  obtain ⟨p, hp, p0, pq⟩ := rnd_between (q := alpha * q) rnd_zero hq (mul_nonneg h0 q0) (by nlinarith)
  have e2 : rnd (alpha * -q) = .fin (-p) := by
    rw [show alpha * -q = -(alpha * q) by ring, Ieee.neg, hp]; rfl
  obtain ⟨r, hr, r0, rq⟩ := rnd_between (q := q + -p) rnd_zero hq (by linarith) (by linarith)
  refine ⟨r, by simp only [PyFloat.sub, e1, PyFloat.mul, e2, PyFloat.add, hr], Ieee.idem hr, r0, rq, ?_, ?_⟩
  · intro hpos
    obtain ⟨z, hz⟩ := rep_grid hq
    have hu := two_zpow_pos (-1074)
    have hz1 : 1 ≤ z := by
      by_contra hc
      have : (z : ℚ) ≤ 0 := by exact_mod_cast (by omega : z ≤ 0)
      have : q ≤ 0 := by rw [hz]; exact mul_nonpos_of_nonpos_of_nonneg this hu.le
      linarith
    have hge : (2 : ℚ) ^ (-1074 : ℤ) ≤ q := by
      rw [hz]
      have : (1 : ℚ) ≤ z := by exact_mod_cast hz1
      nlinarith
    have he := abs_le.1 (Ieee.err hp)
    have hhalf : (2 : ℚ) ^ (-1075 : ℤ) = 2 ^ (-1074 : ℤ) / 2 := by
      rw [show (-1075 : ℤ) = -1074 + -1 by norm_num, zpow_add₀ (by norm_num)]; norm_num; ring
    rw [hhalf, abs_of_nonneg (mul_nonneg h0 q0)] at he
    have haq : alpha * q ≤ q / 4 := by nlinarith
    have hlt : p < q := by
      generalize (2 : ℚ) ^ (-1074 : ℤ) = u at *
      have h3 := he.2
      have : alpha * q / 2 ^ 53 ≤ q / 4 / 2 ^ 53 := by
        apply div_le_div_of_nonneg_right haq; norm_num
      have : q / 4 / 2 ^ 53 ≤ q / 8 := by
        rw [div_div, div_le_div_iff₀ (by norm_num) (by norm_num)]
        have : (8 : ℚ) ≤ 4 * 2 ^ 53 := by norm_num
        nlinarith
      linarith
    obtain ⟨w, hw⟩ := grid_sub hq (Ieee.idem hp)
    have hw1 : 1 ≤ w := by
      by_contra hc
      have : (w : ℚ) ≤ 0 := by exact_mod_cast (by omega : w ≤ 0)
      have : q - p ≤ 0 := by rw [hw]; exact mul_nonpos_of_nonpos_of_nonneg this hu.le
      linarith
    have hge2 : (2 : ℚ) ^ (-1074 : ℤ) ≤ q + -p := by
      rw [← sub_eq_add_neg, hw]
      have : (1 : ℚ) ≤ w := by exact_mod_cast hw1
      nlinarith
    obtain ⟨s, hs, s0, _⟩ := rnd_between (rep_two_pow (k := -1074) (by norm_num) (by norm_num)) hq hge2 (by linarith)
    rw [hr] at hs
    simp only [PyFloat.fin.injEq] at hs
    rw [hs]; linarith
  · intro ha hbig
    have hb2 : (2 : ℚ) ^ (-1022 : ℤ) ≤ alpha * q := by
      have h8 : (2 : ℚ) ^ (-908 : ℤ) ≤ alpha * q := by
        have e : (2 : ℚ) ^ (-908 : ℤ) = 1 / 256 * 2 ^ (-900 : ℤ) := by
          rw [show (-908 : ℤ) = -8 + -900 by norm_num, zpow_add₀ (by norm_num)]; norm_num
        rw [e]
        exact mul_le_mul ha hbig (two_zpow_pos _).le h0
      exact (zpow_mono (by norm_num)).trans h8
    have haq : 0 ≤ alpha * q := mul_nonneg h0 q0
    have he := abs_le.1 (Ieee.norm (by rwa [abs_of_nonneg haq]) hp)
    rw [abs_of_nonneg haq] at he
    have hr' := abs_le.1 (add_err hq (rep_neg (Ieee.idem hp)) hr)
    rw [abs_of_nonneg (by linarith : 0 ≤ q + -p)] at hr'
    have h3 := he.1
    have h4 := hr'.2
    have h5 : q + -p ≤ q - alpha * q + alpha * q / 2 ^ 53 := by linarith
    have h6 : (q + -p) / 2 ^ 53 ≤ q / 2 ^ 53 := by
      apply div_le_div_of_nonneg_right _ (by norm_num); linarith
    have h7 : alpha * q / 2 ^ 53 ≤ q / 2 ^ 53 := by
      apply div_le_div_of_nonneg_right _ (by norm_num); nlinarith
    have h8 : q / 256 ≤ alpha * q := by nlinarith
    have h9 : q / 2 ^ 53 ≤ q / 1024 := by
      rw [div_le_div_iff₀ (by norm_num) (by norm_num)]
      have : (1024 : ℚ) ≤ 2 ^ 53 := by norm_num
      nlinarith
    nlinarith

/-- Any number of them. -/
theorem idle_run {alpha : ℚ} (h0 : 0 ≤ alpha) (h1 : alpha ≤ 1 / 4) {i : ℤ} (hi : 0 < i) (hi2 : i ≤ 2 ^ 53) (e : FloatEwma)
    (ops : List (EwmaOp ℤ)) {q : ℚ} (hq : rnd q = .fin q) (q0 : 0 ≤ q)
    (he : (e.runOps ops) = ({ interval := .int i, alpha := .fin alpha, initialized := true, rate := .fin q, uncounted := .int 0 }, []))
    (k : ℕ) : ∃ r, e.runOps (ops ++ List.replicate k .tick) =
      ({ interval := .int i, alpha := .fin alpha, initialized := true, rate := .fin r, uncounted := .int 0 }, []) ∧
      rnd r = .fin r ∧ 0 ≤ r ∧ r ≤ q ∧ (0 < q → 0 < r) ∧ (1 / 256 ≤ alpha → r ≤ 2 ^ (-900 : ℤ) ∨ r ≤ (1 - alpha / 2) ^ k * q) := by
  induction k with
  | zero => exact ⟨q, by simpa using he, hq, q0, le_refl _, id, fun _ => Or.inr (by simp)⟩
  | succ k ih =>
    obtain ⟨r, hr, rr, r0, rq, rpos, rdec⟩ := ih
    obtain ⟨s, hs, ss, s0, sr, spos, sdec⟩ := idle_step rr r0 h0 h1
    have hi0 : (i : ℚ) ≠ 0 := by exact_mod_cast hi.ne'
    have hdiv : (Num.int 0).toFloat.div (Num.int i).toFloat = .ok (.fin 0) := by
      simp only [Num.toFloat, rnd_int (show |i| ≤ 2 ^ 53 by rw [abs_of_pos hi]; exact hi2), Int.cast_zero, rnd_zero, PyFloat.div, if_neg hi0,
        zero_div]
    refine ⟨s, ?_, ss, s0, sr.trans rq, fun h => spos (rpos h), fun ha => ?_⟩
    · rw [List.replicate_succ', ← List.append_assoc, run_snoc, hr]
      simp only [tick, hdiv, hs, if_true]
      rfl
    · rcases rdec ha with h | h
      · exact Or.inl (sr.trans h)
      · by_cases hb : 2 ^ (-900 : ℤ) ≤ r
        · right
          refine (sdec ha hb).trans ?_
          rw [pow_succ', mul_assoc]
          exact mul_le_mul_of_nonneg_left h (by linarith)
        · left
          exact sr.trans (not_le.1 hb).le

end FloatEwma
end Txstatsd
