import Verif.Lemmas.FloatHist
import Verif.Lemmas.Counter
import Mathlib.Algebra.Order.Ring.Pow

set_option linter.unusedSectionVars false
set_option linter.unusedSimpArgs false
set_option linter.unusedVariables false

/-!
# The error of a sum of doubles
-/

namespace Txstatsd
open Spec
variable [Rounding] [Ieee]

/-- The sum Python computes: from the int 0, one value after the other. -/
def sumFloats (qs : List ℚ) : Num := qs.foldl (fun a q => a.add (.flt (.fin q))) (.int 0)

theorem sumFloats_snoc (qs : List ℚ) (q : ℚ) : sumFloats (qs ++ [q]) = (sumFloats qs).add (.flt (.fin q)) := by
  simp [sumFloats, List.foldl_append]

theorem sumFloats_map (qs : List ℚ) :
    (qs.map PyFloat.fin).foldl (fun a x => Num.add a (.flt x)) (.int 0) = sumFloats qs := by
  unfold sumFloats; rw [List.foldl_map]

theorem unit_pow (n : ℕ) (hn : n ≤ 2 ^ 52) : (1 + 1 / 2 ^ 53 : ℚ) ^ n ≤ 1 + n / 2 ^ 52 := by
  have h1 : (1 : ℚ) - n / 2 ^ 53 ≤ (1 - 1 / 2 ^ 53) ^ n := by
    have := one_add_mul_le_pow (a := (-1 / 2 ^ 53 : ℚ)) (by norm_num) n
    calc (1 : ℚ) - n / 2 ^ 53 = 1 + n * (-1 / 2 ^ 53) := by ring
      _ ≤ _ := this
      _ = _ := by congr 1; norm_num
  have h2 : (1 + 1 / 2 ^ 53 : ℚ) ^ n * (1 - 1 / 2 ^ 53) ^ n ≤ 1 := by
    rw [← mul_pow]; exact pow_le_one₀ (by norm_num) (by norm_num)
  have hn' : (n : ℚ) ≤ 2 ^ 52 := by exact_mod_cast hn
  have hx0 : (0 : ℚ) ≤ n / 2 ^ 53 := by positivity
  have hx : (n : ℚ) / 2 ^ 53 ≤ 1 / 2 := by
    rw [div_le_iff₀ (by norm_num)]; linarith [show (1 / 2 : ℚ) * 2 ^ 53 = 2 ^ 52 by norm_num]
  have hp : (0 : ℚ) < (1 + 1 / 2 ^ 53) ^ n := by positivity
  have e : (n : ℚ) / 2 ^ 52 = 2 * (n / 2 ^ 53) := by ring
  rw [e]
  generalize (n : ℚ) / 2 ^ 53 = x at *
  generalize (1 + 1 / 2 ^ 53 : ℚ) ^ n = p at *
  have h3 : p * (1 - x) ≤ 1 := le_trans (mul_le_mul_of_nonneg_left h1 hp.le) h2
  by_contra hc
  push Not at hc
  have : (1 + 2 * x) * (1 - x) < p * (1 - x) := mul_lt_mul_of_pos_right hc (by linarith)
  nlinarith

theorem sum_le_abs (qs : List ℚ) : |qs.sum| ≤ (qs.map abs).sum := by
  induction qs with
  | nil => simp
  | cons q qs ih =>
    simp only [List.sum_cons, List.map_cons]
    exact le_trans (abs_add_le _ _) (by linarith)

theorem abs_sum_nonneg (qs : List ℚ) : 0 ≤ (qs.map abs).sum := le_trans (abs_nonneg _) (sum_le_abs qs)

theorem rep_two : rnd (4 * (2 : ℚ) ^ (1000 : ℤ)) = .fin (4 * 2 ^ (1000 : ℤ)) := by
  refine Ieee.rep.2 ⟨⟨4, 1000, by norm_num, by norm_num, rfl⟩, ?_⟩
  rw [abs_of_pos (mul_pos (by norm_num) (two_zpow_pos _)), show (4 : ℚ) = 2 ^ (2 : ℤ) by norm_num, ← zpow_add₀ (by norm_num)]
  exact zpow_lt_zpow_right₀ (by norm_num) (by norm_num)

theorem sum_near_aux {M : ℚ} (hM : rnd (4 * M) = .fin (4 * M)) (qs : List ℚ) (hne : qs ≠ []) (hr : ∀ q ∈ qs, rnd q = .fin q) (hn : qs.length ≤ 2 ^ 52)
    (hs : (qs.map abs).sum ≤ M) :
    ∃ s, sumFloats qs = .flt (.fin s) ∧ rnd s = .fin s ∧
      |s - qs.sum| ≤ ((1 + 1 / 2 ^ 53) ^ (qs.length - 1) - 1) * (qs.map abs).sum := by
  induction qs using List.reverseRecOn with
  | nil => exact absurd rfl hne
  | append_singleton qs q ih =>
    have hq := hr q (by simp)
    rw [sumFloats_snoc]
    by_cases h0 : qs = []
    · subst h0
      refine ⟨q, ?_, hq, ?_⟩
      · simp only [sumFloats, List.foldl_nil, Num.add, Num.toFloat, Int.cast_zero, rnd_zero, PyFloat.add, zero_add, hq]
      · simp
    · have hpos : 1 ≤ qs.length := List.length_pos_iff.2 h0
      simp only [List.length_append, List.length_singleton] at hn
      simp only [List.map_append, List.map_cons, List.map_nil, List.sum_append, List.sum_cons, List.sum_nil, add_zero] at hs ⊢
      have hA := abs_sum_nonneg qs
      have hqa := abs_nonneg q
      obtain ⟨s, e1, e2, e3⟩ := ih h0 (fun x hx => hr x (by simp [hx])) (by omega) (le_trans (le_add_of_nonneg_right hqa) hs)
      have hlen : (qs ++ [q]).length - 1 = qs.length := by simp
      rw [hlen]
      have hpw : (1 + 1 / 2 ^ 53 : ℚ) ^ qs.length = (1 + 1 / 2 ^ 53) ^ (qs.length - 1) * (1 + 1 / 2 ^ 53) := by
        rw [← pow_succ]; congr 1; omega
      have hp1 : (1 : ℚ) ≤ (1 + 1 / 2 ^ 53) ^ (qs.length - 1) := one_le_pow₀ (by norm_num)
      have hub := unit_pow (qs.length - 1) (by omega)
      have hub2 : (1 + 1 / 2 ^ 53 : ℚ) ^ (qs.length - 1) ≤ 2 := by
        refine le_trans hub ?_
        have : ((qs.length - 1 : ℕ) : ℚ) ≤ 2 ^ 52 := by exact_mod_cast (by omega : qs.length - 1 ≤ 2 ^ 52)
        have : ((qs.length - 1 : ℕ) : ℚ) / 2 ^ 52 ≤ 1 := by rw [div_le_one (by norm_num)]; exact this
        linarith
      rw [hpw]
      have hS := sum_le_abs qs
      generalize (1 + 1 / 2 ^ 53 : ℚ) ^ (qs.length - 1) = p at *
      generalize (qs.map abs).sum = A at *
      generalize qs.sum = S at *
      have hsA : |s| ≤ p * A := by
        have : |s| ≤ |s - S| + |S| := by
          calc |s| = |(s - S) + S| := by ring_nf
            _ ≤ _ := abs_add_le _ _
        nlinarith
      have hsq : |s + q| ≤ p * A + |q| := le_trans (abs_add_le _ _) (by linarith)
      have hsm : |s + q| ≤ 4 * M := by
        have : p * A ≤ 2 * A := mul_le_mul_of_nonneg_right hub2 hA
        linarith
      obtain ⟨a1, a2⟩ := abs_le.1 hsm
      obtain ⟨t, ht, _, _⟩ := rnd_between (rep_neg hM) hM a1 a2
      refine ⟨t, ?_, Ieee.idem ht, ?_⟩
      · rw [e1]; simp only [Num.add, Num.toFloat, PyFloat.add, ht]
      · have he := add_err e2 hq ht
        have : |t - (S + q)| ≤ |t - (s + q)| + |s - S| := by
          calc |t - (S + q)| = |(t - (s + q)) + (s - S)| := by ring_nf
            _ ≤ _ := abs_add_le _ _
        have hdiv : |s + q| / 2 ^ 53 ≤ (p * A + |q|) * (1 / 2 ^ 53) := by
          rw [div_eq_mul_one_div]; exact mul_le_mul_of_nonneg_right hsq (by norm_num)
        have hu : (0 : ℚ) ≤ 1 / 2 ^ 53 := by norm_num
        generalize (1 / 2 ^ 53 : ℚ) = u at *
        have h5 : |t - (S + q)| ≤ (p * A + |q|) * u + (p - 1) * A := by linarith
        refine le_trans h5 ?_
        have h6 : 0 ≤ (p - 1) * (1 + u) * |q| := by
          apply mul_nonneg (mul_nonneg _ _) hqa <;> linarith
        nlinarith

/-- Summation of doubles: the result is finite and near the exact sum. -/
theorem sum_near (qs : List ℚ) (hne : qs ≠ []) (hr : ∀ q ∈ qs, rnd q = .fin q) (hn : qs.length ≤ 2 ^ 52)
    (hs : (qs.map abs).sum ≤ 2 ^ (1000 : ℤ)) :
    ∃ s, sumFloats qs = .flt (.fin s) ∧ rnd s = .fin s ∧
      |s - qs.sum| ≤ ((1 + 1 / 2 ^ 53) ^ (qs.length - 1) - 1) * (qs.map abs).sum :=
  sum_near_aux rep_two qs hne hr hn hs

/-- The same with a plainer bound. -/
theorem sum_near' (qs : List ℚ) (hne : qs ≠ []) (hr : ∀ q ∈ qs, rnd q = .fin q) (hn : qs.length ≤ 2 ^ 52)
    (hs : (qs.map abs).sum ≤ 2 ^ (1000 : ℤ)) :
    ∃ s, sumFloats qs = .flt (.fin s) ∧ rnd s = .fin s ∧
      |s - qs.sum| ≤ ((qs.length - 1 : ℕ) : ℚ) / 2 ^ 52 * (qs.map abs).sum := by
  obtain ⟨s, h1, h2, h3⟩ := sum_near qs hne hr hn hs
  refine ⟨s, h1, h2, le_trans h3 (mul_le_mul_of_nonneg_right ?_ (abs_sum_nonneg qs))⟩
  have := unit_pow (qs.length - 1) (by omega)
  linarith

theorem map_abs_of_nonneg {qs : List ℚ} (h : ∀ q ∈ qs, 0 ≤ q) : qs.map abs = qs := by
  conv_rhs => rw [← List.map_id qs]
  exact List.map_congr_left fun q hq => abs_of_nonneg (h q hq)

/-- The mean of doubles that are not negative: the sum divided by the number of values. -/
theorem mean_near (qs : List ℚ) (hne : qs ≠ []) (hr : ∀ q ∈ qs, 0 ≤ q ∧ rnd q = .fin q) (hn : qs.length ≤ 2 ^ 52)
    (hs : qs.sum ≤ 2 ^ (1000 : ℤ)) :
    ∃ m, (sumFloats qs).toFloat.divInt qs.length = .fin m ∧ rnd m = .fin m ∧ 0 ≤ m ∧
      |m - meanOf qs| ≤ (qs.length : ℚ) / 2 ^ 52 * meanOf qs + 2 ^ (-1075 : ℤ) := by
  have habs := map_abs_of_nonneg fun q hq => (hr q hq).1
  obtain ⟨s, h1, h2, h3⟩ := sum_near qs hne (fun q hq => (hr q hq).2) hn (by rw [habs]; exact hs)
  rw [habs] at h3
  clear hs
  have hl : 1 ≤ qs.length := List.length_pos_iff.2 hne
  have hlq : (1 : ℚ) ≤ qs.length := by exact_mod_cast hl
  have hS : 0 ≤ qs.sum := List.sum_nonneg fun q hq => (hr q hq).1
  have hub := unit_pow qs.length hn
  have hpw : (1 + 1 / 2 ^ 53 : ℚ) ^ qs.length = (1 + 1 / 2 ^ 53) ^ (qs.length - 1) * (1 + 1 / 2 ^ 53) := by
    rw [← pow_succ]; congr 1; omega
  rw [hpw] at hub
  have hp1 : (1 : ℚ) ≤ (1 + 1 / 2 ^ 53) ^ (qs.length - 1) := one_le_pow₀ (by norm_num)
  have hp2 : (1 + 1 / 2 ^ 53 : ℚ) ^ (qs.length - 1) ≤ 2 := by
    refine le_trans (unit_pow (qs.length - 1) (by omega)) ?_
    have : ((qs.length - 1 : ℕ) : ℚ) ≤ 2 ^ 52 := by exact_mod_cast (by omega : qs.length - 1 ≤ 2 ^ 52)
    have : ((qs.length - 1 : ℕ) : ℚ) / 2 ^ 52 ≤ 1 := by rw [div_le_one (by norm_num)]; exact this
    linarith
  clear hpw
  generalize (1 + 1 / 2 ^ 53 : ℚ) ^ (qs.length - 1) = p at *
  obtain ⟨a1, a2⟩ := abs_le.1 h3
  have hs0 : 0 ≤ s := by nlinarith
  have hsS : s ≤ p * qs.sum := by linarith
  have hfin : ∃ m, rnd (s / qs.length) = .fin m ∧ 0 ≤ m ∧ m ≤ s := by
    refine rnd_between rnd_zero h2 (by positivity) ?_
    rw [div_le_iff₀ (by linarith)]; nlinarith
  obtain ⟨m, hm, hm0, _⟩ := hfin
  refine ⟨m, ?_, Ieee.idem hm, hm0, ?_⟩
  · rw [h1]; simp only [Num.toFloat, PyFloat.divInt, Int.cast_natCast, hm]
  · have he := Ieee.err hm
    have hd : |s / qs.length - meanOf qs| ≤ (p - 1) * meanOf qs := by
      unfold meanOf
      rw [← sub_div, abs_div, abs_of_pos (by linarith : (0 : ℚ) < qs.length), ← mul_div_assoc]
      exact div_le_div_of_nonneg_right h3 (by linarith)
    have hmu : 0 ≤ meanOf qs := by unfold meanOf; positivity
    have hx : |s / qs.length| ≤ p * meanOf qs := by
      rw [abs_of_nonneg (by positivity)]; unfold meanOf
      rw [← mul_div_assoc]
      exact div_le_div_of_nonneg_right hsS (by linarith)
    have hx' : |s / qs.length| / 2 ^ 53 ≤ p * meanOf qs * (1 / 2 ^ 53) := by
      rw [div_eq_mul_one_div]; exact mul_le_mul_of_nonneg_right hx (by norm_num)
    have ht : |m - meanOf qs| ≤ |m - s / qs.length| + |s / qs.length - meanOf qs| := by
      calc _ = |(m - s / qs.length) + (s / qs.length - meanOf qs)| := by ring_nf
        _ ≤ _ := abs_add_le _ _
    have hfinal : (p * (1 + 1 / 2 ^ 53) - 1) * meanOf qs ≤ (qs.length : ℚ) / 2 ^ 52 * meanOf qs :=
      mul_le_mul_of_nonneg_right (by linarith) hmu
    generalize (1 / 2 ^ 53 : ℚ) = u at *
    generalize (2 : ℚ) ^ (-1075 : ℤ) = v at *
    generalize |s / qs.length| / 2 ^ 53 = d at *
    nlinarith

end Txstatsd
