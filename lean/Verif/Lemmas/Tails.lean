import Verif.Spec.SBoxUniform
import Verif.Lemmas.SBoxUniform
import Mathlib.Algebra.BigOperators.Field
import Mathlib.Algebra.Order.BigOperators.Group.Finset
import Mathlib.Algebra.Order.BigOperators.Ring.Finset
import Mathlib.Tactic.Ring
import Mathlib.Tactic.Linarith
import Mathlib.Tactic.NormNum
import Mathlib.Tactic.GCongr
import Mathlib.Tactic.Positivity

set_option linter.unusedSectionVars false
set_option linter.unusedSimpArgs false
set_option linter.unusedVariables false

/-!
# Sums of independent numbers with small tails
-/

namespace Txstatsd
open Spec Finset

section
variable {Ω : Type} [Fintype Ω]

open Classical in
theorem howMany_sum (P : Ω → Prop) : (howMany P : ℚ) = ∑ x : Ω, if P x then (1 : ℚ) else 0 := by
  rw [howMany_eq, Finset.card_filter]
  push_cast
  rfl

/-- A power of 3/2 in steps. -/
theorem power_steps (g K : ℕ) (h : g ≤ K) :
    ((3 : ℚ) / 2) ^ g = 1 + ∑ k ∈ range K, (if k < g then (1 / 2) * ((3 : ℚ) / 2) ^ k else 0) := by
  have key : ∀ g : ℕ, ((3 : ℚ) / 2) ^ g = 1 + ∑ k ∈ range g, (1 / 2) * ((3 : ℚ) / 2) ^ k := by
    intro g
    induction g with
    | zero => simp
    | succ g ih => rw [sum_range_succ, pow_succ, ← add_assoc, ← ih]; ring
  rw [key g]
  congr 1
  rw [← Finset.sum_filter]
  refine Finset.sum_congr ?_ fun _ _ => rfl
  ext k
  simp only [mem_range, mem_filter]
  omega

theorem geometric (K : ℕ) : ∑ k ∈ range K, (1 / 4) * ((3 : ℚ) / 4) ^ k = 1 - ((3 : ℚ) / 4) ^ K := by
  induction K with
  | zero => simp
  | succ K ih => rw [sum_range_succ, ih, pow_succ]; ring

/-- If the share of elements with `g > k` is at most `2^-(k+1)`, the mean of `(3/2)^g` is at most 2. -/
theorem mean_weight (g : Ω → ℕ) (K : ℕ) (hg : ∀ x, g x ≤ K + 1)
    (h1 : ∀ k < K, howMany (fun x => k < g x) * 2 ^ (k + 1) ≤ Fintype.card Ω) (h2 : howMany (fun x => K < g x) * 2 ^ K ≤ Fintype.card Ω) :
    ∑ x : Ω, ((3 : ℚ) / 2) ^ g x ≤ 2 * (Fintype.card Ω : ℚ) := by
  classical
  set M : ℚ := (Fintype.card Ω : ℚ) with hM
  have e : ∑ x : Ω, ((3 : ℚ) / 2) ^ g x = M + ∑ k ∈ range (K + 1), (1 / 2) * ((3 : ℚ) / 2) ^ k * (howMany (fun x => k < g x) : ℚ) := by
    have : ∀ x : Ω, ((3 : ℚ) / 2) ^ g x = 1 + ∑ k ∈ range (K + 1), (if k < g x then (1 / 2) * ((3 : ℚ) / 2) ^ k else 0) :=
      fun x => power_steps _ _ (hg x)
    rw [Finset.sum_congr rfl fun x _ => this x, Finset.sum_add_distrib, Finset.sum_comm]
    congr 1
    · simp [hM]
    · refine Finset.sum_congr rfl fun k _ => ?_
      rw [howMany_sum, Finset.mul_sum]
      refine Finset.sum_congr rfl fun x _ => ?_
      split_ifs <;> simp_all
  rw [e, sum_range_succ]
  have b1 : ∑ k ∈ range K, (1 / 2) * ((3 : ℚ) / 2) ^ k * (howMany (fun x => k < g x) : ℚ) ≤ ∑ k ∈ range K, (1 / 4) * ((3 : ℚ) / 4) ^ k * M := by
    refine Finset.sum_le_sum fun k hk => ?_
    have h := h1 k (mem_range.1 hk)
    have hq : (howMany (fun x => k < g x) : ℚ) * 2 ^ (k + 1) ≤ M := by rw [hM]; exact_mod_cast h
    have hp : (0 : ℚ) < 2 ^ (k + 1) := by positivity
    have hle : (howMany (fun x => k < g x) : ℚ) ≤ M / 2 ^ (k + 1) := by rwa [le_div_iff₀ hp]
    calc (1 / 2) * ((3 : ℚ) / 2) ^ k * (howMany (fun x => k < g x) : ℚ) ≤ (1 / 2) * ((3 : ℚ) / 2) ^ k * (M / 2 ^ (k + 1)) := by gcongr
      _ = (1 / 4) * ((3 : ℚ) / 4) ^ k * M := by
        rw [show ((3 : ℚ) / 4) = (3 / 2) / 2 by norm_num, div_pow (3 / 2 : ℚ) 2 k, pow_succ]
        field_simp
        norm_num
        ring
  have b2 : (1 / 2) * ((3 : ℚ) / 2) ^ K * (howMany (fun x => K < g x) : ℚ) ≤ (1 / 2) * ((3 : ℚ) / 4) ^ K * M := by
    have hq : (howMany (fun x => K < g x) : ℚ) * 2 ^ K ≤ M := by rw [hM]; exact_mod_cast h2
    have hp : (0 : ℚ) < 2 ^ K := by positivity
    have hle : (howMany (fun x => K < g x) : ℚ) ≤ M / 2 ^ K := by rwa [le_div_iff₀ hp]
    calc (1 / 2) * ((3 : ℚ) / 2) ^ K * (howMany (fun x => K < g x) : ℚ) ≤ (1 / 2) * ((3 : ℚ) / 2) ^ K * (M / 2 ^ K) := by gcongr
      _ = (1 / 2) * ((3 : ℚ) / 4) ^ K * M := by
        rw [show ((3 : ℚ) / 4) = (3 / 2) / 2 by norm_num, div_pow (3 / 2 : ℚ) 2 K]
        field_simp
  rw [← Finset.sum_mul, geometric] at b1
  have hM0 : 0 ≤ M := by positivity
  have hx : 0 ≤ ((3 : ℚ) / 4) ^ K * M := by positivity
  have b3 : (1 - ((3 : ℚ) / 4) ^ K) * M + (1 / 2) * ((3 : ℚ) / 4) ^ K * M ≤ M := by nlinarith
  linarith

/-- Then `n` independent numbers sum up to `n * d` or more with a share of at most `(2 (2/3)^d)^n`. -/
theorem sum_tail (g : Ω → ℕ) (hw : ∑ x : Ω, ((3 : ℚ) / 2) ^ g x ≤ 2 * (Fintype.card Ω : ℚ)) (n d : ℕ) :
    howMany (fun T : Fin n → Ω => n * d ≤ ∑ i, g (T i)) * 3 ^ (n * d) ≤ 2 ^ (n * (d + 1)) * Fintype.card (Fin n → Ω) := by
  classical
  have h1 : ((3 : ℚ) / 2) ^ (n * d) * (howMany (fun T : Fin n → Ω => n * d ≤ ∑ i, g (T i)) : ℚ) ≤
      ∑ T : Fin n → Ω, ∏ i, ((3 : ℚ) / 2) ^ g (T i) := by
    rw [howMany_sum, Finset.mul_sum]
    refine Finset.sum_le_sum fun T _ => ?_
    rw [Finset.prod_pow_eq_pow_sum]
    split_ifs with h
    · rw [mul_one]
      exact pow_le_pow_right₀ (by norm_num) h
    · rw [mul_zero]; positivity
  have h2 : ∑ T : Fin n → Ω, ∏ i, ((3 : ℚ) / 2) ^ g (T i) = (∑ x : Ω, ((3 : ℚ) / 2) ^ g x) ^ n :=
    (Fintype.sum_pow (fun x => ((3 : ℚ) / 2) ^ g x) n).symm
  have h3 : (∑ x : Ω, ((3 : ℚ) / 2) ^ g x) ^ n ≤ (2 * (Fintype.card Ω : ℚ)) ^ n :=
    pow_le_pow_left₀ (Finset.sum_nonneg fun _ _ => by positivity) hw n
  have h4 : (Fintype.card (Fin n → Ω) : ℚ) = (Fintype.card Ω : ℚ) ^ n := by simp
  have h5 := h1.trans (h2.le.trans h3)
  rw [div_pow, mul_pow, ← h4, div_mul_eq_mul_div, div_le_iff₀ (by positivity)] at h5
  have h6 : ((howMany (fun T : Fin n → Ω => n * d ≤ ∑ i, g (T i)) * 3 ^ (n * d) : ℕ) : ℚ) ≤
      ((2 ^ (n * (d + 1)) * Fintype.card (Fin n → Ω) : ℕ) : ℚ) := by
    rw [Nat.cast_mul, Nat.cast_mul, Nat.cast_pow, Nat.cast_pow]
    push_cast
    calc _ = 3 ^ (n * d) * (howMany (fun T : Fin n → Ω => n * d ≤ ∑ i, g (T i)) : ℚ) := by ring
      _ ≤ 2 ^ n * (Fintype.card (Fin n → Ω) : ℚ) * 2 ^ (n * d) := h5
      _ = _ := by ring
  exact_mod_cast h6

theorem long_weight (f : Ω → ℕ) (n l : ℕ) (hl : 1 ≤ l) (hf : ∀ x, f x ≤ n)
    (hlong : ∀ j, 0 < j → j + 1 < n → howMany (fun x => j < f x) * 2 ^ (j + 1) ≤ 2 ^ l * Fintype.card Ω) :
    ∑ x : Ω, ((3 : ℚ) / 2) ^ (f x - l) ≤ 2 * (Fintype.card Ω : ℚ) := by
  have cancel : ∀ j, l ≤ j + 1 → ∀ X M : ℕ, X * 2 ^ (j + 1) ≤ 2 ^ l * M → X * 2 ^ (j + 1 - l) ≤ M := by
    intro j hj X M h
    refine Nat.le_of_mul_le_mul_left ?_ (Nat.two_pow_pos l)
    calc 2 ^ l * (X * 2 ^ (j + 1 - l)) = X * (2 ^ l * 2 ^ (j + 1 - l)) := by ring
      _ = X * 2 ^ (j + 1) := by rw [← pow_add]; congr 2; omega
      _ ≤ _ := h
  by_cases hnl : n ≤ l + 1
  · refine mean_weight _ 0 (fun x => ?_) (fun k hk => by omega) ?_
    · have := hf x; omega
    · rw [pow_zero, Nat.mul_one, ← howMany_true]
      exact howMany_mono fun _ _ => trivial
  · refine mean_weight _ (n - 1 - l) (fun x => ?_) (fun k hk => ?_) ?_
    · have := hf x; omega
    · have h1 := cancel (l + k) (by omega) _ _ (hlong (l + k) (by omega) (by omega))
      rw [show l + k + 1 - l = k + 1 by omega] at h1
      exact (Nat.mul_le_mul_right _ (howMany_mono fun x hx => by omega)).trans h1
    · have h1 := cancel (n - 2) (by omega) _ _ (hlong (n - 2) (by omega) (by omega))
      rw [show n - 2 + 1 - l = n - 1 - l by omega] at h1
      exact (Nat.mul_le_mul_right _ (howMany_mono fun x hx => by omega)).trans h1

theorem short_weight (f : Ω → ℕ) (l : ℕ)
    (hshort : ∀ j, j + 2 < l → howMany (fun x => f x ≤ j) * 2 ^ l ≤ 2 ^ (j + 2) * Fintype.card Ω) :
    ∑ x : Ω, ((3 : ℚ) / 2) ^ (l - 2 - f x) ≤ 2 * (Fintype.card Ω : ℚ) := by
  refine mean_weight _ (l - 2) (fun x => by omega) (fun k hk => ?_) ?_
  · have h1 := hshort (l - 2 - (k + 1)) (by omega)
    have h2 : howMany (fun x => f x ≤ l - 2 - (k + 1)) * 2 ^ (k + 1) ≤ Fintype.card Ω := by
      refine Nat.le_of_mul_le_mul_left ?_ (Nat.two_pow_pos (l - 2 - (k + 1) + 2))
      calc _ = howMany (fun x => f x ≤ l - 2 - (k + 1)) * (2 ^ (l - 2 - (k + 1) + 2) * 2 ^ (k + 1)) := by ring
        _ = howMany (fun x => f x ≤ l - 2 - (k + 1)) * 2 ^ l := by rw [← pow_add]; congr 2; omega
        _ ≤ _ := h1
    exact (Nat.mul_le_mul_right _ (howMany_mono fun x hx => by omega)).trans h2
  · rw [howMany_none fun x hx => by omega]
    omega

end
end Txstatsd
