import Verif.Lemmas.Sample
import Mathlib.Data.Finset.Powerset
import Mathlib.Algebra.BigOperators.Group.Finset.Basic
import Mathlib.Algebra.BigOperators.Ring.Finset
import Mathlib.Algebra.BigOperators.Field
import Mathlib.Algebra.Order.BigOperators.Group.Finset
import Mathlib.Algebra.Order.BigOperators.Group.List
import Mathlib.Data.Nat.Choose.Sum
import Mathlib.Algebra.Order.Field.Rat
import Mathlib.Tactic.FieldSimp
import Mathlib.Tactic.NormNum
import Mathlib.Tactic.Positivity

set_option linter.unusedSectionVars false
set_option linter.unusedSimpArgs false
set_option linter.unusedVariables false

/-! # Shares of a random sample (moments of the hypergeometric distribution) -/

namespace Txstatsd
namespace UniformSample

theorem sum_by_fibres {α β : Type} [DecidableEq β] (l : List α) (f : α → β) (s : Finset β) (hs : ∀ x ∈ l, f x ∈ s) (g : β → ℚ) :
    (l.map fun x => g (f x)).sum = ∑ b ∈ s, (l.countP fun x => decide (f x = b)) * g b := by
  induction l with
  | nil => simp
  | cons x l ih =>
    rw [List.map_cons, List.sum_cons, ih fun y hy => hs y (List.mem_cons_of_mem _ hy)]
    have h1 : g (f x) = ∑ b ∈ s, if f x = b then g b else 0 := by
      rw [Finset.sum_ite_eq s (f x) g, if_pos (hs x (List.mem_cons_self ..))]
    rw [h1, ← Finset.sum_add_distrib]
    refine Finset.sum_congr rfl fun b _ => ?_
    rw [List.countP_cons]
    by_cases h : f x = b
    · simp [h]; ring
    · simp [h]

/-- Sums over all draws are sums over all sets of positions. -/
theorem sum_draws (n N : Nat) (hn : n ≤ N) (g : Finset Nat → ℚ) :
    ((drawSequences N).map fun ds => g (keptPositions n ds).toFinset).sum =
      (n.factorial * (N - n).factorial : Nat) * ∑ S ∈ (Finset.range N).powersetCard n, g S := by
  have hk : ∀ ds ∈ drawSequences N, (keptPositions n ds).toFinset ∈ (Finset.range N).powersetCard n := by
    intro ds hds
    obtain ⟨-, h2, h3, h4⟩ := kept_facts hn hds
    rw [Finset.mem_powersetCard]
    refine ⟨fun i hi => Finset.mem_range.2 (h4 i (by simpa using hi)), ?_⟩
    rw [List.toFinset_card_of_nodup h3, h2]
  rw [sum_by_fibres _ (fun ds => (keptPositions n ds).toFinset) _ hk g, Finset.mul_sum]
  refine Finset.sum_congr rfl fun S hS => ?_
  rw [Finset.mem_powersetCard] at hS
  rw [subset_count n N S hn hS.1 hS.2]

/-- How many sets of `n` positions have a given one. -/
theorem sets_one (n N : Nat) (h1 : 1 ≤ n) (hn : n ≤ N) {i : Nat} (hi : i < N) :
    (N : ℚ) * (((Finset.range N).powersetCard n).filter (fun S => i ∈ S)).card = n * (N.choose n : ℚ) := by
  have h := Finset.card_filter_powersetCard_subset {i} (Finset.range N) n (by simpa using hi) (by simpa using h1)
  simp only [Finset.singleton_subset_iff, Finset.card_range, Finset.card_singleton] at h
  rw [h]
  obtain ⟨N, rfl⟩ : ∃ M, N = M + 1 := ⟨N - 1, by omega⟩
  obtain ⟨n, rfl⟩ : ∃ k, n = k + 1 := ⟨n - 1, by omega⟩
  have := Nat.add_one_mul_choose_eq N n
  have hq : ((N + 1 : ℕ) : ℚ) * (N.choose n : ℕ) = ((N + 1).choose (n + 1) : ℕ) * ((n + 1 : ℕ) : ℚ) := by exact_mod_cast this
  simp only [Nat.add_sub_cancel]
  rw [hq]; ring

/-- How many have two given ones. -/
theorem sets_two (n N : Nat) (h1 : 1 ≤ n) (hn : n ≤ N) {i j : Nat} (hi : i < N) (hj : j < N) (hij : i ≠ j) :
    (N : ℚ) * (N - 1) * (((Finset.range N).powersetCard n).filter (fun S => i ∈ S ∧ j ∈ S)).card = n * (n - 1) * (N.choose n : ℚ) := by
  rcases Nat.lt_or_ge n 2 with h2 | h2
  · obtain rfl : n = 1 := by omega
    have : ((Finset.range N).powersetCard 1).filter (fun S => i ∈ S ∧ j ∈ S) = ∅ := by
      rw [Finset.filter_eq_empty_iff]
      rintro S hS ⟨a, b⟩
      rw [Finset.mem_powersetCard] at hS
      obtain ⟨x, rfl⟩ := Finset.card_eq_one.1 hS.2
      simp only [Finset.mem_singleton] at a b
      exact hij (a.trans b.symm)
    rw [this]; simp
  · have hc : ({i, j} : Finset Nat).card = 2 := Finset.card_pair hij
    have h := Finset.card_filter_powersetCard_subset {i, j} (Finset.range N) n
      (by intro x hx; simp only [Finset.mem_insert, Finset.mem_singleton] at hx; rcases hx with rfl | rfl <;> simpa) (by rw [hc]; exact h2)
    simp only [Finset.insert_subset_iff, Finset.singleton_subset_iff, Finset.card_range, hc] at h
    rw [h]
    obtain ⟨N, rfl⟩ : ∃ M, N = M + 2 := ⟨N - 2, by omega⟩
    obtain ⟨n, rfl⟩ : ∃ k, n = k + 2 := ⟨n - 2, by omega⟩
    have e1 := Nat.add_one_mul_choose_eq N n
    have e2 := Nat.add_one_mul_choose_eq (N + 1) (n + 1)
    have q1 : ((N : ℚ) + 1) * (N.choose n : ℕ) = ((N + 1).choose (n + 1) : ℕ) * ((n : ℚ) + 1) := by exact_mod_cast e1
    have q2 : ((N : ℚ) + 2) * ((N + 1).choose (n + 1) : ℕ) = ((N + 2).choose (n + 2) : ℕ) * ((n : ℚ) + 2) := by exact_mod_cast e2
    simp only [Nat.add_sub_cancel]
    push_cast
    calc ((N : ℚ) + 2) * (N + 2 - 1) * (N.choose n : ℕ) = (N + 2) * ((N + 1) * (N.choose n : ℕ)) := by ring
      _ = ((N + 2) * ((N + 1).choose (n + 1) : ℕ)) * (n + 1) := by rw [q1]; ring
      _ = _ := by rw [q2]; ring

/-- The number of positions of `A` in a set, as a sum. -/
theorem inter_card (A S : Finset Nat) : ((S ∩ A).card : ℚ) = ∑ i ∈ A, if i ∈ S then (1 : ℚ) else 0 := by
  rw [← Finset.sum_filter, Finset.sum_const, nsmul_eq_mul, mul_one]
  congr 2
  ext i; simp [and_comm]

theorem first_moment (n N : Nat) (h1 : 1 ≤ n) (hn : n ≤ N) (A : Finset Nat) (hA : A ⊆ Finset.range N) :
    (N : ℚ) * ∑ S ∈ (Finset.range N).powersetCard n, ((S ∩ A).card : ℚ) = A.card * (n * (N.choose n : ℚ)) := by
  simp only [inter_card]
  rw [Finset.sum_comm, Finset.mul_sum]
  rw [Finset.sum_congr rfl (g := fun _ => (n * (N.choose n : ℚ)))]
  · rw [Finset.sum_const, nsmul_eq_mul]
  · intro i hi
    rw [← Finset.sum_filter, Finset.sum_const, nsmul_eq_mul, mul_one]
    exact sets_one n N h1 hn (Finset.mem_range.1 (hA hi))

theorem second_moment (n N : Nat) (h1 : 1 ≤ n) (hn : n ≤ N) (A : Finset Nat) (hA : A ⊆ Finset.range N) :
    (N : ℚ) * (N - 1) * ∑ S ∈ (Finset.range N).powersetCard n, ((S ∩ A).card : ℚ) ^ 2 =
      A.card * ((N - 1) * (n * (N.choose n : ℚ))) + A.card * (A.card - 1) * (n * (n - 1) * (N.choose n : ℚ)) := by
  have hsq : ∀ S : Finset Nat, ((S ∩ A).card : ℚ) ^ 2 = ∑ i ∈ A, ∑ j ∈ A, if i ∈ S ∧ j ∈ S then (1 : ℚ) else 0 := by
    intro S
    rw [inter_card, sq, Finset.sum_mul_sum]
    refine Finset.sum_congr rfl fun i _ => Finset.sum_congr rfl fun j _ => ?_
    by_cases hi : i ∈ S <;> by_cases hj : j ∈ S <;> simp [hi, hj]
  simp only [hsq]
  rw [Finset.sum_comm, Finset.mul_sum]
  have key : ∀ i ∈ A, (N : ℚ) * (N - 1) * ∑ S ∈ (Finset.range N).powersetCard n, ∑ j ∈ A, (if i ∈ S ∧ j ∈ S then (1 : ℚ) else 0) =
      (N - 1) * (n * (N.choose n : ℚ)) + (A.card - 1) * (n * (n - 1) * (N.choose n : ℚ)) := by
    intro i hi
    rw [Finset.sum_comm, Finset.mul_sum, ← Finset.add_sum_erase A _ hi]
    congr 1
    · simp only [and_self]
      rw [← Finset.sum_filter, Finset.sum_const, nsmul_eq_mul, mul_one, ← sets_one n N h1 hn (Finset.mem_range.1 (hA hi))]
      ring
    · rw [Finset.sum_congr rfl (g := fun _ => (n * (n - 1) * (N.choose n : ℚ)))]
      · rw [Finset.sum_const, nsmul_eq_mul, Finset.card_erase_of_mem hi, Nat.cast_sub (Finset.card_pos.2 ⟨i, hi⟩)]
        simp
      · intro j hj
        rw [Finset.mem_erase] at hj
        rw [← Finset.sum_filter, Finset.sum_const, nsmul_eq_mul, mul_one]
        exact sets_two n N h1 hn (Finset.mem_range.1 (hA hi)) (Finset.mem_range.1 (hA hj.2)) hj.1.symm
  rw [Finset.sum_congr rfl key, Finset.sum_const, nsmul_eq_mul]
  ring

/-- The variance of the share of `A` is at most `1 / 4n`. -/
theorem variance_le (n N : Nat) (h1 : 1 ≤ n) (hn : n ≤ N) (A : Finset Nat) (hA : A ⊆ Finset.range N) :
    ∑ S ∈ (Finset.range N).powersetCard n, (((S ∩ A).card : ℚ) / n - (A.card : ℚ) / N) ^ 2 ≤ (N.choose n : ℚ) / (4 * n) := by
  have hn0 : (0 : ℚ) < n := by exact_mod_cast h1
  have hN0 : (0 : ℚ) < N := by exact_mod_cast h1.trans hn
  have ha : (A.card : ℚ) ≤ N := by
    have := Finset.card_le_card hA
    rw [Finset.card_range] at this
    exact_mod_cast this
  have hnN : (n : ℚ) ≤ N := by exact_mod_cast hn
  have m1 := first_moment n N h1 hn A hA
  have m2 := second_moment n N h1 hn A hA
  have hexp : ∑ S ∈ (Finset.range N).powersetCard n, (((S ∩ A).card : ℚ) / n - (A.card : ℚ) / N) ^ 2 =
      (∑ S ∈ (Finset.range N).powersetCard n, ((S ∩ A).card : ℚ) ^ 2) / n ^ 2
        - 2 * (A.card / N) / n * (∑ S ∈ (Finset.range N).powersetCard n, ((S ∩ A).card : ℚ))
        + (A.card / N) ^ 2 * (N.choose n : ℚ) := by
    have : ∀ S : Finset Nat, (((S ∩ A).card : ℚ) / n - (A.card : ℚ) / N) ^ 2 =
        ((S ∩ A).card : ℚ) ^ 2 / n ^ 2 - 2 * (A.card / N) / n * ((S ∩ A).card : ℚ) + (A.card / N) ^ 2 := by
      intro S; field_simp; ring
    simp only [this]
    rw [Finset.sum_add_distrib, Finset.sum_sub_distrib, Finset.sum_const, Finset.card_powersetCard, Finset.card_range, nsmul_eq_mul,
      ← Finset.mul_sum, Finset.sum_div]
    ring
  rcases Nat.lt_or_ge N 2 with h2 | h2
  · -- one position
    obtain rfl : N = 1 := by omega
    obtain rfl : n = 1 := by omega
    have hp : (Finset.range 1).powersetCard 1 = {{0}} := by decide
    rw [hp, Finset.sum_singleton]
    have : ({0} ∩ A : Finset Nat) = A := by
      rw [Finset.inter_eq_right]
      simpa using hA
    rw [this]
    simp
  · have hN1 : (0 : ℚ) < (N : ℚ) - 1 := by
      have : (2 : ℚ) ≤ N := by exact_mod_cast h2
      linarith
    set X1 := ∑ S ∈ (Finset.range N).powersetCard n, ((S ∩ A).card : ℚ) with hX1
    set X2 := ∑ S ∈ (Finset.range N).powersetCard n, ((S ∩ A).card : ℚ) ^ 2 with hX2
    have e1 : X1 = A.card * (n * (N.choose n : ℚ)) / N := by rw [eq_div_iff hN0.ne', ← m1]; ring
    have e2 : X2 = (A.card * ((N - 1) * (n * (N.choose n : ℚ))) + A.card * (A.card - 1) * (n * (n - 1) * (N.choose n : ℚ))) /
        (N * (N - 1)) := by rw [eq_div_iff (mul_pos hN0 hN1).ne', ← m2]; ring
    have hc : (0 : ℚ) ≤ (N.choose n : ℚ) := by positivity
    have hval : X2 / n ^ 2 - 2 * (A.card / N) / n * X1 + (A.card / N) ^ 2 * (N.choose n : ℚ) =
        (N.choose n : ℚ) / n * ((A.card / N) * (1 - A.card / N)) * ((N - n) / (N - 1)) := by
      rw [e1, e2]; field_simp; ring
    rw [hexp, hval]
    have hq : (A.card : ℚ) / N * (1 - A.card / N) ≤ 1 / 4 := by nlinarith [sq_nonneg ((A.card : ℚ) / N - 1 / 2)]
    have hq0 : 0 ≤ (A.card : ℚ) / N * (1 - A.card / N) := by
      have h3 : (A.card : ℚ) / N ≤ 1 := (div_le_one hN0).2 ha
      have h4 : 0 ≤ (A.card : ℚ) / N := by positivity
      exact mul_nonneg h4 (by linarith)
    have hr : ((N : ℚ) - n) / (N - 1) ≤ 1 := by
      rw [div_le_one hN1]
      have : (1 : ℚ) ≤ n := by exact_mod_cast h1
      linarith
    have hr0 : 0 ≤ ((N : ℚ) - n) / (N - 1) := div_nonneg (by linarith) hN1.le
    have hcn : 0 ≤ (N.choose n : ℚ) / n := by positivity
    calc (N.choose n : ℚ) / n * ((A.card / N) * (1 - A.card / N)) * ((N - n) / (N - 1))
        ≤ (N.choose n : ℚ) / n * ((A.card / N) * (1 - A.card / N)) * 1 :=
          mul_le_mul_of_nonneg_left hr (mul_nonneg hcn hq0)
      _ ≤ (N.choose n : ℚ) / n * (1 / 4) := by rw [mul_one]; exact mul_le_mul_of_nonneg_left hq hcn
      _ = (N.choose n : ℚ) / (4 * n) := by field_simp

theorem countP_mul_le {α : Type} (l : List α) (p : α → Bool) (f : α → ℚ) (c : ℚ) (hf : ∀ x ∈ l, 0 ≤ f x) (hp : ∀ x ∈ l, p x = true → c ≤ f x) :
    (l.countP p : ℚ) * c ≤ (l.map f).sum := by
  induction l with
  | nil => simp
  | cons x l ih =>
    have h1 := ih (fun y hy => hf y (List.mem_cons_of_mem _ hy)) (fun y hy => hp y (List.mem_cons_of_mem _ hy))
    have h2 := hf x (List.mem_cons_self ..)
    rw [List.map_cons, List.sum_cons, List.countP_cons]
    by_cases h : p x = true
    · have h3 := hp x (List.mem_cons_self ..) h
      rw [if_pos h]; push_cast; linarith
    · rw [if_neg h]; push_cast; linarith

/-- The values of a sample with a property, counted by their positions. -/
theorem count_held {α : Type} (P : α → Bool) (vs : List α) : ∀ (idx : List Nat) (held : List α), idx.Nodup →
    List.Forall₂ (fun i v => vs[i]? = some v) idx held →
    held.countP P = (idx.toFinset ∩ ((Finset.range vs.length).filter fun i => vs[i]?.any P)).card
  | _, _, _, .nil => by simp
  | i :: idx, v :: held, hnd, .cons h hs => by
    rw [List.nodup_cons] at hnd
    have ih := count_held P vs idx held hnd.2 hs
    have hi : i < vs.length := (List.getElem?_eq_some_iff.1 h).1
    rw [List.countP_cons, ih, List.toFinset_cons]
    by_cases hp : P v = true
    · rw [if_pos hp, Finset.insert_inter_of_mem (by rw [Finset.mem_filter, h]; simp [hi, hp]), Finset.card_insert_of_notMem]
      simp [hnd.1]
    · rw [if_neg hp, Finset.insert_inter_of_notMem (by rw [Finset.mem_filter, h]; simp [hi, hp])]; rfl

theorem count_all {α : Type} (P : α → Bool) (vs : List α) :
    ((Finset.range vs.length).filter fun i => vs[i]?.any P).card = vs.countP P := by
  have h : List.Forall₂ (fun i v => vs[i]? = some v) (List.range vs.length) vs := by
    rw [List.forall₂_iff_get]
    refine ⟨by simp, fun i h1 h2 => ?_⟩
    simp
  rw [count_held P vs _ _ List.nodup_range h]
  congr 1
  ext i; simp

end UniformSample
end Txstatsd
