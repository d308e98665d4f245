import Verif.Spec.RandInt
import Verif.Lemmas.SampleShare
import Mathlib.Algebra.BigOperators.Intervals
import Mathlib.Data.List.Induction
import Mathlib.Tactic.Linarith

set_option linter.unusedSectionVars false
set_option linter.unusedSimpArgs false
set_option linter.unusedVariables false

/-! # Residues of random ints -/

namespace Txstatsd
open Spec
namespace RandInt

theorem shift_sum (g : Nat → ℚ) (K : Nat) (hg : ∀ d, g (d + K) = g d) (a : Nat) :
    ∑ d ∈ Finset.range K, g (a + d) = ∑ d ∈ Finset.range K, g d := by
  induction a with
  | zero => simp
  | succ a ih =>
    rw [← ih]
    have h1 := Finset.sum_range_succ (fun d => g (a + d)) K
    have h2 := Finset.sum_range_succ' (fun d => g (a + d)) K
    rw [h1, hg, Nat.add_zero] at h2
    have h3 : ∑ d ∈ Finset.range K, g (a + 1 + d) = ∑ d ∈ Finset.range K, g (a + (d + 1)) :=
      Finset.sum_congr rfl fun d _ => by rw [Nat.add_assoc, Nat.add_comm 1 d]
    rw [h3]
    linarith

theorem period_sum (g : Nat → ℚ) (K : Nat) (hg : ∀ d, g (d + K) = g d) (q s : Nat) :
    ∑ d ∈ Finset.range (K * q + s), g d = q * ∑ d ∈ Finset.range K, g d + ∑ d ∈ Finset.range s, g d := by
  induction q with
  | zero => simp
  | succ q ih =>
    have e : K * (q + 1) + s = (K * q + s) + K := by ring
    rw [e, Finset.sum_range_add, ih, shift_sum g K hg]
    push_cast; ring

/-- One draw: the residues of `randint(1, M)` modulo `K` are nearly uniform. -/
theorem one_draw (f : Nat → ℚ) (h0 : ∀ r, 0 ≤ f r) (h1 : ∀ r, f r ≤ 1) (K M : Nat) (hK : 0 < K) (hM : 0 < M) :
    |(∑ d ∈ Finset.range M, f ((d + 1) % K)) / M - (∑ r ∈ Finset.range K, f r) / K| ≤ K / M := by
  have hper : ∀ d, f ((d + K + 1) % K) = f ((d + 1) % K) := fun d => by
    rw [show d + K + 1 = d + 1 + K by ring, Nat.add_mod_right]
  have hF : ∑ d ∈ Finset.range K, f ((d + 1) % K) = ∑ r ∈ Finset.range K, f r := by
    have h := shift_sum (fun d => f (d % K)) K (fun d => by rw [Nat.add_mod_right]) 1
    rw [show ∑ d ∈ Finset.range K, f ((d + 1) % K) = ∑ d ∈ Finset.range K, f ((1 + d) % K) from
      Finset.sum_congr rfl fun d _ => by rw [Nat.add_comm], h]
    exact Finset.sum_congr rfl fun d hd => by rw [Nat.mod_eq_of_lt (Finset.mem_range.1 hd)]
  have hS := period_sum (fun d => f ((d + 1) % K)) K hper (M / K) (M % K)
  rw [Nat.div_add_mod, hF] at hS
  rw [hS]
  set F := ∑ r ∈ Finset.range K, f r
  set R := ∑ d ∈ Finset.range (M % K), f ((d + 1) % K)
  have hF0 : 0 ≤ F := Finset.sum_nonneg fun r _ => h0 r
  have hFK : F ≤ K := by
    have := Finset.sum_le_sum fun r (_ : r ∈ Finset.range K) => h1 r
    simpa using this
  have hR0 : 0 ≤ R := Finset.sum_nonneg fun r _ => h0 _
  have hRs : R ≤ (M % K : Nat) := by
    have := Finset.sum_le_sum fun d (_ : d ∈ Finset.range (M % K)) => h1 ((d + 1) % K)
    simpa using this
  have hMq : (M : ℚ) = K * (M / K : Nat) + (M % K : Nat) := by exact_mod_cast (Nat.div_add_mod M K).symm
  have hsK : ((M % K : Nat) : ℚ) ≤ K := by exact_mod_cast (Nat.mod_lt M hK).le
  have hK' : (0 : ℚ) < K := by exact_mod_cast hK
  have hM' : (0 : ℚ) < M := by exact_mod_cast hM
  have hs0 : (0 : ℚ) ≤ (M % K : Nat) := by exact_mod_cast Nat.zero_le _
  set q : ℚ := ((M / K : Nat) : ℚ)
  set s : ℚ := ((M % K : Nat) : ℚ)
  have e : (q * F + R) / M - F / K = (K * R - s * F) / (M * K) := by
    rw [div_sub_div _ _ hM'.ne' hK'.ne']
    congr 1
    rw [hMq]; ring
  rw [e, abs_div, abs_of_pos (mul_pos hM' hK'), div_le_div_iff₀ (mul_pos hM' hK') hM']
  have hb : |K * R - s * F| ≤ K * K := by
    rw [abs_le]
    constructor
    · nlinarith
    · nlinarith
  nlinarith

/-- The mean over a list. -/
def meanOver {α : Type} (l : List α) (f : α → ℚ) : ℚ := (l.map f).sum / l.length

theorem range_sum (m : Nat) (h : Nat → ℚ) : ((List.range m).map h).sum = ∑ d ∈ Finset.range m, h d := by
  induction m with
  | zero => simp
  | succ m ih => rw [List.range_succ, List.map_append, List.sum_append, ih, Finset.sum_range_succ]; simp

theorem meanOver_flat {α β : Type} (l : List α) (m : Nat) (g : α → Nat → β) (f : β → ℚ) (hm : 0 < m) :
    meanOver (l.flatMap fun a => (List.range m).map (g a)) f =
      meanOver l fun a => (∑ d ∈ Finset.range m, f (g a d)) / m := by
  have hm' : (0 : ℚ) < m := by exact_mod_cast hm
  have hlen : ((l.flatMap fun a => (List.range m).map (g a)).length : ℚ) = l.length * m := by
    rw [List.length_flatMap]
    simp
  have hsum : ((l.flatMap fun a => (List.range m).map (g a)).map f).sum = (l.map fun a => ∑ d ∈ Finset.range m, f (g a d)).sum := by
    induction l with
    | nil => simp
    | cons a l ih =>
      have ih := ih (by rw [List.length_flatMap]; simp)
      rw [List.flatMap_cons, List.map_append, List.sum_append, ih, List.map_cons, List.sum_cons, List.map_map,
        range_sum m (f ∘ g a)]
      rfl
  unfold meanOver
  rw [hlen, hsum]
  have : (l.map fun a => (∑ d ∈ Finset.range m, f (g a d)) / (m : ℚ)).sum = (l.map fun a => ∑ d ∈ Finset.range m, f (g a d)).sum / m := by
    clear hsum hlen
    induction l with
    | nil => simp
    | cons a l ih => rw [List.map_cons, List.sum_cons, ih, List.map_cons, List.sum_cons]; ring
  rw [this, div_div, mul_comm]

theorem meanOver_close {α : Type} (l : List α) (f g : α → ℚ) (c : ℚ) (hc : 0 ≤ c) (h : ∀ x ∈ l, |f x - g x| ≤ c) :
    |meanOver l f - meanOver l g| ≤ c := by
  have hs : |(l.map f).sum - (l.map g).sum| ≤ c * l.length := by
    induction l with
    | nil => simp
    | cons a l ih =>
      have ih := ih fun x hx => h x (List.mem_cons_of_mem _ hx)
      have ha := h a (List.mem_cons_self ..)
      rw [List.map_cons, List.map_cons, List.sum_cons, List.sum_cons, List.length_cons]
      rw [abs_le] at *
      push_cast
      constructor <;> linarith [ih.1, ih.2, ha.1, ha.2]
  unfold meanOver
  rcases Nat.eq_zero_or_pos l.length with h0 | h0
  · rw [h0]; simpa using hc
  · have h0' : (0 : ℚ) < l.length := by exact_mod_cast h0
    rw [← sub_div, abs_div, abs_of_pos h0', div_le_iff₀ h0']
    exact hs

/-- The residues the sample computes from the draws. -/
def reduced (ds : List Nat) : List Nat := ds.mapIdx fun k d => d % (k + 1)

theorem reduced_snoc (ds : List Nat) (d : Nat) : reduced (ds ++ [d]) = reduced ds ++ [d % (ds.length + 1)] := by
  simp [reduced, List.mapIdx_append]

theorem reduced_length (ds : List Nat) : (reduced ds).length = ds.length := by simp [reduced]

theorem length_of_mem {M N : Nat} : ∀ {ds : List Nat}, ds ∈ intDraws M N → ds.length = N := by
  induction N with
  | zero => intro ds h; simp [intDraws] at h; simp [h]
  | succ N ih =>
    intro ds h
    simp only [intDraws, List.mem_flatMap, List.mem_map] at h
    obtain ⟨es, hes, d, _, rfl⟩ := h
    simp [ih hes]

theorem length_intDraws (M N : Nat) : (intDraws M N).length = M ^ N := by
  induction N with
  | zero => rfl
  | succ N ih =>
    rw [intDraws, List.length_flatMap]
    simp [ih, pow_succ]

/-- All draws: any quantity between 0 and 1 has nearly the same mean over the real draws as over uniform residues. -/
theorem all_draws (M : Nat) (hM : 0 < M) (N : Nat) : ∀ g : List Nat → ℚ, (∀ rs, 0 ≤ g rs) → (∀ rs, g rs ≤ 1) →
    |meanOver (intDraws M N) (fun ds => g (reduced ds)) - meanOver (drawSequences N) g| ≤ (N * (N + 1) : ℚ) / (2 * M) := by
  have hM' : (0 : ℚ) < M := by exact_mod_cast hM
  induction N with
  | zero => intro g _ _; simp [intDraws, drawSequences, reduced, meanOver]
  | succ N ih =>
    intro g h0 h1
    have e1 : meanOver (intDraws M (N + 1)) (fun ds => g (reduced ds)) =
        meanOver (intDraws M N) fun ds => (fun rs => (∑ d ∈ Finset.range M, g (rs ++ [(d + 1) % (N + 1)])) / M) (reduced ds) := by
      rw [intDraws, meanOver_flat (intDraws M N) M (fun ds d => ds ++ [d + 1]) _ hM]
      unfold meanOver
      congr 2
      refine List.map_congr_left fun ds hds => ?_
      simp only [reduced_snoc, length_of_mem hds]
    have e2 : meanOver (drawSequences (N + 1)) g =
        meanOver (drawSequences N) fun rs => (∑ r ∈ Finset.range (N + 1), g (rs ++ [r])) / (N + 1 : Nat) := by
      rw [drawSequences, meanOver_flat (drawSequences N) (N + 1) (fun ds d => ds ++ [d]) _ (Nat.succ_pos N)]
    rw [e1, e2]
    have i1 := ih (fun rs => (∑ d ∈ Finset.range M, g (rs ++ [(d + 1) % (N + 1)])) / M)
      (fun rs => div_nonneg (Finset.sum_nonneg fun d _ => h0 _) hM'.le)
      (fun rs => by
        rw [div_le_one hM']
        have := Finset.sum_le_sum fun d (_ : d ∈ Finset.range M) => h1 (rs ++ [(d + 1) % (N + 1)])
        simpa using this)
    have i2 := meanOver_close (drawSequences N) (fun rs => (∑ d ∈ Finset.range M, g (rs ++ [(d + 1) % (N + 1)])) / (M : ℚ))
      (fun rs => (∑ r ∈ Finset.range (N + 1), g (rs ++ [r])) / (N + 1 : Nat)) ((N + 1 : Nat) / M)
      (div_nonneg (by exact_mod_cast Nat.zero_le _) hM'.le)
      (fun rs _ => one_draw (fun r => g (rs ++ [r])) (fun r => h0 _) (fun r => h1 _) (N + 1) M (Nat.succ_pos N) hM)
    have e3 : (((N + 1 : Nat) : ℚ) * ((N + 1 : Nat) + 1)) / (2 * M) = (N * (N + 1) : ℚ) / (2 * M) + (N + 1 : Nat) / M := by
      push_cast; field_simp; ring
    rw [e3]
    exact (abs_sub_le _ _ _).trans (add_le_add i1 i2)

theorem kept_reduced (n : Nat) (ds : List Nat) : keptPositions n (reduced ds) = keptPositions n ds := by
  induction ds using List.reverseRecOn with
  | nil => rfl
  | append_singleton ds d ih =>
    rw [reduced_snoc, UniformSample.keptPositions_snoc, UniformSample.keptPositions_snoc, ih, reduced_length]
    unfold UniformSample.nextPositions
    simp [Nat.mod_mod]

open Classical in
theorem countP_mean {α : Type} (l : List α) (Q : α → Prop) :
    ((l.countP fun x => decide (Q x) : Nat) : ℚ) / l.length = meanOver l fun x => if Q x then 1 else 0 := by
  unfold meanOver
  congr 1
  induction l with
  | nil => simp
  | cons a l ih =>
    rw [List.countP_cons, List.map_cons, List.sum_cons, ← ih]
    by_cases h : Q a <;> simp [h, add_comm]

end RandInt
end Txstatsd
