import Verif.Lemmas.RandInt
import Verif.Props.SampleShare

/-!
# C164: samples with the draws the code makes
-/

set_option linter.unusedVariables false

namespace Txstatsd
open Spec RandInt

/-- C164: the outcomes counted below are all the sequences of `N` numbers from 1 to `M`, each once. -/
theorem C164_outcomes (M N : Nat) :
    (intDraws M N).Nodup ∧ ∀ ds : List Nat, ds ∈ intDraws M N ↔ ds.length = N ∧ ∀ d ∈ ds, 1 ≤ d ∧ d ≤ M := by
  induction N with
  | zero =>
    refine ⟨by simp [intDraws], fun ds => ?_⟩
    simp only [intDraws, List.mem_singleton]
    constructor
    · rintro rfl; simp
    · rintro ⟨h, _⟩; exact List.length_eq_zero_iff.1 h
  | succ N ih =>
    obtain ⟨ih1, ih2⟩ := ih
    constructor
    · simp only [intDraws]
      rw [List.nodup_flatMap]
      refine ⟨?_, ?_⟩
      · intro ds _
        refine List.Nodup.map ?_ List.nodup_range
        intro a b h; simpa using h
      · refine ih1.imp ?_
        intro a b hab
        simp only [Function.onFun, List.disjoint_left, List.mem_map, not_exists, not_and]
        rintro x ⟨r, _, rfl⟩ r' _ h
        exact hab (List.append_inj_left' h rfl).symm
    · intro ds
      simp only [intDraws, List.mem_flatMap, List.mem_map, List.mem_range]
      constructor
      · rintro ⟨es, hes, d, hd, rfl⟩
        obtain ⟨h1, h2⟩ := (ih2 es).1 hes
        refine ⟨by simp [h1], fun x hx => ?_⟩
        rcases List.mem_append.1 hx with hx | hx
        · exact h2 x hx
        · rw [List.mem_singleton] at hx
          omega
      · rintro ⟨h1, h2⟩
        rcases List.eq_nil_or_concat ds with rfl | ⟨es, d, rfl⟩
        · simp at h1
        · simp only [List.concat_eq_append] at *
          simp at h1
          have hd := h2 d (by simp)
          exact ⟨es, (ih2 es).2 ⟨h1, fun x hx => h2 x (by simp [hx])⟩, d - 1, by omega, by rw [Nat.sub_add_cancel hd.1]⟩

/-- C164: whatever is asked of the positions that a sample holds after `N` values, its chance with the draws of the code,
`randint(1, M) % k`, differs by at most `N (N + 1) / (2 M)` from that with uniform residues. -/
theorem C164_close (n M N : Nat) (hM : 1 ≤ M) (Q : List Nat → Prop) :
    |chanceOfInts M N (fun ds => Q (keptPositions n ds)) - chanceOf N (fun ds => Q (keptPositions n ds))| ≤
      (N * (N + 1) : ℚ) / (2 * M) := by
  classical
  unfold chanceOfInts chanceOf
  rw [countP_mean, countP_mean]
  have h := all_draws M hM N (fun rs => if Q (keptPositions n rs) then 1 else 0) (fun rs => by split <;> norm_num)
    (fun rs => by split <;> norm_num)
  simp only [kept_reduced] at h
  exact h

/-- C164: so each of the `N ≥ n` positions is held with a chance within that of `n / N`. -/
theorem C164_positions_partial (n M N i : Nat) (hM : 1 ≤ M) (hn : n ≤ N) (hi : i < N) :
    |chanceOfInts M N (fun ds => i ∈ keptPositions n ds) - (n : ℚ) / N| ≤ (N * (N + 1) : ℚ) / (2 * M) := by
  classical
  have h := C164_close n M N hM (fun ps => i ∈ ps)
  have hu : chanceOf N (fun ds => i ∈ keptPositions n ds) = (n : ℚ) / N := by
    unfold chanceOf
    have hN : (0 : ℚ) < N := by exact_mod_cast lt_of_le_of_lt (Nat.zero_le i) hi
    rw [div_eq_div_iff (drawSequences_pos N).ne' hN.ne']
    have := C36_uniform n N i hn hi
    have he : (drawSequences N).countP (fun ds => @decide (i ∈ keptPositions n ds) (Classical.propDecidable _)) =
        (drawSequences N).countP (fun ds => decide (i ∈ keptPositions n ds)) := by
      congr 1; funext ds; congr
    rw [he]
    exact_mod_cast this
  rw [← hu]
  exact h

/-- C164: and the share of a sample that has a property is seldom far from that of the stream (cf. C158). -/
theorem C164_seldom {α : Type} (zero : α) (n M : Nat) (hM : 1 ≤ M) (hn : 1 ≤ n) (vs : List α) (hv : n ≤ vs.length) (P : α → Bool) (ε : ℚ)
    (hε : 0 < ε) :
    chanceOfInts M vs.length (fun ds =>
        ε ≤ |shareOf P ((UniformSample.init zero n).runOps zero (streamOf ds vs)).getValues - shareOf P vs|) ≤
      1 / (4 * n * ε ^ 2) + (vs.length * (vs.length + 1) : ℚ) / (2 * M) := by
  classical
  have key : ∀ ds : List Nat, ds.length = vs.length →
      shareOf P ((UniformSample.init zero n).runOps zero (streamOf ds vs)).getValues =
        ((((keptPositions n ds).toFinset ∩ ((Finset.range vs.length).filter fun i => vs[i]?.any P)).card : Nat) : ℚ) / n := by
    intro ds hl
    unfold shareOf
    rw [held_share zero n ds vs hl.symm P, held_length zero n ds vs hl.symm hv]
  have h := C164_close n M vs.length hM (fun ps =>
    ε ≤ |((((ps.toFinset ∩ ((Finset.range vs.length).filter fun i => vs[i]?.any P)).card : Nat) : ℚ) / n) - shareOf P vs|)
  have h2 := C158_seldom zero n hn vs hv P ε hε
  have e1 : chanceOf vs.length (fun ds =>
      ε ≤ |shareOf P ((UniformSample.init zero n).runOps zero (streamOf ds vs)).getValues - shareOf P vs|) =
      chanceOf vs.length (fun ds => ε ≤ |(((((keptPositions n ds).toFinset ∩
        ((Finset.range vs.length).filter fun i => vs[i]?.any P)).card : Nat) : ℚ) / n) - shareOf P vs|) := by
    unfold chanceOf
    congr 2
    refine List.countP_congr fun ds hds => ?_
    simp only [decide_eq_true_eq, key ds (UniformSample.mem_drawSequences.1 hds).1]
  have e2 : chanceOfInts M vs.length (fun ds =>
      ε ≤ |shareOf P ((UniformSample.init zero n).runOps zero (streamOf ds vs)).getValues - shareOf P vs|) =
      chanceOfInts M vs.length (fun ds => ε ≤ |(((((keptPositions n ds).toFinset ∩
        ((Finset.range vs.length).filter fun i => vs[i]?.any P)).card : Nat) : ℚ) / n) - shareOf P vs|) := by
    unfold chanceOfInts
    congr 2
    refine List.countP_congr fun ds hds => ?_
    simp only [decide_eq_true_eq, key ds (length_of_mem hds)]
  rw [e2]
  rw [e1] at h2
  have := (abs_le.1 h).2
  linarith

/-- C164, refuted: with the ints of a 64-bit machine the chances are not equal: of two values, a sample of one holds the second less
often. -/
theorem C164_refuted : ¬ ∀ n N i : Nat, n ≤ N → i < N →
    chanceOfInts (2 ^ 63 - 1) N (fun ds => i ∈ keptPositions n ds) = (n : ℚ) / N := by
  classical
  intro h
  have h := h 1 2 1 (by norm_num) (by norm_num)
  have key : ∀ M : Nat, 0 < M → chanceOfInts (2 * M + 1) 2 (fun ds => 1 ∈ keptPositions 1 ds) = (M : ℚ) / (2 * M + 1 : Nat) := by
    intro M hM
    have hpos : 0 < 2 * M + 1 := by omega
    unfold chanceOfInts
    rw [countP_mean, show (2 : Nat) = 1 + 1 from rfl, intDraws, meanOver_flat (intDraws _ 1) _ (fun ds d => ds ++ [d + 1]) _ hpos, intDraws,
      meanOver_flat (intDraws _ 0) _ (fun ds d => ds ++ [d + 1]) _ hpos]
    have hk : ∀ a b : Nat, (1 ∈ keptPositions 1 ([] ++ [a + 1] ++ [b + 1])) ↔ (b + 1) % 2 = 0 := by
      intro a b
      rw [UniformSample.keptPositions_snoc, UniformSample.keptPositions_snoc]
      have h0 : keptPositions 1 [] = [] := rfl
      rw [h0]
      simp only [UniformSample.nextPositions]
      rcases Nat.mod_two_eq_zero_or_one (b + 1) with h | h <;> simp [h]
    have hin : ∀ a : Nat, (∑ d ∈ Finset.range (1 + 1 * (2 * M)), @ite ℚ (1 ∈ keptPositions 1 ([] ++ [a + 1] ++ [d + 1])) (Classical.propDecidable _) 1 0) = M := by
      intro a
      have hc : ∀ d ∈ Finset.range (1 + 1 * (2 * M)), @ite ℚ (1 ∈ keptPositions 1 ([] ++ [a + 1] ++ [d + 1])) (Classical.propDecidable _) 1 0 =
          if (d + 1) % 2 = 0 then (1 : ℚ) else 0 := fun d _ => by
        by_cases hd : (d + 1) % 2 = 0
        · rw [if_pos hd, if_pos ((hk a d).2 hd)]
        · rw [if_neg hd, if_neg fun h => hd ((hk a d).1 h)]
      rw [Finset.sum_congr rfl hc]
      have := period_sum (fun d => if (d + 1) % 2 = 0 then (1 : ℚ) else 0) 2 (fun d => by
        rw [show d + 2 + 1 = d + 1 + 2 by ring, Nat.add_mod_right]) M 1
      rw [show 1 + 1 * (2 * M) = 2 * M + 1 by ring, this]
      rw [Finset.sum_range_succ, Finset.sum_range_one]
      norm_num
    rw [show 1 + 1 * (2 * M) = 2 * M + 1 by ring] at hin
    simp only [intDraws, meanOver, List.map_cons, List.map_nil, List.sum_cons, List.sum_nil, List.length_cons, List.length_nil, hin,
      Finset.sum_const, Finset.card_range, nsmul_eq_mul]
    have : ((2 * M + 1 : Nat) : ℚ) ≠ 0 := by exact_mod_cast hpos.ne'
    rw [zero_add, Nat.cast_one, div_one, add_zero, mul_div_assoc, mul_div_cancel₀ _ this]
  have hk := key (2 ^ 62 - 1) (by norm_num)
  rw [show 2 * (2 ^ 62 - 1) + 1 = 2 ^ 63 - 1 by norm_num] at hk
  rw [hk] at h
  norm_num at h

/-- A million values with 64-bit ints: within one in ten millions of `1028 / 1000000`. -/
example (i : Nat) (hi : i < 1000000) :
    |chanceOfInts (2 ^ 63 - 1) 1000000 (fun ds => i ∈ keptPositions 1028 ds) - (1028 : ℚ) / 1000000| ≤ 1 / 10 ^ 7 := by
  have h := C164_positions_partial 1028 (2 ^ 63 - 1) 1000000 i (by norm_num) (by norm_num) hi
  refine le_trans (by exact_mod_cast h) ?_
  norm_num

example : (intDraws 3 2).length = 9 ∧ (intDraws 3 2).countP (fun ds => decide (1 ∈ keptPositions 1 ds)) = 3 := by decide +kernel

end Txstatsd
