import Verif.Lemmas.SBoxEstimate

set_option linter.unusedSectionVars false
set_option linter.unusedSimpArgs false
set_option linter.unusedVariables false

/-!
# The estimate with random tables: C152
-/

namespace Txstatsd
open Spec

/-- C152: if at most `2^l` items were seen, each with a byte that occurs an odd number of times, the runs of `k` hash functions have a
mean of `l + d` or more with a share of at most `(2 (2/3)^d)^k` of the tables. -/
theorem C152_long (items : List Str) (hu : ∀ a ∈ items, Bytes a ∧ Unalike a []) (n : ℕ) (hn : n ≤ 33) (since : ℚ) (h : List (ℚ × Str))
    (hs : ∀ a, SeenAfter since h a → a ∈ items) (l : ℕ) (hl : 1 ≤ l) (hm : items.length ≤ 2 ^ l) (k d : ℕ) :
    howMany (fun T : Fin k → Tables => ∃ runs, List.Forall₂ (fun t r => IsRun n t since h r) (tablesOf T) runs ∧ k * (l + d) ≤ runs.sum) *
      3 ^ (k * d) ≤ 2 ^ (k * (d + 1)) * howMany (fun _ : Fin k → Tables => True) := by
  have hlong : ∀ j, 0 < j → j + 1 < n → howMany (fun t => j < runOf n since h t) * 2 ^ (j + 1) ≤ 2 ^ l * Fintype.card Tables := by
    intro j h0 hj
    have h1 := C151_run_long items hu n j h0 hj (by omega) since h hs
    rw [howMany_true] at h1
    have h2 : howMany (fun t => j < runOf n since h t) ≤ howMany (fun t => ∃ r > j, IsRun n (entriesOf t) since h r) :=
      howMany_mono fun t ht => ⟨_, ht, runOf_spec n since h t⟩
    exact (Nat.mul_le_mul_right _ h2).trans (h1.trans (Nat.mul_le_mul_right _ hm))
  have hw := long_weight (runOf n since h) n l hl (fun t => (runOf_spec n since h t).1) hlong
  have ht := sum_tail (fun t => runOf n since h t - l) hw k d
  rw [← howMany_true] at ht
  refine le_trans (Nat.mul_le_mul_right _ (howMany_mono fun T hT => ?_)) ht
  obtain ⟨runs, hr, hsum⟩ := hT
  rw [runs_sum hr] at hsum
  have h1 : ∑ i, runOf n since h (T i) ≤ ∑ i : Fin k, ((runOf n since h (T i) - l) + l) := Finset.sum_le_sum fun i _ => by omega
  rw [Finset.sum_add_distrib] at h1
  simp only [Finset.sum_const, Finset.card_univ, Fintype.card_fin, smul_eq_mul] at h1
  rw [Nat.mul_add] at hsum
  omega

/-- C152: if at least `2^l` unalike items were seen, the runs have a mean of `l - 2 - d` or less with a share of at most
`(2 (2/3)^d)^k`. -/
theorem C152_short (items : List Str) (hu : AllUnalike items) (n : ℕ) (since : ℚ) (h : List (ℚ × Str))
    (hs : ∀ a ∈ items, SeenAfter since h a) (l : ℕ) (hn : l ≤ n + 1) (h33 : l ≤ 33) (hm : 2 ^ l ≤ items.length) (k d : ℕ) :
    howMany (fun T : Fin k → Tables => ∃ runs, List.Forall₂ (fun t r => IsRun n t since h r) (tablesOf T) runs ∧
      runs.sum + k * (d + 2) ≤ k * l) * 3 ^ (k * d) ≤ 2 ^ (k * (d + 1)) * howMany (fun _ : Fin k → Tables => True) := by
  have hshort : ∀ j, j + 2 < l → howMany (fun t => runOf n since h t ≤ j) * 2 ^ l ≤ 2 ^ (j + 2) * Fintype.card Tables := by
    intro j hj
    have h1 := C151_run_short items hu n j (by omega) (by omega) since h hs
    rw [howMany_true] at h1
    have h2 : howMany (fun t => runOf n since h t ≤ j) ≤ howMany (fun t => ∃ r ≤ j, IsRun n (entriesOf t) since h r) :=
      howMany_mono fun t ht => ⟨_, ht, runOf_spec n since h t⟩
    exact (Nat.mul_le_mul h2 hm).trans h1
  have hw := short_weight (runOf n since h) l hshort
  have ht := sum_tail (fun t => l - 2 - runOf n since h t) hw k d
  rw [← howMany_true] at ht
  refine le_trans (Nat.mul_le_mul_right _ (howMany_mono fun T hT => ?_)) ht
  obtain ⟨runs, hr, hsum⟩ := hT
  rw [runs_sum hr] at hsum
  have h1 : ∑ i : Fin k, l ≤ ∑ i : Fin k, ((l - 2 - runOf n since h (T i)) + runOf n since h (T i) + 2) :=
    Finset.sum_le_sum fun i _ => by omega
  rw [Finset.sum_add_distrib, Finset.sum_add_distrib] at h1
  simp only [Finset.sum_const, Finset.card_univ, Fintype.card_fin, smul_eq_mul] at h1
  rw [Nat.mul_add] at hsum
  omega

section
variable [Rounding] [Ieee] [FloatPow] [FloatPowLaws]

/-- C152: if at most `2^l` items were seen, each with a byte that occurs an odd number of times, the number reported is above
`2^(l + d) / 0.77351` with a share of at most `(2 (2/3)^d)^k`. -/
theorem C152_above (items : List Str) (hu : ∀ a ∈ items, Bytes a ∧ Unalike a []) (n : ℕ) (h0 : 0 < n) (hn : n ≤ 33) (since : ℚ)
    (hs0 : 0 ≤ since) (h : List (ℚ × Str)) (ho : Ordered h) (hs : ∀ a, SeenAfter since h a → a ∈ items) (l : ℕ) (hl : 1 ≤ l)
    (hm : items.length ≤ 2 ^ l) (k j : ℕ) (hk : k = 2 ^ j) (hj : j ≤ 30) (d : ℕ) :
    howMany (fun T : Fin k → Tables => ∃ e, Reports n (tablesOf T) h since e ∧ (2 : ℚ) ^ (l + d) / (77351 / 100000) < e) *
      3 ^ (k * d) ≤ 2 ^ (k * (d + 1)) * howMany (fun _ : Fin k → Tables => True) := by
  refine le_trans (Nat.mul_le_mul_right _ (howMany_mono fun T hT => ?_)) (C152_long items hu n hn since h hs l hl hm k d)
  obtain ⟨e, he, hlt⟩ := hT
  obtain ⟨runs, hr, hup, -⟩ := report_bounds h0 (by omega) hj (by rw [tablesOf, List.length_ofFn, hk]) hs0 ho he
  refine ⟨runs, hr, ?_⟩
  by_contra hc
  have hle : runs.sum ≤ k * 33 := by
    rw [runs_sum hr]
    calc ∑ i, runOf n since h (T i) ≤ ∑ _i : Fin k, 33 := Finset.sum_le_sum fun i _ => (runOf_spec n since h (T i)).1.trans hn
      _ = k * 33 := by simp
  have hx : runs.sum ≤ 2 ^ j * min (l + d) 33 := by
    rw [← hk]
    rcases le_total (l + d) 33 with hld | hld
    · rw [min_eq_left hld]; omega
    · rw [min_eq_right hld]; exact hle
  have h1 := hup (min (l + d) 33) (min_le_right _ _) hx
  have h2 : (2 : ℚ) ^ min (l + d) 33 ≤ 2 ^ (l + d) := pow_le_pow_right₀ (by norm_num) (min_le_left _ _)
  have h3 : (2 : ℚ) ^ min (l + d) 33 / (77351 / 100000) ≤ 2 ^ (l + d) / (77351 / 100000) := by gcongr
  linarith

/-- C152: if at least `2^(x + d + 2)` unalike items were seen, the number reported is below `2^x / 0.77351 - 1` with a share of at
most `(2 (2/3)^d)^k`. -/
theorem C152_below (items : List Str) (hu : AllUnalike items) (n : ℕ) (h0 : 0 < n) (hn : n ≤ 33) (since : ℚ) (hs0 : 0 ≤ since)
    (h : List (ℚ × Str)) (ho : Ordered h) (hs : ∀ a ∈ items, SeenAfter since h a) (x d : ℕ) (hx : x + d + 1 ≤ n) (h31 : x + d ≤ 31)
    (hm : 2 ^ (x + d + 2) ≤ items.length) (k j : ℕ) (hk : k = 2 ^ j) (hj : j ≤ 30) :
    howMany (fun T : Fin k → Tables => ∃ e, Reports n (tablesOf T) h since e ∧ (e : ℚ) + 1 ≤ (2 : ℚ) ^ x / (77351 / 100000)) *
      3 ^ (k * d) ≤ 2 ^ (k * (d + 1)) * howMany (fun _ : Fin k → Tables => True) := by
  refine le_trans (Nat.mul_le_mul_right _ (howMany_mono fun T hT => ?_))
    (C152_short items hu n since h hs (x + d + 2) (by omega) (by omega) hm k d)
  obtain ⟨e, he, hlt⟩ := hT
  obtain ⟨runs, hr, -, hlow⟩ := report_bounds h0 (by omega) hj (by rw [tablesOf, List.length_ofFn, hk]) hs0 ho he
  refine ⟨runs, hr, ?_⟩
  by_contra hc
  have hsum : 2 ^ j * x ≤ runs.sum := by
    rw [← hk]
    have e1 : k * (x + d + 2) = k * x + k * (d + 2) := by ring
    omega
  have := hlow x (by omega) hsum
  linarith

/-- C152: the counter of a reporter, with 32 buckets and 32 tables drawn at random: if the `m` items seen in the window are unalike,
it reports more than `21 m`, or so little that `m > 50 (e + 1)`, with fewer than one in a million draws. -/
theorem C152_million (items : List Str) (hu : AllUnalike items) (since : ℚ) (hs0 : 0 ≤ since) (h : List (ℚ × Str)) (ho : Ordered h)
    (hs : ∀ a, SeenAfter since h a ↔ a ∈ items) (hm : 1 ≤ items.length) (hm2 : items.length ≤ 2 ^ 32) :
    howMany (fun T : Fin 32 → Tables => Drawn T ∧ ∃ e, Reports 32 (tablesOf T) h since e ∧
      (21 * (items.length : ℤ) < e ∨ 50 * (e + 1) < items.length)) * 10 ^ 6 ≤ howMany (fun T : Fin 32 → Tables => Drawn T) := by
  obtain ⟨l, hlog1, hlog2, hlog3⟩ := log_bounds hm hm2
  clear hm2
  have ha := C152_above items hu.1 32 (by norm_num) (by norm_num) since hs0 h ho (fun a ha => (hs a).1 ha) (l + 1)
    (by omega) hlog2.le 32 5 (by norm_num) (by norm_num) 3
  have hb : howMany (fun T : Fin 32 → Tables => ∃ e, Reports 32 (tablesOf T) h since e ∧ 50 * (e + 1) < items.length) * 3 ^ (32 * 3) ≤
      2 ^ (32 * (3 + 1)) * howMany (fun _ : Fin 32 → Tables => True) := by
    by_cases h5 : 5 ≤ l
    · have hb := C152_below items hu 32 (by norm_num) (by norm_num) since hs0 h ho (fun a ha => (hs a).2 ha)
        (l - 5) 3 (by omega) (by omega) (by rw [show l - 5 + 3 + 2 = l by omega]; exact hlog1)
        32 5 (by norm_num) (by norm_num)
      refine le_trans (Nat.mul_le_mul_right _ (howMany_mono fun T hT => ?_)) hb
      obtain ⟨e, he, hlt⟩ := hT
      exact ⟨e, he, not_below h5 hlog2 hlt⟩
    · rw [howMany_none]
      · rw [Nat.zero_mul]; exact Nat.zero_le _
      · rintro T ⟨e, he, hlt⟩
        obtain ⟨runs, hr, -, hlow⟩ := report_bounds (j := 5) (by norm_num) (by norm_num) (by norm_num)
          (by rw [tablesOf, List.length_ofFn]; norm_num) hs0 ho he
        exact not_small h5 hlog2 hlt (hlow 0 (by norm_num) (by simp))
  refine share_sum ha hb (le_trans (howMany_mono fun T hT => ?_) (howMany_or _ _)) drawn_most
  obtain ⟨-, e, he, hlt | hlt⟩ := hT
  · exact .inl ⟨e, he, not_above hlog1 hlt⟩
  · exact .inr ⟨e, he, hlt⟩

/-- C152: and it does report a number, only one, whatever the tables. -/
theorem C152_reports (n : ℕ) (h0 : 0 < n) (hn : n ≤ 33) (since : ℚ) (hs0 : 0 ≤ since) (h : List (ℚ × Str)) (ho : Ordered h) (k j : ℕ)
    (hk : k = 2 ^ j) (hj : j ≤ 30) (T : Fin k → Tables) : ∃! e, Reports n (tablesOf T) h since e := by
  obtain ⟨c, runs, w, e, hc, -, -, he, -⟩ :=
    C140_value n h0 (by omega) j hj (tablesOf T) (by rw [tablesOf, List.length_ofFn, hk]) since hs0 h ho
  refine ⟨e, ⟨c, hc, he⟩, ?_⟩
  rintro e' ⟨c', hc', he'⟩
  rw [hc] at hc'
  cases hc'
  rw [he] at he'
  cases he'
  rfl

end

/-- Four items, in a window without a fifth one. -/
example : Ordered [(1, c!"x"), (5, c!"1"), (6, c!"2"), (6, c!"12"), (8, c!"123"), (9, c!"2")] ∧
    ∀ a, SeenAfter 4 [(1, c!"x"), (5, c!"1"), (6, c!"2"), (6, c!"12"), (8, c!"123"), (9, c!"2")] a ↔
      a ∈ [c!"1", c!"2", c!"12", c!"123"] := by
  refine ⟨by unfold Ordered; decide +kernel, fun a => ?_⟩
  simp only [SeenAfter, List.mem_cons, Prod.mk.injEq, List.not_mem_nil, or_false]
  constructor
  · rintro ⟨t, ht, h⟩
    rcases h with ⟨rfl, rfl⟩ | ⟨rfl, rfl⟩ | ⟨rfl, rfl⟩ | ⟨rfl, rfl⟩ | ⟨rfl, rfl⟩ | ⟨rfl, rfl⟩
    · norm_num at ht
    all_goals simp
  · rintro (rfl | rfl | rfl | rfl)
    · exact ⟨5, by norm_num, by simp⟩
    · exact ⟨6, by norm_num, by simp⟩
    · exact ⟨6, by norm_num, by simp⟩
    · exact ⟨8, by norm_num, by simp⟩

end Txstatsd
