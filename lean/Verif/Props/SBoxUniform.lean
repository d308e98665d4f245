import Verif.Lemmas.SBoxUniform

set_option linter.unusedSimpArgs false
set_option linter.unusedVariables false

/-!
# C151: how often the distinct counter is far off
-/

namespace Txstatsd
open Spec

theorem words_one {y : ℕ} (hy : y < 2 ^ 32) : howManyWords (fun x => x = y) = 1 := by
  have key : ∀ N, y < N → howMany (fun x : Fin N => (x : ℕ) = y) = 1 := by
    intro N hN
    rw [howMany_range N (fun x => x = y)]
    have : (Finset.range N).filter (fun x => x = y) = {y} := by
      ext x
      simp only [Finset.mem_filter, Finset.mem_range, Finset.mem_singleton]
      constructor
      · exact fun h => h.2
      · rintro rfl
        exact ⟨hN, rfl⟩
    rw [this, Finset.card_singleton]
  exact key _ hy

/-- C151: an item in which some byte occurs an odd number of times has each of the 2^32 hash values with as many tables. -/
theorem C151_value (a : Str) (ha : Bytes a) (ua : Unalike a []) (y : ℕ) (hy : y < 2 ^ 32) :
    howMany (fun t => hashWith t a = y) * 2 ^ 32 = howMany (fun _ : Tables => True) := by
  have := count_hash ha ua (fun x => x = y)
  rw [words_one hy] at this
  generalize howMany (fun t => hashWith t a = y) = X at *
  generalize howMany (fun _ : Tables => True) = M at *
  omega

/-- C151: the hashes of two unalike items are independent: each pair of values is had with as many tables. -/
theorem C151_values (a b : Str) (h : AllUnalike [a, b]) (y z : ℕ) (hy : y < 2 ^ 32) (hz : z < 2 ^ 32) :
    howMany (fun t => hashWith t a = y ∧ hashWith t b = z) * (2 ^ 32 * 2 ^ 32) = howMany (fun _ : Tables => True) := by
  have h1 := h.1 a (by simp)
  have h2 := h.1 b (by simp)
  have h3 : Unalike a b := by simpa using h.2
  obtain ⟨c, d, hcd, hc, hd, hdet⟩ := unalike_det h1.1 h2.1 h1.2 h2.2 h3
  have := count_hashes hcd hc hd hdet (fun x => x = y) (fun x => x = z)
  rw [words_one hy, words_one hz] at this
  generalize howMany (fun t => hashWith t a = y ∧ hashWith t b = z) = X at *
  generalize howMany (fun _ : Tables => True) = M at *
  omega

/-- C151: the hashes of two items that are alike are odd or even together, with every table. -/
theorem C151_alike (a b : Str) (h : ¬ Unalike a b) (t : Tables) : hashWith t a % 2 = hashWith t b % 2 := by
  have hp : Paired (a ++ b) := by
    intro c
    by_contra hc
    refine h ⟨c, ?_⟩
    rw [List.count_append] at hc
    omega
  have h1 := entrySum_paired (entriesOf t) (a ++ b) hp
  have h2 : entrySum (entriesOf t) (a ++ b) = entrySum (entriesOf t) a + entrySum (entriesOf t) b := by
    simp [entrySum]
  unfold hashWith
  rw [hash_parity, hash_parity]
  omega

/-- C151: a set of hash values is met by none of `m` unalike items with a share of at most `(2^32 - K) / (m * K)` of the tables,
where `K` is the size of the set. -/
theorem C151_missed (items : List Str) (h : AllUnalike items) (P : ℕ → Prop) :
    howMany (fun t => ∀ a ∈ items, ¬ P (hashWith t a)) * (items.length * howManyWords P) ≤
      (2 ^ 32 - howManyWords P) * howMany (fun _ : Tables => True) := by
  have hK : howManyWords P ≤ 2 ^ 32 := by
    rw [← words_true]
    exact howMany_mono fun _ _ => trivial
  have c2 : ∀ i j : Fin items.length, i ≠ j →
      howMany (fun t => P (hashWith t (items.get i)) ∧ P (hashWith t (items.get j))) * (2 ^ 32 * 2 ^ 32) =
        howManyWords P * howManyWords P * howMany (fun _ : Tables => True) := by
    intro i j hij
    have hi := h.1 _ (List.get_mem items i)
    have hj := h.1 _ (List.get_mem items j)
    have hu : Unalike (items.get i) (items.get j) := by
      rcases Nat.lt_or_gt_of_ne (fun e => hij (Fin.ext e)) with hl | hl
      · exact List.pairwise_iff_get.1 h.2 i j hl
      · obtain ⟨c, hc⟩ := List.pairwise_iff_get.1 h.2 j i hl
        exact ⟨c, by rw [Nat.add_comm]; exact hc⟩
    obtain ⟨c, d, hcd, hc, hd, hdet⟩ := unalike_det hi.1 hj.1 hi.2 hj.2 hu
    exact count_hashes hcd hc hd hdet P P
  have hcongr : howMany (fun t => ∀ a ∈ items, ¬ P (hashWith t a)) = howMany (fun t => ∀ i : Fin items.length, ¬ P (hashWith t (items.get i))) := by
    refine howMany_congr fun t => ?_
    constructor
    · exact fun ht i => ht _ (List.get_mem items i)
    · intro ht a ha
      obtain ⟨i, rfl⟩ := List.mem_iff_get.1 ha
      exact ht i
  rw [hcongr]
  have := missed_nat (fun (i : Fin items.length) t => P (hashWith t (items.get i))) (2 ^ 32) (howManyWords P) (by norm_num) hK
    (fun i => count_hash (h.1 _ (List.get_mem items i)).1 (h.1 _ (List.get_mem items i)).2 P) c2
  rwa [Fintype.card_fin] at this

/-- C151: and by some of `m` items with a share of at most `m * K / 2^32`. -/
theorem C151_met (items : List Str) (h : ∀ a ∈ items, Bytes a ∧ Unalike a []) (P : ℕ → Prop) :
    howMany (fun t => ∃ a ∈ items, P (hashWith t a)) * 2 ^ 32 ≤ items.length * howManyWords P * howMany (fun _ : Tables => True) := by
  induction items with
  | nil => rw [howMany_none (by simp)]; simp
  | cons a items ih =>
    have h1 := count_hash (h a (by simp)).1 (h a (by simp)).2 P
    have h2 := ih fun x hx => h x (by simp [hx])
    have h3 : howMany (fun t => ∃ x ∈ a :: items, P (hashWith t x)) ≤
        howMany (fun t => P (hashWith t a)) + howMany (fun t => ∃ x ∈ items, P (hashWith t x)) := by
      rw [howMany_congr (Q := fun t => P (hashWith t a) ∨ ∃ x ∈ items, P (hashWith t x)) (fun t => by simp)]
      exact howMany_or _ _
    rw [List.length_cons]
    generalize howMany (fun t => ∃ x ∈ a :: items, P (hashWith t x)) = x at *
    generalize howMany (fun t => P (hashWith t a)) = y at *
    generalize howMany (fun t => ∃ x ∈ items, P (hashWith t x)) = z at *
    generalize howMany (fun _ : Tables => True) = M at *
    generalize howManyWords P = K at *
    generalize items.length = m at *
    calc x * 2 ^ 32 ≤ (y + z) * 2 ^ 32 := Nat.mul_le_mul_right _ h3
      _ = y * 2 ^ 32 + z * 2 ^ 32 := by ring
      _ ≤ K * M + m * K * M := by rw [h1]; exact Nat.add_le_add_left h2 _
      _ = (m + 1) * K * M := by ring

theorem level0_share {X m M : ℕ} (key : X * (m * (2 ^ 31 + 1)) ≤ (2 ^ 32 - (2 ^ 31 + 1)) * M) : X * m ≤ (2 ^ (0 + 1) - 1) * M := by
  rw [show (2 ^ 32 - (2 ^ 31 + 1) : ℕ) = 2147483647 by norm_num, show (2 ^ 31 + 1 : ℕ) = 2147483649 by norm_num, ← Nat.mul_assoc] at key
  rw [show (2 ^ (0 + 1) - 1 : ℕ) = 1 by norm_num]
  omega

/-- C151: among `m` unalike items none falls into level `j` with a share of less than `2^(j + 1) / m` of the tables. -/
theorem C151_level (items : List Str) (h : AllUnalike items) (n j : ℕ) (hj : j + 1 < n) (h32 : j < 32) :
    howMany (fun t => ∀ a ∈ items, ¬ FallsInto n (hashWith t a) j) * items.length ≤
      (2 ^ (j + 1) - 1) * howMany (fun _ : Tables => True) := by
  have key := C151_missed items h (fun x => FallsInto n x j)
  rcases Nat.eq_zero_or_pos j with rfl | h0
  · rw [words_level0 (by omega)] at key
    generalize howMany (fun t => ∀ a ∈ items, ¬ FallsInto n (hashWith t a) 0) = X at *
    generalize howMany (fun _ : Tables => True) = M at *
    generalize items.length = m at *
    exact level0_share key
  · rw [words_level h0 hj h32] at key
    generalize howMany (fun t => ∀ a ∈ items, ¬ FallsInto n (hashWith t a) j) = X at *
    generalize howMany (fun _ : Tables => True) = M at *
    generalize items.length = m at *
    have e : 2 ^ 32 = 2 ^ (31 - j) * 2 ^ (j + 1) := by rw [← pow_add]; congr 1; omega
    rw [e, show 2 ^ (31 - j) * 2 ^ (j + 1) - 2 ^ (31 - j) = 2 ^ (31 - j) * (2 ^ (j + 1) - 1) by rw [Nat.mul_sub, Nat.mul_one]] at key
    have hp : 0 < 2 ^ (31 - j) := Nat.two_pow_pos _
    refine Nat.le_of_mul_le_mul_left ?_ hp
    calc 2 ^ (31 - j) * (X * m) = X * (m * 2 ^ (31 - j)) := by ring
      _ ≤ _ := key
      _ = _ := by ring

/-- C151: if `m` unalike items were seen in a window, the run of hit levels stops at or before level `j` with a share of less than
`2^(j + 2) / m` of the tables. -/
theorem C151_run_short (items : List Str) (hu : AllUnalike items) (n j : ℕ) (hj : j + 1 < n) (h32 : j < 32) (since : ℚ)
    (h : List (ℚ × Str)) (hs : ∀ a ∈ items, SeenAfter since h a) :
    howMany (fun t => ∃ r ≤ j, IsRun n (entriesOf t) since h r) * items.length ≤ 2 ^ (j + 2) * howMany (fun _ : Tables => True) := by
  have h1 : howMany (fun t => ∃ r ≤ j, IsRun n (entriesOf t) since h r) ≤
      howMany (fun t => ∃ i < j + 1, ∀ a ∈ items, ¬ FallsInto n (hashWith t a) i) := by
    refine howMany_mono fun t => ?_
    rintro ⟨r, hr, hrun⟩
    exact ⟨r, by omega, fun a ha hf => hrun.2.2 (by omega) ⟨a, hs a ha, hf⟩⟩
  have h2 : ∀ k ≤ j + 1, howMany (fun t => ∃ i < k, ∀ a ∈ items, ¬ FallsInto n (hashWith t a) i) * items.length ≤
      (2 ^ (k + 1)) * howMany (fun _ : Tables => True) := by
    intro k
    induction k with
    | zero => intro _; rw [howMany_none (by simp)]; simp
    | succ k ih =>
      intro hk
      have g1 := ih (by omega)
      have g2 := C151_level items hu n k (by omega) (by omega)
      have g3 : howMany (fun t => ∃ i < k + 1, ∀ a ∈ items, ¬ FallsInto n (hashWith t a) i) ≤
          howMany (fun t => ∃ i < k, ∀ a ∈ items, ¬ FallsInto n (hashWith t a) i) +
          howMany (fun t => ∀ a ∈ items, ¬ FallsInto n (hashWith t a) k) := by
        refine le_trans (howMany_mono fun t => ?_) (howMany_or _ _)
        rintro ⟨i, hi, ha⟩
        rcases Nat.lt_succ_iff_lt_or_eq.1 hi with hlt | rfl
        · exact .inl ⟨i, hlt, ha⟩
        · exact .inr ha
      generalize howMany (fun t => ∃ i < k + 1, ∀ a ∈ items, ¬ FallsInto n (hashWith t a) i) = x at *
      generalize howMany (fun t => ∃ i < k, ∀ a ∈ items, ¬ FallsInto n (hashWith t a) i) = y at *
      generalize howMany (fun t => ∀ a ∈ items, ¬ FallsInto n (hashWith t a) k) = z at *
      generalize howMany (fun _ : Tables => True) = M at *
      generalize items.length = m at *
      calc x * m ≤ (y + z) * m := Nat.mul_le_mul_right _ g3
        _ = y * m + z * m := by ring
        _ ≤ 2 ^ (k + 1) * M + (2 ^ (k + 1) - 1) * M := Nat.add_le_add g1 g2
        _ ≤ 2 ^ (k + 1) * M + 2 ^ (k + 1) * M := Nat.add_le_add_left (Nat.mul_le_mul_right _ (Nat.sub_le _ _)) _
        _ = 2 ^ (k + 1 + 1) * M := by ring
  exact le_trans (Nat.mul_le_mul_right _ h1) (h2 (j + 1) le_rfl)

/-- C151: if no more than `m` items were seen, in each of which some byte occurs an odd number of times, the run goes beyond level
`j` with a share of at most `m / 2^(j + 1)` of the tables. -/
theorem C151_run_long (items : List Str) (hu : ∀ a ∈ items, Bytes a ∧ Unalike a []) (n j : ℕ) (h0 : 0 < j) (hj : j + 1 < n)
    (h32 : j < 32) (since : ℚ) (h : List (ℚ × Str)) (hs : ∀ a, SeenAfter since h a → a ∈ items) :
    howMany (fun t => ∃ r > j, IsRun n (entriesOf t) since h r) * 2 ^ (j + 1) ≤ items.length * howMany (fun _ : Tables => True) := by
  have h1 : howMany (fun t => ∃ r > j, IsRun n (entriesOf t) since h r) ≤ howMany (fun t => ∃ a ∈ items, FallsInto n (hashWith t a) j) := by
    refine howMany_mono fun t => ?_
    rintro ⟨r, hr, hrun⟩
    obtain ⟨a, ha, hf⟩ := hrun.2.1 j hr
    exact ⟨a, hs a ha, hf⟩
  have h2 := C151_met items hu (fun x => FallsInto n x j)
  rw [words_level h0 hj h32] at h2
  generalize howMany (fun t => ∃ r > j, IsRun n (entriesOf t) since h r) = x at *
  generalize howMany (fun t => ∃ a ∈ items, FallsInto n (hashWith t a) j) = y at *
  generalize howMany (fun _ : Tables => True) = M at *
  generalize items.length = m at *
  have e : 2 ^ 32 = 2 ^ (j + 1) * 2 ^ (31 - j) := by rw [← pow_add]; congr 1; omega
  rw [e] at h2
  have hp : 0 < 2 ^ (31 - j) := Nat.two_pow_pos _
  refine Nat.le_of_mul_le_mul_right ?_ hp
  calc x * 2 ^ (j + 1) * 2 ^ (31 - j) ≤ y * 2 ^ (j + 1) * 2 ^ (31 - j) :=
        Nat.mul_le_mul_right _ (Nat.mul_le_mul_right _ h1)
    _ = y * (2 ^ (j + 1) * 2 ^ (31 - j)) := by ring
    _ ≤ m * 2 ^ (31 - j) * M := h2
    _ = m * M * 2 ^ (31 - j) := by ring

example : AllUnalike [c!"1", c!"2", c!"12", c!"122"] → False := by
  intro h
  have := h.2
  simp only [List.pairwise_cons] at this
  obtain ⟨c, hc⟩ := this.1 c!"122" (by simp)
  simp only [List.count_cons, List.count_nil] at hc
  split at hc <;> split at hc <;> simp_all

example : AllUnalike [c!"1", c!"2", c!"12", c!"123"] := by
  refine ⟨?_, ?_⟩
  · intro a ha
    simp only [List.mem_cons, List.not_mem_nil, or_false] at ha
    rcases ha with rfl | rfl | rfl | rfl
    · exact ⟨by unfold Bytes; decide, '1', by decide⟩
    · exact ⟨by unfold Bytes; decide, '2', by decide⟩
    · exact ⟨by unfold Bytes; decide, '1', by decide⟩
    · exact ⟨by unfold Bytes; decide, '1', by decide⟩
  · simp only [List.pairwise_cons, List.mem_cons, List.not_mem_nil, or_false, forall_eq_or_imp, forall_eq]
    exact ⟨⟨⟨'1', by decide⟩, ⟨'2', by decide⟩, ⟨'2', by decide⟩⟩, ⟨⟨'1', by decide⟩, ⟨'1', by decide⟩⟩, ⟨'3', by decide⟩, by simp⟩

end Txstatsd
