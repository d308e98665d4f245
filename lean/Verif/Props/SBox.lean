import Verif.Lemmas.SBox
import Verif.Props.Distinct

/-!
# C136, C137: the random hash of the distinct counter
-/

namespace Txstatsd
open Spec

/-! ## C136 -/

/-- C136: an item falls into the first level exactly if its hash is 0 or the sum of the table entries of its bytes is odd. -/
theorem C136_level0 (n : Nat) (hn : 2 ≤ n) (T : Nat → Nat) (item : Str) :
    FallsInto n (sboxHash T item) 0 ↔ sboxHash T item = 0 ∨ entrySum T item % 2 = 1 := by
  rw [level0_iff hn, hash_parity]

/-- C136: if some byte occurs an odd number of times, the chance is one half. The tables come in pairs that differ in the lowest bit of the
entry of this byte, and the hash is odd for exactly one of the two. -/
theorem C136_half_partial (T : Nat → Nat) (hT : Table32 T) (item : Str) (c : Char) (hc : item.count c % 2 = 1) :
    Table32 (flipLow T c.toNat) ∧ flipLow (flipLow T c.toNat) c.toNat = T ∧
    (sboxHash T item % 2 = 1 ↔ ¬ sboxHash (flipLow T c.toNat) item % 2 = 1) := by
  refine ⟨table_flip T hT _, ?_, ?_⟩
  · funext i
    unfold flipLow
    by_cases h : i = c.toNat
    · simp only [h, if_true]; omega
    · simp [h]
  · rw [hash_parity, hash_parity]
    have := entrySum_flip T c item
    omega

example : (c!"abc").count 'b' % 2 = 1 ∧ Table32 (fun b => b % 256) :=
  ⟨by decide, fun b => lt_trans (Nat.mod_lt _ (by norm_num)) (by norm_num)⟩

/-- C136: an item in which every byte occurs an even number of times has an even hash, whatever the table. -/
theorem C136_paired (T : Nat → Nat) (item : Str) (h : Paired item) : sboxHash T item % 2 = 0 := by
  rw [hash_parity]; exact entrySum_paired T item h

/-- C136: so any number of such items is counted like an empty window, unless one of them has the hash 0. -/
theorem C136_unseen [Power] [PowerLaws] (n : Nat) (hn : 2 ≤ n) (tables : List (Nat → Nat)) (hne : tables ≠ []) (since : ℚ) (hs : 0 ≤ since)
    (h : List (ℚ × Str)) (ho : Ordered h) (hp : ∀ item, SeenAfter since h item → Paired item)
    (hz : ∀ T ∈ tables, ∀ item, SeenAfter since h item → sboxHash T item ≠ 0) :
    ∃ c, feed (.init n tables) h = .ok c ∧ c.distinct since = .ok 1 := by
  obtain ⟨c, runs, hf, hr, hv⟩ := C40_value n (by omega) tables hne since hs h ho
  refine ⟨c, hf, ?_⟩
  have hsum : runs.sum = 0 := by
    have hmem : ∀ r ∈ runs, r = 0 := by
      intro r hrm
      obtain ⟨T, hT, hrun⟩ : ∃ T ∈ tables, IsRun n T since h r := by
        clear hv hf hz hne
        induction hr with
        | nil => simp at hrm
        | @cons T r' Ts rs h1 _ ih =>
          rcases List.mem_cons.1 hrm with rfl | hrm
          · exact ⟨T, by simp, h1⟩
          · obtain ⟨T', hT', hx⟩ := ih hrm
            exact ⟨T', by simp [hT'], hx⟩
      apply run_zero (by omega) hrun
      rintro ⟨item, hse, hfi⟩
      rcases (level0_iff hn _).1 hfi with h0 | h1
      · exact hz T hT item hse h0
      · rw [C136_paired T item (hp item hse)] at h1; omega
    exact List.sum_eq_zero hmem
  rw [hv, hsum]
  simp only [Nat.cast_zero, zero_div, PowerLaws.pow2_zero]
  have : truncQ (1 / (77351 / 100000)) = 1 := by decide +kernel
  rw [this]

/-- C136 fails: not every item has a chance to fall into the first level by an odd hash. -/
theorem C136_refuted : ¬ ∀ item : Str, item ≠ [] → ∃ T, Table32 T ∧ sboxHash T item % 2 = 1 := by
  intro h
  obtain ⟨T, _, hT⟩ := h c!"1212" (by decide)
  rw [C136_paired T c!"1212" ?_] at hT
  · omega
  · intro c
    simp only [List.count_cons, List.count_nil]
    split_ifs <;> simp_all

/-- Three different items that every one of 32 hash functions misses. -/
example : ∀ k < 32, ∀ item ∈ [c!"abab", c!"1212", c!"xx"],
    sboxHash (fun b => (2654435761 * (b + 1) * (2 * k + 1) + 12345 * k) % 4294967295) item ≠ 0 ∧
    sboxHash (fun b => (2654435761 * (b + 1) * (2 * k + 1) + 12345 * k) % 4294967295) item % 2 = 0 := by decide +kernel

/-! ## C137 -/

/-- C137: two items that differ in one byte get the same hash exactly if the table has the same entry for the two bytes. -/
theorem C137_one_byte (T : Nat → Nat) (hT : Table32 T) (a b : Str) (x y : Char) :
    sboxHash T (a ++ x :: b) = sboxHash T (a ++ y :: b) ↔ T x.toNat = T y.toNat := hash_one_byte T hT a b x y

/-- C137: items with the same hash have the same hash after anything appended to both; otherwise they differ after it. -/
theorem C137_suffix (T : Nat → Nat) (hT : Table32 T) (a b s : Str) :
    sboxHash T (a ++ s) = sboxHash T (b ++ s) ↔ sboxHash T a = sboxHash T b := by
  simp only [sboxHash_fold, List.foldl_append]
  constructor
  · exact fold_inj T hT s (fold_lt T a 0 (by norm_num)) (fold_lt T b 0 (by norm_num))
  · intro h; rw [h]

/-- C137: `k` different items are never counted as more than `2 ** k / 0.77351`. -/
theorem C137_bound [Power] [PowerLaws] (n : Nat) (hn : 0 < n) (tables : List (Nat → Nat)) (hne : tables ≠ []) (since : ℚ) (hs : 0 ≤ since)
    (h : List (ℚ × Str)) (ho : Ordered h) (items : List Str) (hi : ∀ item, SeenAfter since h item → item ∈ items) :
    ∃ c x, feed (.init n tables) h = .ok c ∧ c.distinct since = .ok x ∧ 1 ≤ x ∧
      x ≤ truncQ (Power.pow2 (items.length : ℚ) / (77351 / 100000)) ∧ x ≤ truncQ (Power.pow2 (n : ℚ) / (77351 / 100000)) := by
  obtain ⟨c, runs, hf, hr, hv⟩ := C40_value n hn tables hne since hs h ho
  refine ⟨c, _, hf, hv, ?_, ?_, ?_⟩
  · have h1 : truncQ (Power.pow2 0 / (77351 / 100000)) = 1 := by
      rw [PowerLaws.pow2_zero]; decide +kernel
    have := estimate_mono (a := 0) (b := (runs.sum : ℚ) / tables.length) (by positivity)
    unfold estimate at this
    rw [h1] at this; exact this
  all_goals
    apply estimate_mono
    have hlen : (0 : ℚ) < tables.length := by
      have := List.length_pos_of_ne_nil hne; exact_mod_cast this
    rw [div_le_iff₀ hlen]
  · have : runs.sum ≤ items.length * tables.length := by
      clear hv hf hlen hne
      induction hr with
      | nil => simp
      | cons h1 _ ih =>
        have := run_le_items h1 items hi
        simp only [List.sum_cons, List.length_cons]
        nlinarith
    exact_mod_cast this
  · have : runs.sum ≤ n * tables.length := by
      clear hv hf hlen hne
      induction hr with
      | nil => simp
      | cons h1 _ ih =>
        have := h1.1
        simp only [List.sum_cons, List.length_cons]
        nlinarith
    exact_mod_cast this

example : Ordered [((1 : ℚ), c!"a"), (2, c!"b"), (3, c!"a")] ∧
    ∀ item, SeenAfter 1 [((1 : ℚ), c!"a"), (2, c!"b"), (3, c!"a")] item → item ∈ [c!"b", c!"a"] := by
  constructor
  · simp [Ordered]; norm_num
  · rintro item ⟨t, ht, hm⟩
    simp only [List.mem_cons, Prod.mk.injEq, List.not_mem_nil, or_false] at hm ⊢
    rcases hm with ⟨_, e⟩ | ⟨_, e⟩ | ⟨_, e⟩ <;> simp [e]

end Txstatsd
