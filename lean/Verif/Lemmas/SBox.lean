import Verif.Spec.SBox
import Verif.Lemmas.Distinct
import Mathlib.Algebra.BigOperators.Group.Finset.Basic
import Mathlib.Data.Nat.Bitwise
import Mathlib.Algebra.BigOperators.Ring.Finset
import Mathlib.Data.Fintype.Card
import Mathlib.Data.Int.ModEq
import Mathlib.Data.Nat.ModEq

set_option linter.unusedSectionVars false
set_option linter.unusedSimpArgs false
set_option linter.unusedVariables false

/-!
# Lemmas about the random hash
-/

namespace Txstatsd
open Spec

/-- One step of the hash. -/
def sboxStep (T : Nat → Nat) (v : Nat) (c : Char) : Nat := ((v ^^^ T c.toNat) * 3) &&& 0xFFFFFFFF

theorem sboxStep_eq (T : Nat → Nat) (v : Nat) (c : Char) : sboxStep T v c = ((v ^^^ T c.toNat) * 3) % 2 ^ 32 := by
  unfold sboxStep
  rw [show 0xFFFFFFFF = 2 ^ 32 - 1 by norm_num, Nat.and_two_pow_sub_one_eq_mod]

theorem sboxHash_fold (T : Nat → Nat) (s : Str) : sboxHash T s = s.foldl (sboxStep T) 0 := rfl

theorem sboxStep_lt (T : Nat → Nat) (v : Nat) (c : Char) : sboxStep T v c < 2 ^ 32 := by
  rw [sboxStep_eq]; exact Nat.mod_lt _ (by norm_num)

theorem fold_lt (T : Nat → Nat) (s : Str) (v : Nat) (hv : v < 2 ^ 32) : s.foldl (sboxStep T) v < 2 ^ 32 := by
  induction s generalizing v with
  | nil => exact hv
  | cons c s ih => exact ih _ (sboxStep_lt T v c)

theorem sboxStep_parity (T : Nat → Nat) (v : Nat) (c : Char) : sboxStep T v c % 2 = (v + T c.toNat) % 2 := by
  rw [sboxStep_eq, Nat.mod_mod_of_dvd _ (by norm_num : 2 ∣ 2 ^ 32)]
  have := Nat.xor_mod_two_eq (m := v) (n := T c.toNat)
  omega

theorem fold_parity (T : Nat → Nat) (s : Str) (v : Nat) : s.foldl (sboxStep T) v % 2 = (v + entrySum T s) % 2 := by
  induction s generalizing v with
  | nil => simp [entrySum]
  | cons c s ih =>
    rw [List.foldl_cons, ih]
    have := sboxStep_parity T v c
    simp only [entrySum, List.map_cons, List.sum_cons] at *
    omega

theorem hash_parity (T : Nat → Nat) (s : Str) : sboxHash T s % 2 = entrySum T s % 2 := by
  rw [sboxHash_fold, fold_parity]; simp

theorem times3_inj {a b : Nat} (ha : a < 2 ^ 32) (hb : b < 2 ^ 32) (h : a * 3 % 2 ^ 32 = b * 3 % 2 ^ 32) : a = b := by
  have h1 : Nat.ModEq (2 ^ 32) (a * 3) (b * 3) := h
  have h2 : Nat.ModEq (2 ^ 32) a b := Nat.ModEq.cancel_right_of_coprime (by decide) h1
  exact Nat.ModEq.eq_of_lt_of_lt h2 ha hb

theorem xor_lt {a b : Nat} (ha : a < 2 ^ 32) (hb : b < 2 ^ 32) : a ^^^ b < 2 ^ 32 := Nat.xor_lt_two_pow ha hb

theorem sboxStep_inj (T : Nat → Nat) (hT : Table32 T) {v w : Nat} (hv : v < 2 ^ 32) (hw : w < 2 ^ 32) (c : Char)
    (h : sboxStep T v c = sboxStep T w c) : v = w := by
  rw [sboxStep_eq, sboxStep_eq] at h
  exact Nat.xor_left_injective (x := T c.toNat) (times3_inj (xor_lt hv (hT _)) (xor_lt hw (hT _)) h)

theorem fold_inj (T : Nat → Nat) (hT : Table32 T) (s : Str) {v w : Nat} (hv : v < 2 ^ 32) (hw : w < 2 ^ 32)
    (h : s.foldl (sboxStep T) v = s.foldl (sboxStep T) w) : v = w := by
  induction s generalizing v w with
  | nil => exact h
  | cons c s ih => exact sboxStep_inj T hT hv hw c (ih (sboxStep_lt T v c) (sboxStep_lt T w c) h)

theorem hash_one_byte (T : Nat → Nat) (hT : Table32 T) (a b : Str) (x y : Char) :
    sboxHash T (a ++ x :: b) = sboxHash T (a ++ y :: b) ↔ T x.toNat = T y.toNat := by
  simp only [sboxHash_fold, List.foldl_append, List.foldl_cons]
  set v := a.foldl (sboxStep T) 0
  have hv : v < 2 ^ 32 := fold_lt T a 0 (by norm_num)
  constructor
  · intro h
    have := fold_inj T hT b (sboxStep_lt T v x) (sboxStep_lt T v y) h
    rw [sboxStep_eq, sboxStep_eq] at this
    exact Nat.xor_right_injective (x := v) (times3_inj (xor_lt hv (hT _)) (xor_lt hv (hT _)) this)
  · intro h
    have : sboxStep T v x = sboxStep T v y := by unfold sboxStep; rw [h]
    rw [this]

theorem entrySum_paired (T : Nat → Nat) (s : Str) (h : Paired s) : entrySum T s % 2 = 0 := by
  unfold entrySum
  rw [Finset.sum_list_map_count]
  apply Nat.mod_eq_zero_of_dvd
  apply Finset.dvd_sum
  intro c _
  rw [nsmul_eq_mul, Nat.cast_id]
  exact Dvd.dvd.mul_right (Nat.dvd_of_mod_eq_zero (h c)) _

theorem toNat_inj {a b : Char} (h : a.toNat = b.toNat) : a = b := by
  have := congrArg Char.ofNat h
  simpa [Char.ofNat_toNat] using this

theorem entrySum_flip (T : Nat → Nat) (c : Char) (s : Str) :
    (entrySum (flipLow T c.toNat) s + entrySum T s + s.count c) % 2 = 0 := by
  induction s with
  | nil => simp [entrySum]
  | cons x s ih =>
    simp only [entrySum, List.map_cons, List.sum_cons, List.count_cons] at *
    by_cases hx : x = c
    · subst hx
      simp only [beq_self_eq_true, if_true]
      have : flipLow T x.toNat x.toNat = T x.toNat + 1 - 2 * (T x.toNat % 2) := by simp [flipLow]
      rw [this]
      omega
    · have h1 : x.toNat ≠ c.toNat := fun e => hx (toNat_inj e)
      have h2 : flipLow T c.toNat x.toNat = T x.toNat := by simp [flipLow, h1]
      have h3 : (x == c) = false := by simpa using hx
      rw [h2, h3]
      simp only [Bool.false_eq_true, if_false]
      omega

theorem table_flip (T : Nat → Nat) (hT : Table32 T) (b : Nat) : Table32 (flipLow T b) := by
  intro i
  have := hT i
  unfold flipLow
  split_ifs <;> omega

theorem trailing_zero_iff (h : Nat) : TrailingZeros h 0 ↔ h = 0 ∨ h % 2 = 1 := by
  unfold TrailingZeros
  simp only [and_true, pow_zero, one_dvd, true_and, zero_add, pow_one]
  omega

theorem level0_iff {n : Nat} (hn : 2 ≤ n) (h : Nat) : FallsInto n h 0 ↔ h = 0 ∨ h % 2 = 1 := by
  unfold FallsInto
  constructor
  · rintro ⟨k, hk, ⟨_, rfl⟩ | ⟨_, h1⟩⟩
    · exact (trailing_zero_iff h).1 hk
    · omega
  · intro hh
    exact ⟨0, (trailing_zero_iff h).2 hh, Or.inl ⟨by omega, rfl⟩⟩

/-- The run of a history without items on level 0 is empty. -/
theorem run_zero {n : Nat} (hn : 0 < n) {t : Nat → Nat} {since : ℚ} {h : List (ℚ × Str)} {r : Nat} (hr : IsRun n t since h r)
    (h0 : ¬ Hit n t since h 0) : r = 0 := by
  rcases Nat.eq_zero_or_pos r with e | e
  · exact e
  · exact absurd (hr.2.1 0 e) h0

/-- A run is not longer than the number of different items. -/
theorem run_le_items {n : Nat} {t : Nat → Nat} {since : ℚ} {h : List (ℚ × Str)} {r : Nat} (hr : IsRun n t since h r)
    (items : List Str) (hi : ∀ item, SeenAfter since h item → item ∈ items) : r ≤ items.length := by
  classical
  have hch : ∀ j : Fin r, ∃ i : Fin items.length, FallsInto n (sboxHash t items[i]) j := by
    intro j
    obtain ⟨item, hs, hf⟩ := hr.2.1 j j.2
    obtain ⟨i, hi', e⟩ := List.getElem_of_mem (hi item hs)
    exact ⟨⟨i, hi'⟩, by simpa [e] using hf⟩
  choose f hf using hch
  have huniq : ∀ (v a b : Nat), FallsInto n v a → FallsInto n v b → a = b := by
    rintro v a b ⟨k, hk, h1⟩ ⟨l, hl, h2⟩
    have := trailingZeros_unique hk hl
    subst this
    omega
  have hinj : Function.Injective f := by
    intro a b e
    have ha := hf a
    rw [e] at ha
    exact Fin.ext (huniq _ _ _ ha (hf b))
  simpa using Fintype.card_le_of_injective f hinj

end Txstatsd
