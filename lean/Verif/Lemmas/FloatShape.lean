import Verif.Lemmas.FloatStr
import Verif.Lemmas.ProcessReport
import Verif.Spec.FloatShape

set_option linter.unusedSectionVars false
set_option linter.unusedSimpArgs false
set_option linter.unusedVariables false

namespace Txstatsd
open Spec

theorem digit_char {c : Char} (h : isDigit c = true) : c.isDigit = true := by
  simpa [isDigit, Char.isDigit, Char.le_def] using h

theorem digitChar_ne_zero {n : ℕ} (h : n < 10) (h0 : n ≠ 0) : digitChar n ≠ '0' := by
  interval_cases n <;> first | exact absurd rfl h0 | decide

/-- No leading zeros. -/
theorem natStr_head (n : ℕ) (h : n ≠ 0) : (natStr n).head? ≠ some '0' := by
  induction n using Nat.strong_induction_on with
  | _ n ih =>
    rw [natStr]
    split_ifs with h10
    · simpa using digitChar_ne_zero h10 h
    · have := ih (n / 10) (by omega) (by omega)
      rw [List.head?_append_of_ne_nil _ (natStr_ne_nil _)]
      exact this

theorem natStr_length_le (k n : ℕ) (hk : 0 < k) (h : n < 10 ^ k) : (natStr n).length ≤ k := by
  induction k generalizing n with
  | zero => omega
  | succ k ih =>
    by_cases h10 : n < 10
    · rw [natStr_length_one h10]; omega
    · rw [natStr_length_succ h10]
      have hk0 : 0 < k := by
        rcases Nat.eq_zero_or_pos k with rfl | h'
        · simp at h; omega
        · exact h'
      have := ih (n / 10) hk0 (by rw [pow_succ] at h; omega)
      omega

theorem dropZeros_last (s : Str) : (dropZeros s).getLast? ≠ some '0' := by
  unfold dropZeros
  rw [List.getLast?_reverse]
  intro h
  have := List.head?_dropWhile_not (p := (· == '0')) s.reverse
  rw [h] at this
  simp at this

theorem dropZeros_head {s : Str} (hne : dropZeros s ≠ []) : (dropZeros s).head? = s.head? := by
  obtain ⟨n, hn⟩ := dropZeros_spec s
  conv_rhs => rw [hn]
  rw [List.head?_append_of_ne_nil _ hne]

theorem dropZeros_length (s : Str) : (dropZeros s).length ≤ s.length := by
  obtain ⟨n, hn⟩ := dropZeros_spec s
  conv_rhs => rw [hn]
  simp

theorem expText_shape (e : ℤ) : ∃ s X, expText e = s :: X ∧ (s = '+' ∨ s = '-') ∧ (∀ c ∈ X, c.isDigit = true) ∧ 2 ≤ X.length ∧
    (X.length = 2 ∨ X.head? ≠ some '0') := by
  unfold expText
  refine ⟨_, _, rfl, ?_, ?_, ?_⟩
  · split_ifs <;> simp
  · intro c hc
    split_ifs at hc
    · rcases List.mem_cons.1 hc with rfl | hc
      · decide
      · exact digit_char (natStr_digits _ c hc)
    · exact digit_char (natStr_digits _ c hc)
  · split_ifs with h
    · simp [natStr_length_one h]
    · refine ⟨?_, Or.inr (natStr_head _ (by omega))⟩
      rw [natStr_length_succ h]
      have := List.length_pos_iff.2 (natStr_ne_nil (e.natAbs / 10))
      omega

/-- The layout of digits without zeros at the ends. -/
theorem layout_shape {ds : Str} (hd : ∀ c ∈ ds, isDigit c = true) (hne : ds ≠ []) (hh : ds.head? ≠ some '0')
    (hl : ds.getLast? ≠ some '0') {n : ℕ} (hn : ds.length ≤ n + 1) (lim decpt : ℤ) :
    if decpt ≤ -4 ∨ lim < decpt then ExpShape n (layout lim ds decpt) else PlainShape (layout lim ds decpt) := by
  have hlen := List.length_pos_iff.2 hne
  by_cases h1 : decpt ≤ -4 ∨ lim < decpt
  · rw [if_pos h1]
    unfold layout
    rw [if_pos h1]
    obtain ⟨s, X, eX, x1, x2, x3, x4⟩ := expText_shape (decpt - 1)
    rw [eX]
    obtain ⟨d, F, rfl⟩ := List.exists_cons_of_ne_nil hne
    refine ⟨d, F, s, X, ?_, digit_char (hd _ (by simp)), by simpa using hh, fun c hc => digit_char (hd _ (by simp [hc])), ?_, by simpa using hn,
      x1, x2, x3, x4⟩
    · cases F <;> simp
    · cases F with
      | nil => simp
      | cons a F => simpa [List.getLast?_cons_cons] using hl
  · rw [if_neg h1]
    unfold layout
    rw [if_neg h1]
    split_ifs with h2 h3
    · refine ⟨['0'], List.replicate (-decpt).toNat '0' ++ ds, rfl, by simp, by simp [hne], ?_, Or.inl rfl, Or.inr ?_⟩
      · intro c hc
        simp only [List.mem_append, List.mem_singleton] at hc
        rcases hc with rfl | hc | hc
        · decide
        · exact digit_char (replicate_digits _ c hc)
        · exact digit_char (hd c hc)
      · rw [List.getLast?_append_of_ne_nil _ hne]; exact hl
    · refine ⟨_, ['0'], rfl, by simp [hne], by simp, ?_, Or.inr ?_, Or.inl rfl⟩
      · intro c hc
        simp only [List.mem_append, List.mem_singleton] at hc
        rcases hc with (hc | hc) | rfl
        · exact digit_char (hd c hc)
        · exact digit_char (replicate_digits _ c hc)
        · decide
      · rw [List.head?_append_of_ne_nil _ hne]; exact hh
    · have hk : decpt.toNat < ds.length := by omega
      have hk0 : 0 < decpt.toNat := by omega
      refine ⟨_, _, rfl, ?_, ?_, ?_, Or.inr ?_, Or.inr ?_⟩
      · intro h
        have := congrArg List.length h
        rw [List.length_take, List.length_nil] at this; omega
      · intro h
        have := congrArg List.length h
        rw [List.length_drop, List.length_nil] at this; omega
      · intro c hc
        rw [List.take_append_drop] at hc
        exact digit_char (hd c hc)
      · rw [List.head?_take, if_neg (by omega)]; exact hh
      · rw [List.getLast?_drop, if_neg (by omega)]; exact hl

/-- The shape follows the decimal number shown. -/
theorem posText_shape {q : ℚ} (hq : 0 < q) :
    if 1 / 10 ^ 4 ≤ dec12 q ∧ dec12 q < 10 ^ 11 then PlainShape (posText q) else ExpShape 11 (posText q) := by
  obtain ⟨h1, h2, _⟩ := sig12_spec hq
  unfold posText
  rw [if_neg hq.ne']
  have hv : digitsVal (natStr (sig12 q).1) ≠ 0 := by rw [digitsVal_natStr]; omega
  have hne := dropZeros_ne hv
  have := layout_shape (ds := dropZeros (natStr (sig12 q).1)) (dropZeros_digits (natStr_digits _)) hne
    (by rw [dropZeros_head hne]; exact natStr_head _ (by omega)) (dropZeros_last _)
    ((dropZeros_length _).trans (natStr_length_le 12 _ (by norm_num) h2)) 11 ((sig12 q).2 + 1)
  have hlo : (10 : ℚ) ^ (sig12 q).2 ≤ dec12 q := by
    unfold dec12
    have e : (10 : ℚ) ^ (sig12 q).2 = 10 ^ 11 * 10 ^ ((sig12 q).2 - 11) := by
      rw [← zpow_natCast (10 : ℚ) 11, ← zpow_add₀ (by norm_num)]; congr 1; push_cast; ring
    rw [e]
    have : (10 ^ 11 : ℚ) ≤ (sig12 q).1 := by exact_mod_cast h1
    exact mul_le_mul_of_nonneg_right this (ten_pos _).le
  have hhi : dec12 q < (10 : ℚ) ^ ((sig12 q).2 + 1) := by
    unfold dec12
    have e : (10 : ℚ) ^ ((sig12 q).2 + 1) = 10 ^ 12 * 10 ^ ((sig12 q).2 - 11) := by
      rw [← zpow_natCast (10 : ℚ) 12, ← zpow_add₀ (by norm_num)]; congr 1; push_cast; ring
    rw [e]
    have : ((sig12 q).1 : ℚ) < 10 ^ 12 := by exact_mod_cast h2
    exact mul_lt_mul_of_pos_right this (ten_pos _)
  have p4 : (1 / 10 ^ 4 : ℚ) = 10 ^ (-4 : ℤ) := by norm_num
  have p11 : (10 ^ 11 : ℚ) = 10 ^ (11 : ℤ) := by norm_num
  by_cases hc : (sig12 q).2 + 1 ≤ -4 ∨ 11 < (sig12 q).2 + 1
  · rw [if_pos hc] at this
    rw [if_neg]
    · exact this
    · rintro ⟨a, b⟩
      rcases hc with hc | hc
      · have : (10 : ℚ) ^ ((sig12 q).2 + 1) ≤ 10 ^ (-4 : ℤ) := zpow_le_zpow_right₀ (by norm_num) (by omega)
        rw [p4] at a
        linarith
      · have : (10 : ℚ) ^ (11 : ℤ) ≤ 10 ^ (sig12 q).2 := zpow_le_zpow_right₀ (by norm_num) (by omega)
        rw [p11] at b
        linarith
  · rw [if_neg hc] at this
    rw [if_pos]
    · exact this
    · push Not at hc
      constructor
      · have : (10 : ℚ) ^ (-4 : ℤ) ≤ 10 ^ (sig12 q).2 := zpow_le_zpow_right₀ (by norm_num) (by omega)
        rw [p4]; linarith
      · have : (10 : ℚ) ^ ((sig12 q).2 + 1) ≤ 10 ^ (11 : ℤ) := zpow_le_zpow_right₀ (by norm_num) (by omega)
        rw [p11]; linarith

end Txstatsd
