import Verif.Lemmas.Repr
import Mathlib.Data.List.Perm.Basic

set_option linter.unusedSectionVars false
set_option linter.unusedSimpArgs false
set_option linter.unusedVariables false

namespace Txstatsd
open Spec

/-! ## Numbers -/

theorem decimal_eq (s : Str) : decimal s = digitsVal s := rfl

theorem char_digit {c : Char} (h : c.isDigit = true) : isDigit c = true := by
  simpa [isDigit, Char.isDigit, Char.le_def] using h

theorem digits_iff {s : Str} : (∀ c ∈ s, c.isDigit = true) ↔ ∀ c ∈ s, isDigit c = true :=
  ⟨fun h c hc => char_digit (h c hc), fun h c hc => digit_char (h c hc)⟩

theorem unsigned_plain {t : Str} {q : ℚ} (h : PlainShape t) (hp : parseDecimal t = some q) : Unsigned t q := by
  obtain ⟨I, F, rfl, hI, hF, hd, hI0, _⟩ := h
  have dI : ∀ c ∈ I, c.isDigit = true := fun c hc => hd c (by simp [hc])
  have dF : ∀ c ∈ F, c.isDigit = true := fun c hc => hd c (by simp [hc])
  have := parseDecimal_point (E := []) (ev := 0) (digits_iff.1 dI) hI (digits_iff.1 dF) (by intro c r hc; cases hc) rfl
  rw [List.append_nil, hp] at this
  refine ⟨I, '.' :: F, F, [], 0, by simp, ⟨hI, dI⟩, fun h0 => ?_, .some F ⟨hF, dF⟩, .none, Option.some.inj this⟩
  rcases hI0 with h1 | h1
  · exact h1
  · exact absurd h0 h1

theorem parseExp_digits {s : Char} {X : Str} (hs : s = '+' ∨ s = '-') (hX : ∀ c ∈ X, isDigit c = true) (hne : X ≠ []) :
    parseExp ('e' :: s :: X) = some (if s = '-' then -(digitsVal X : ℤ) else digitsVal X) := by
  have hall : X.all isDigit = true := by simpa using hX
  have hemp : X.isEmpty = false := by simpa using hne
  rcases hs with rfl | rfl
  · simp [parseExp, takeSign, hall, hemp]
  · simp [parseExp, takeSign, hall, hemp]

theorem unsigned_exp {n : ℕ} {t : Str} {q : ℚ} (h : ExpShape n t) (hp : parseDecimal t = some q) : Unsigned t q := by
  obtain ⟨d, F, s, X, rfl, hd, hd0, hF, _, _, hs, hX, hlen, _⟩ := h
  have hXne : X ≠ [] := by rintro rfl; simp at hlen
  have hx := parseExp_digits hs (digits_iff.1 hX) hXne
  have hE : Expo ('e' :: s :: X) (if s = '-' then -(digitsVal X : ℤ) else digitsVal X) := by
    rcases hs with rfl | rfl
    · exact .plus 'e' X (Or.inl rfl) ⟨hXne, hX⟩
    · exact .minus 'e' X (Or.inl rfl) ⟨hXne, hX⟩
  have dd : ∀ c ∈ [d], isDigit c = true := by intro c hc; rw [List.mem_singleton] at hc; subst hc; exact char_digit hd
  refine ⟨[d], if F = [] then [] else '.' :: F, F, 'e' :: s :: X, _, by simp, ⟨by simp, digits_iff.2 dd⟩, fun h0 => ?_, ?_, hE, ?_⟩
  · simp only [List.head?_cons, Option.some.injEq] at h0; exact absurd h0 hd0
  · by_cases h : F = []
    · rw [if_pos h, h]; exact .none
    · rw [if_neg h]; exact .some F ⟨h, hF⟩
  · by_cases h : F = []
    · subst h
      have := parseDecimal_exp dd (by simp) hx
      simp only [if_true, List.nil_append] at hp
      rw [show d :: 'e' :: s :: X = [d] ++ 'e' :: s :: X from rfl, this] at hp
      rw [← Option.some.inj hp]; simp [decimal_eq]
    · have := parseDecimal_point (x := [d]) (y := F) dd (by simp) (digits_iff.1 hF) (by
        intro c r hc; cases hc; decide) hx
      rw [if_neg h] at hp
      rw [show d :: ('.' :: F ++ 'e' :: s :: X) = [d] ++ '.' :: (F ++ 'e' :: s :: X) from rfl, this] at hp
      rw [← Option.some.inj hp]; rfl

section
attribute [local instance] binary64

/-- The text of a positive double. -/
theorem reprPos_spec {q : ℚ} (hq : 0 < q) (hd : rnd q = .fin q) : ∃ y n, Unsigned (reprPos q) y ∧ 0 < y ∧ rnd y = .fin q ∧ DecimalOf n y ∧
    n ≤ 17 ∧ (∀ n' z, DecimalOf n' z → rnd z = .fin q → n ≤ n' ∧ (n' = n → |y - q| ≤ |z - q|)) ∧
    (if 1 / 10 ^ 4 ≤ y ∧ y < 10 ^ 16 then PlainShape (reprPos q) else ExpShape 16 (reprPos q)) ∧
    parseFloat (reprPos q) = some (.fin q) ∧ parseFloat ('-' :: reprPos q) = some (.fin (-q)) := by
  haveI := binary64_ieee
  obtain ⟨n, m, k, hr, hn1, hn17, hdig, hmin⟩ := reprDigits_spec hq hd
  obtain ⟨hk, m1, m2, hm, _⟩ := digitsOf_some hq hn1 hdig
  have hm0 : 0 < m := lt_of_lt_of_le (by positivity) m1
  have hu := ten_pos k
  have hdec : DecimalOf n ((m : ℚ) * 10 ^ k) := by
    rcases Nat.lt_or_ge m (10 ^ n) with h | h
    · refine ⟨m, k, ?_, by push_cast; rfl⟩
      rw [abs_of_nonneg (by positivity)]; exact_mod_cast h
    · have : m = 10 ^ n := le_antisymm m2 h
      refine ⟨1, k + n, ?_, ?_⟩
      · rw [abs_one]; exact_mod_cast Nat.one_lt_pow (by omega) (by norm_num)
      · rw [this, zpow_add₀ (by norm_num), zpow_natCast]; push_cast; ring
  have hv : digitsVal (natStr m) ≠ 0 := by rw [digitsVal_natStr]; omega
  have hne := dropZeros_ne hv
  have hds := dropZeros_digits (natStr_digits m)
  obtain ⟨j, hj⟩ := dropZeros_spec (natStr m)
  have hhead : (dropZeros (natStr m)).head? ≠ some '0' := by rw [dropZeros_head hne]; exact natStr_head _ (by omega)
  have htext : reprPos q = layout 16 (dropZeros (natStr m)) ((natStr m).length + k) := by
    unfold reprPos; rw [if_neg hq.ne', hr]
  have hlen : (dropZeros (natStr m)).length ≤ 17 := by
    rcases Nat.lt_or_ge m (10 ^ 17) with h | h
    · exact (dropZeros_length _).trans (natStr_length_le 17 _ (by norm_num) h)
    · have : m = 10 ^ 17 := le_antisymm (m2.trans (Nat.pow_le_pow_right (by norm_num) hn17)) h
      rw [this]; decide +kernel
  have hval : (digitsVal (dropZeros (natStr m)) : ℚ) * 10 ^ (((natStr m).length : ℤ) + k - (dropZeros (natStr m)).length) = m * 10 ^ k := by
    have h1 := digitsVal_natStr m
    have h2 := congrArg List.length hj
    rw [List.length_append, List.length_replicate] at h2
    rw [hj, digitsVal_append, digitsVal_zeros, List.length_replicate, add_zero] at h1
    conv_rhs => rw [← h1]
    push_cast
    rw [mul_assoc, ← zpow_natCast (10 : ℚ) j, ← zpow_add₀ (by norm_num)]
    congr 2
    omega
  have hparse := parse_layout hds hne 16 ((natStr m).length + k)
  rw [hval, ← htext] at hparse
  have hshape := layout_shape hds hne hhead (dropZeros_last _) (n := 16) hlen 16 ((natStr m).length + k)
  rw [← htext] at hshape
  -- the size of the number and the number of digits
  have hsize : ∀ l : ℕ, (natStr m).length = l → 10 ^ (l - 1) ≤ m ∧ m < 10 ^ l ∧ 1 ≤ l := by
    clear * - hm0
    induction m using Nat.strong_induction_on with
    | _ m ih =>
      intro l hl
      by_cases h10 : m < 10
      · rw [natStr_length_one h10] at hl; subst hl
        simp; omega
      · rw [natStr_length_succ h10] at hl
        obtain ⟨a, b, c⟩ := ih (m / 10) (by omega) (by omega) _ rfl
        subst hl
        obtain ⟨l', hl'⟩ := Nat.exists_eq_add_of_le c
        rw [hl', Nat.add_comm 1 l'] at a b ⊢
        simp only [Nat.add_sub_cancel] at a ⊢
        rw [pow_succ] at b ⊢
        rw [pow_succ 10 (l' + 1), pow_succ]
        refine ⟨by omega, by omega, by omega⟩
  obtain ⟨s1, s2, s3⟩ := hsize _ rfl
  generalize hL : (natStr m).length = L at *
  have lo : (10 : ℚ) ^ ((L : ℤ) + k - 1) ≤ m * 10 ^ k := by
    have e : (10 : ℚ) ^ ((L : ℤ) + k - 1) = ((10 ^ (L - 1) : ℕ) : ℚ) * 10 ^ k := by
      push_cast; rw [← zpow_natCast, ← zpow_add₀ (by norm_num)]; congr 1; push_cast [s3]; ring
    rw [e]
    exact mul_le_mul_of_nonneg_right (by exact_mod_cast s1) hu.le
  have hi : (m : ℚ) * 10 ^ k < (10 : ℚ) ^ ((L : ℤ) + k) := by
    have e : (10 : ℚ) ^ ((L : ℤ) + k) = ((10 ^ L : ℕ) : ℚ) * 10 ^ k := by
      push_cast; rw [← zpow_natCast, ← zpow_add₀ (by norm_num)]
    rw [e]
    exact mul_lt_mul_of_pos_right (by exact_mod_cast s2) hu
  have p4 : (1 / 10 ^ 4 : ℚ) = 10 ^ (-4 : ℤ) := by norm_num
  have p16 : (10 ^ 16 : ℚ) = 10 ^ (16 : ℤ) := by norm_num
  have hshape' : if 1 / 10 ^ 4 ≤ (m : ℚ) * 10 ^ k ∧ (m : ℚ) * 10 ^ k < 10 ^ 16 then PlainShape (reprPos q) else ExpShape 16 (reprPos q) := by
    by_cases hc : (L : ℤ) + k ≤ -4 ∨ 16 < (L : ℤ) + k
    · rw [if_pos hc] at hshape
      rw [if_neg]
      · exact hshape
      · rintro ⟨a, b⟩
        rcases hc with hc | hc
        · have : (10 : ℚ) ^ ((L : ℤ) + k) ≤ 10 ^ (-4 : ℤ) := zpow_le_zpow_right₀ (by norm_num) (by omega)
          rw [p4] at a
          linarith
        · have : (10 : ℚ) ^ (16 : ℤ) ≤ 10 ^ ((L : ℤ) + k - 1) := zpow_le_zpow_right₀ (by norm_num) (by omega)
          rw [p16] at b
          linarith
    · rw [if_neg hc] at hshape
      rw [if_pos]
      · exact hshape
      · push Not at hc
        constructor
        · have : (10 : ℚ) ^ (-4 : ℤ) ≤ 10 ^ ((L : ℤ) + k - 1) := zpow_le_zpow_right₀ (by norm_num) (by omega)
          rw [p4]; linarith
        · have : (10 : ℚ) ^ ((L : ℤ) + k) ≤ 10 ^ (16 : ℤ) := zpow_le_zpow_right₀ (by norm_num) (by omega)
          rw [p16]; linarith
  refine ⟨m * 10 ^ k, n, ?_, by positivity, hm, hdec, hn17, fun n' z hz hrz => ⟨?_, ?_⟩, hshape', ?_⟩
  · split_ifs at hshape
    · exact unsigned_exp hshape hparse
    · exact unsigned_plain hshape hparse
  · by_contra hlt
    push Not at hlt
    rcases Nat.eq_zero_or_pos n' with rfl | h1
    · obtain ⟨a, b, ha, rfl⟩ := hz
      have : a = 0 := by
        have : |a| < 1 := by simpa using ha
        exact Int.abs_lt_one_iff.1 this
      subst this
      have h0 : rnd (0 : ℚ) = .fin 0 := roundDouble_zero
      simp only [Int.cast_zero, zero_mul] at hrz
      rw [h0] at hrz
      exact hq.ne (PyFloat.fin.inj hrz)
    · exact no_fewer hq hd (hmin n' hlt h1) hz hrz
  · rintro rfl
    exact closest hq hd hn1 hdig hz hrz
  · obtain ⟨c1, _, c3⟩ := layout_chars hds 16 (L + k)
    obtain ⟨c, cs, ec, hc⟩ := c3 hne
    rw [← htext] at c1 ec
    rw [ec] at hparse c1 ⊢
    obtain ⟨f1, f2⟩ := parseFloat_body hc c1 hparse
    rw [f1, f2, hm, Ieee.neg, hm]
    exact ⟨rfl, rfl⟩

theorem jsonFloat_zero : JNumber (jsonFloat (.fin 0)) 0 := by
  refine .pos _ _ ⟨['0'], ['.', '0'], ['0'], [], 0, by decide +kernel, ⟨by simp, by decide⟩, fun _ => rfl, .some _ ⟨by simp, by decide⟩, .none, ?_⟩
  norm_num [decimal]

theorem jsonFloat_spec {x : ℚ} (hd : rnd x = .fin x) : ∃ y, JNumber (jsonFloat (.fin x)) y ∧ rnd y = .fin x := by
  haveI := binary64_ieee
  rcases lt_trichotomy x 0 with h | rfl | h
  · have hd' : rnd (-x) = .fin (-x) := by rw [Ieee.neg, hd]; rfl
    obtain ⟨y, n, hu, _, hr, _⟩ := reprPos_spec (q := -x) (by linarith) hd'
    refine ⟨-y, ?_, by rw [Ieee.neg, hr]; simp [PyFloat.neg]⟩
    simp only [jsonFloat]
    rw [if_pos h]
    exact .neg _ _ hu
  · exact ⟨0, jsonFloat_zero, hd⟩
  · obtain ⟨y, n, hu, _, hr, _⟩ := reprPos_spec h hd
    refine ⟨y, ?_, hr⟩
    simp only [jsonFloat]
    rw [if_neg (by linarith)]
    exact .pos _ _ hu

end

theorem natStr_number (n : ℕ) : Unsigned (natStr n) n := by
  refine ⟨natStr n, [], [], [], 0, by simp, ⟨natStr_ne_nil n, digits_iff.2 (natStr_digits n)⟩, fun h => ?_, .none, .none, ?_⟩
  · by_cases h0 : n = 0
    · subst h0; decide +kernel
    · exact absurd h (natStr_head n h0)
  · rw [decimal_eq, List.append_nil, digitsVal_natStr]; simp

theorem intStr_number (z : ℤ) : JNumber (intStr z) z := by
  unfold intStr
  split_ifs with h
  · have := JNumber.neg _ _ (natStr_number z.natAbs)
    have e : (-(z.natAbs : ℚ)) = z := by
      have : (z.natAbs : ℤ) = -z := by omega
      have := congrArg (Int.cast (R := ℚ)) this
      rw [Int.cast_natCast, Int.cast_neg] at this
      rw [this, neg_neg]
    rw [e] at this
    exact this
  · have := JNumber.pos _ _ (natStr_number z.natAbs)
    have e : ((z.natAbs : ℚ)) = z := by
      have : (z.natAbs : ℤ) = z := by omega
      have := congrArg (Int.cast (R := ℚ)) this
      simpa using this
    rw [e] at this
    exact this

end Txstatsd
