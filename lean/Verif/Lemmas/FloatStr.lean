import Verif.Lemmas.Text
import Verif.Lemmas.Ieee
import Verif.Lemmas.Metrics
import Verif.Model.FloatStr
import Verif.Spec.FloatStr

set_option linter.unusedSectionVars false
set_option linter.unusedSimpArgs false
set_option linter.unusedVariables false

namespace Txstatsd
open Spec

/-! ## The digits -/

theorem nearestEven_nearest (x : ℚ) (t : ℤ) : |(nearestEven x : ℚ) - x| ≤ |(t : ℚ) - x| := by
  have h := nearestEven_err x
  by_contra hlt
  push Not at hlt
  have h1 : |((t - nearestEven x : ℤ) : ℚ)| < 1 := by
    push_cast
    calc |(t : ℚ) - nearestEven x| = |((t : ℚ) - x) - (nearestEven x - x)| := by ring_nf
      _ ≤ |(t : ℚ) - x| + |(nearestEven x : ℚ) - x| := abs_sub _ _
      _ < 1 := by linarith
  have h2 : |t - nearestEven x| < 1 := by exact_mod_cast h1
  have h3 : t = nearestEven x := by
    have := Int.abs_lt_one_iff.1 h2; omega
  rw [h3] at hlt
  exact lt_irrefl _ hlt

theorem log10_le {q : ℚ} (h : 0 < q) : (10 : ℚ) ^ Int.log 10 q ≤ q := by
  have := Int.zpow_log_le_self (b := 10) (by norm_num) h
  exact_mod_cast this

theorem lt_log10 {q : ℚ} : q < (10 : ℚ) ^ (Int.log 10 q + 1) := by
  have := Int.lt_zpow_succ_log_self (b := 10) (by norm_num) q
  exact_mod_cast this

theorem ten_pos (e : ℤ) : (0 : ℚ) < 10 ^ e := zpow_pos (by norm_num) e

/-- The value of the digits. -/
def dec12 (q : ℚ) : ℚ := (sig12 q).1 * (10 : ℚ) ^ ((sig12 q).2 - 11)

theorem sig12_spec {q : ℚ} (hq : 0 < q) :
    10 ^ 11 ≤ (sig12 q).1 ∧ (sig12 q).1 < 10 ^ 12 ∧
    dec12 q = (nearestEven (q / (10 : ℚ) ^ (Int.log 10 q - 11)) : ℚ) * 10 ^ (Int.log 10 q - 11) := by
  have h1 := log10_le hq
  have h2 := lt_log10 (q := q)
  have hu := ten_pos (Int.log 10 q - 11)
  have e1 : (10 : ℚ) ^ Int.log 10 q = 10 ^ 11 * 10 ^ (Int.log 10 q - 11) := by
    rw [← zpow_natCast (10 : ℚ) 11, ← zpow_add₀ (by norm_num)]; congr 1; push_cast; ring
  have e2 : (10 : ℚ) ^ (Int.log 10 q + 1) = 10 ^ 12 * 10 ^ (Int.log 10 q - 11) := by
    rw [← zpow_natCast (10 : ℚ) 12, ← zpow_add₀ (by norm_num)]; congr 1; push_cast; ring
  rw [e1] at h1
  rw [e2] at h2
  have a1 : ((10 ^ 11 : ℤ) : ℚ) ≤ q / 10 ^ (Int.log 10 q - 11) := by
    rw [le_div_iff₀ hu]; push_cast; exact h1
  have a2 : q / 10 ^ (Int.log 10 q - 11) ≤ ((10 ^ 12 : ℤ) : ℚ) := by
    rw [div_le_iff₀ hu]; push_cast; exact h2.le
  have b1 := le_nearestEven a1
  have b2 := nearestEven_le a2
  unfold dec12 sig12
  simp only
  generalize Int.log 10 q = e at *
  generalize nearestEven (q / 10 ^ (e - 11)) = n at *
  split_ifs with h
  · have hn : n = 10 ^ 12 := by omega
    refine ⟨by norm_num, by norm_num, ?_⟩
    rw [hn]
    simp only
    rw [show e + 1 - 11 = (e - 11) + 1 by ring, zpow_add₀ (by norm_num)]
    push_cast
    ring
  · simp only
    refine ⟨by omega, by omega, ?_⟩
    have : ((n.toNat : ℕ) : ℚ) = n := by
      have : ((n.toNat : ℕ) : ℤ) = n := by omega
      exact_mod_cast this
    rw [this]

theorem dec12_pos {q : ℚ} (hq : 0 < q) : 0 < dec12 q := by
  obtain ⟨h1, _, _⟩ := sig12_spec hq
  unfold dec12
  have : (0 : ℚ) < (sig12 q).1 := by
    have : 0 < (sig12 q).1 := by omega
    exact_mod_cast this
  exact mul_pos this (ten_pos _)

theorem dec12_err {q : ℚ} (hq : 0 < q) : |dec12 q - q| ≤ q * 5 / 10 ^ 12 := by
  obtain ⟨_, _, h⟩ := sig12_spec hq
  have hu := ten_pos (Int.log 10 q - 11)
  have he := nearestEven_err (q / (10 : ℚ) ^ (Int.log 10 q - 11))
  have e1 : (10 : ℚ) ^ Int.log 10 q = 10 ^ 11 * 10 ^ (Int.log 10 q - 11) := by
    rw [← zpow_natCast (10 : ℚ) 11, ← zpow_add₀ (by norm_num)]; congr 1; push_cast; ring
  have h1 := log10_le hq
  rw [e1] at h1
  rw [h]
  have : (nearestEven (q / (10 : ℚ) ^ (Int.log 10 q - 11)) : ℚ) * 10 ^ (Int.log 10 q - 11) - q =
      ((nearestEven (q / (10 : ℚ) ^ (Int.log 10 q - 11)) : ℚ) - q / 10 ^ (Int.log 10 q - 11)) * 10 ^ (Int.log 10 q - 11) := by
    field_simp
  rw [this, abs_mul, abs_of_pos hu]
  have := mul_le_mul_of_nonneg_right he hu.le
  linarith

theorem dec12_decimal {q : ℚ} (hq : 0 < q) : Decimal12 (dec12 q) := by
  obtain ⟨_, h2, _⟩ := sig12_spec hq
  refine ⟨(sig12 q).1, (sig12 q).2 - 11, ?_, by unfold dec12; push_cast; rfl⟩
  rw [abs_of_nonneg (by positivity)]
  exact_mod_cast h2

/-- The digits are the nearest ones. -/
theorem dec12_nearest {q : ℚ} (hq : 0 < q) : Nearest12 q (dec12 q) := by
  refine ⟨dec12_decimal hq, fun z hz => ?_⟩
  obtain ⟨_, _, h⟩ := sig12_spec hq
  have hu := ten_pos (Int.log 10 q - 11)
  have e1 : (10 : ℚ) ^ Int.log 10 q = 10 ^ 11 * 10 ^ (Int.log 10 q - 11) := by
    rw [← zpow_natCast (10 : ℚ) 11, ← zpow_add₀ (by norm_num)]; congr 1; push_cast; ring
  have h1 := log10_le hq
  have hmul : ∀ t : ℤ, |dec12 q - q| ≤ |(t : ℚ) * 10 ^ (Int.log 10 q - 11) - q| := by
    intro t
    have hn := nearestEven_nearest (q / (10 : ℚ) ^ (Int.log 10 q - 11)) t
    have := mul_le_mul_of_nonneg_right hn hu.le
    rw [← abs_of_pos hu, ← abs_mul, ← abs_mul, abs_of_pos hu, sub_mul, sub_mul, div_mul_cancel₀ _ hu.ne'] at this
    rw [h]; exact this
  by_cases hz0 : (10 : ℚ) ^ Int.log 10 q ≤ z
  · obtain ⟨m, k, hm, rfl⟩ := hz
    by_cases hk : Int.log 10 q - 11 ≤ k
    · obtain ⟨j, hj⟩ := Int.le.dest hk
      have : (m : ℚ) * 10 ^ k = ((m * 10 ^ j : ℤ) : ℚ) * 10 ^ (Int.log 10 q - 11) := by
        rw [← hj, zpow_add₀ (by norm_num), zpow_natCast]; push_cast; ring
      rw [this]; exact hmul _
    · exfalso
      have hm' : (m : ℚ) < 10 ^ 12 := by
        have := (abs_lt.1 hm).2
        exact_mod_cast this
      have hk' : (10 : ℚ) ^ k ≤ 10 ^ (Int.log 10 q - 12) := zpow_le_zpow_right₀ (by norm_num) (by omega)
      have e3 : (10 : ℚ) ^ Int.log 10 q = 10 ^ 12 * 10 ^ (Int.log 10 q - 12) := by
        rw [← zpow_natCast (10 : ℚ) 12, ← zpow_add₀ (by norm_num)]; congr 1; push_cast; ring
      have h4 : (m : ℚ) * 10 ^ k < 10 ^ 12 * 10 ^ k := mul_lt_mul_of_pos_right hm' (ten_pos k)
      have h5 : (10 : ℚ) ^ 12 * 10 ^ k ≤ 10 ^ 12 * 10 ^ (Int.log 10 q - 12) := by gcongr
      linarith
  · push Not at hz0
    have h3 := hmul (10 ^ 11)
    rw [show ((10 ^ 11 : ℤ) : ℚ) = 10 ^ 11 by norm_num, ← e1] at h3
    rw [abs_of_nonpos (by linarith : (10 : ℚ) ^ Int.log 10 q - q ≤ 0)] at h3
    rw [abs_of_nonpos (by linarith : z - q ≤ 0)]
    linarith

/-! ## The text -/

theorem digitsVal_zeros (n : ℕ) : digitsVal (List.replicate n '0') = 0 := by
  induction n with
  | zero => rfl
  | succ n ih => rw [List.replicate_succ', digitsVal_append, ih]; rfl

theorem digit_zero : isDigit '0' = true := by decide

theorem replicate_digits (n : ℕ) : ∀ c ∈ List.replicate n '0', isDigit c = true := by
  intro c hc; rw [List.eq_of_mem_replicate hc]; exact digit_zero

theorem dropZeros_spec (s : Str) : ∃ n, s = dropZeros s ++ List.replicate n '0' := by
  unfold dropZeros
  refine ⟨(s.reverse.takeWhile (· == '0')).length, ?_⟩
  have h := List.takeWhile_append_dropWhile (p := (· == '0')) (l := s.reverse)
  have h2 : s.reverse.takeWhile (· == '0') = List.replicate (s.reverse.takeWhile (· == '0')).length '0' := by
    apply List.eq_replicate_of_mem
    intro c hc
    simpa using List.mem_takeWhile_imp hc
  have h3 := congrArg List.reverse h
  rw [List.reverse_append, List.reverse_reverse] at h3
  conv_lhs => rw [← h3]
  rw [h2, List.reverse_replicate, List.length_replicate]

theorem dropZeros_digits {s : Str} (h : ∀ c ∈ s, isDigit c = true) : ∀ c ∈ dropZeros s, isDigit c = true := by
  obtain ⟨n, hn⟩ := dropZeros_spec s
  intro c hc
  exact h c (by rw [hn]; simp [hc])

theorem dropZeros_ne {s : Str} (h : digitsVal s ≠ 0) : dropZeros s ≠ [] := by
  intro e
  obtain ⟨n, hn⟩ := dropZeros_spec s
  rw [e, List.nil_append] at hn
  exact h (by rw [hn, digitsVal_zeros])

/-- A decimal literal with a point. -/
theorem parseDecimal_point {x y E : Str} {ev : ℤ} (hx : ∀ c ∈ x, isDigit c = true) (hxne : x ≠ [])
    (hy : ∀ c ∈ y, isDigit c = true) (hE : ∀ c r, E = c :: r → isDigit c = false) (he : parseExp E = some ev) :
    parseDecimal (x ++ '.' :: (y ++ E)) = some ((digitsVal (x ++ y) : ℚ) * 10 ^ (ev - y.length)) := by
  have hdot : isDigit '.' = false := by decide
  have h1 : (x ++ '.' :: (y ++ E)).takeWhile isDigit = x := by
    rw [List.takeWhile_append_of_pos hx]; simp [hdot]
  have h2 : (x ++ '.' :: (y ++ E)).dropWhile isDigit = '.' :: (y ++ E) := by
    rw [List.dropWhile_append_of_pos hx]; simp [hdot]
  have h3 : (y ++ E).takeWhile isDigit = y := by
    rw [List.takeWhile_append_of_pos hy]
    cases E with
    | nil => simp
    | cons c r => simp [hE c r rfl]
  have h4 : (y ++ E).dropWhile isDigit = E := by
    rw [List.dropWhile_append_of_pos hy]
    cases E with
    | nil => simp
    | cons c r => simp [hE c r rfl]
  have : x.isEmpty = false := by simpa using hxne
  unfold parseDecimal
  simp only [h1, h2, h3, h4, this, he, Bool.false_and, Bool.false_eq_true, if_false]

/-- Without one, with an exponent. -/
theorem parseDecimal_exp {x r : Str} {ev : ℤ} (hx : ∀ c ∈ x, isDigit c = true) (hxne : x ≠ [])
    (he : parseExp ('e' :: r) = some ev) : parseDecimal (x ++ 'e' :: r) = some ((digitsVal x : ℚ) * 10 ^ ev) := by
  have hdot : isDigit 'e' = false := by decide
  have h1 : (x ++ 'e' :: r).takeWhile isDigit = x := by
    rw [List.takeWhile_append_of_pos hx]; simp [hdot]
  have h2 : (x ++ 'e' :: r).dropWhile isDigit = 'e' :: r := by
    rw [List.dropWhile_append_of_pos hx]; simp [hdot]
  have : x.isEmpty = false := by simpa using hxne
  unfold parseDecimal
  simp only [h1, h2]
  change (if (x.isEmpty && true) = true then none else
    (match parseExp ('e' :: r) with
      | none => none
      | some e => some ((digitsVal (x ++ []) : ℚ) * (10 : ℚ) ^ (e - ((0 : ℕ) : ℤ))))) = _
  rw [this, he]
  simp

theorem parseExp_expText (e : ℤ) : parseExp ('e' :: expText e) = some e := by
  have hd : ∀ c ∈ (if e.natAbs < 10 then '0' :: natStr e.natAbs else natStr e.natAbs), isDigit c = true := by
    split_ifs
    · intro c hc
      rcases List.mem_cons.1 hc with rfl | hc
      · decide
      · exact natStr_digits _ c hc
    · exact natStr_digits _
  have hv : digitsVal (if e.natAbs < 10 then '0' :: natStr e.natAbs else natStr e.natAbs) = e.natAbs := by
    split_ifs
    · rw [show '0' :: natStr e.natAbs = ['0'] ++ natStr e.natAbs from rfl, digitsVal_append, digitsVal_natStr]
      simp [digitsVal]
    · exact digitsVal_natStr _
  have hne : (if e.natAbs < 10 then '0' :: natStr e.natAbs else natStr e.natAbs) ≠ [] := by
    split_ifs
    · simp
    · exact natStr_ne_nil _
  unfold expText
  generalize (if e.natAbs < 10 then '0' :: natStr e.natAbs else natStr e.natAbs) = ds at *
  have hall : ds.all isDigit = true := by simpa using hd
  have hemp : ds.isEmpty = false := by simpa using hne
  unfold parseExp
  split_ifs with h
  · simp only [takeSign, hall, hemp, hv, beq_self_eq_true, Bool.true_or, if_true, Bool.not_true, Bool.or_self, Bool.false_eq_true,
      if_false, Option.some.injEq]
    omega
  · simp only [takeSign, hall, hemp, hv, beq_self_eq_true, Bool.true_or, if_true, Bool.not_true, Bool.or_self, Bool.false_eq_true,
      if_false, Option.some.injEq]
    omega

/-- The value of a text. -/
theorem parse_layout {ds : Str} (hd : ∀ c ∈ ds, isDigit c = true) (hne : ds ≠ []) (lim decpt : ℤ) :
    parseDecimal (layout lim ds decpt) = some ((digitsVal ds : ℚ) * 10 ^ (decpt - ds.length)) := by
  have htd : ∀ n, ∀ c ∈ ds.take n, isDigit c = true := fun n c hc => hd c (List.mem_of_mem_take hc)
  have hdd : ∀ n, ∀ c ∈ ds.drop n, isDigit c = true := fun n c hc => hd c (List.mem_of_mem_drop hc)
  have hlen : 1 ≤ ds.length := List.length_pos_iff.2 hne
  unfold layout
  split_ifs with h1 h2 h3 h4
  · have e : ds.take 1 = ds := List.take_of_length_le (by omega)
    rw [e, List.append_nil, parseDecimal_exp hd hne (parseExp_expText _), h2]
    norm_num
  · rw [List.append_assoc, List.cons_append, parseDecimal_point (htd 1) (by
        intro hh; have := congrArg List.length hh; simp at this; exact hne this) (hdd 1) (by
        intro c r hc; cases hc; decide) (parseExp_expText _), List.take_append_drop, List.length_drop]
    congr 3
    push_cast [Nat.cast_sub hlen]
    ring
  · have := parseDecimal_point (x := ['0']) (y := List.replicate (-decpt).toNat '0' ++ ds) (E := []) (ev := 0)
      (by intro c hc; simp at hc; subst hc; decide) (by simp)
      (by intro c hc; rcases List.mem_append.1 hc with hc | hc; exacts [replicate_digits _ c hc, hd c hc])
      (by intro c r hc; cases hc) rfl
    rw [List.append_nil] at this
    rw [this]
    congr 1
    have e1 : digitsVal (['0'] ++ (List.replicate (-decpt).toNat '0' ++ ds)) = digitsVal ds := by
      rw [digitsVal_append, digitsVal_append, digitsVal_zeros]; simp [digitsVal]
    rw [e1]
    congr 2
    rw [List.length_append, List.length_replicate]
    push_cast
    omega
  · have := parseDecimal_point (x := ds ++ List.replicate (decpt.toNat - ds.length) '0') (y := ['0']) (E := []) (ev := 0)
      (by intro c hc; rcases List.mem_append.1 hc with hc | hc; exacts [hd c hc, replicate_digits _ c hc])
      (by simp [hne]) (by intro c hc; simp at hc; subst hc; decide) (by intro c r hc; cases hc) rfl
    rw [List.append_nil] at this
    rw [this]
    congr 1
    have e1 : digitsVal (ds ++ List.replicate (decpt.toNat - ds.length) '0' ++ ['0']) =
        digitsVal ds * 10 ^ (decpt.toNat - ds.length) * 10 := by
      rw [digitsVal_append, digitsVal_append, digitsVal_zeros, List.length_replicate]; simp [digitsVal]
    rw [e1]
    have e2 : decpt - ds.length = ((decpt.toNat - ds.length : ℕ) : ℤ) := by omega
    rw [e2, zpow_natCast]
    push_cast
    simp
  · have := parseDecimal_point (x := ds.take decpt.toNat) (y := ds.drop decpt.toNat) (E := []) (ev := 0)
      (htd _) (by
        intro hh; have := congrArg List.length hh
        simp only [List.length_take, List.length_nil] at this; omega) (hdd _) (by intro c r hc; cases hc) rfl
    rw [List.append_nil, List.take_append_drop, List.length_drop] at this
    rw [this]
    congr 3
    omega

/-- The characters of a text. -/
theorem layout_chars {ds : Str} (hd : ∀ c ∈ ds, isDigit c = true) (lim decpt : ℤ) :
    (∀ c ∈ layout lim ds decpt, isDigit c = true ∨ c = '.' ∨ c = 'e' ∨ c = '+' ∨ c = '-') ∧
    (¬ (decpt ≤ -4 ∨ lim < decpt) → ∀ c ∈ layout lim ds decpt, isDigit c = true ∨ c = '.') ∧
    (ds ≠ [] → ∃ c cs, layout lim ds decpt = c :: cs ∧ isDigit c = true) := by
  have htd : ∀ n, ∀ c ∈ ds.take n, isDigit c = true := fun n c hc => hd c (List.mem_of_mem_take hc)
  have hdd : ∀ n, ∀ c ∈ ds.drop n, isDigit c = true := fun n c hc => hd c (List.mem_of_mem_drop hc)
  have hex : ∀ c ∈ expText (decpt - 1), isDigit c = true ∨ c = '.' ∨ c = 'e' ∨ c = '+' ∨ c = '-' := by
    intro c hc
    unfold expText at hc
    rcases List.mem_cons.1 hc with rfl | hc
    · split_ifs <;> simp
    · left
      split_ifs at hc
      · rcases List.mem_cons.1 hc with rfl | hc
        · decide
        · exact natStr_digits _ c hc
      · exact natStr_digits _ c hc
  have hplain : ¬ (decpt ≤ -4 ∨ lim < decpt) → ∀ c ∈ layout lim ds decpt, isDigit c = true ∨ c = '.' := by
    intro hn c hc
    unfold layout at hc
    rw [if_neg hn] at hc
    split_ifs at hc
    · simp only [List.mem_append, List.mem_cons, List.not_mem_nil, or_false] at hc
      rcases hc with rfl | rfl | hc | hc
      · left; decide
      · exact Or.inr rfl
      · exact Or.inl (replicate_digits _ c hc)
      · exact Or.inl (hd c hc)
    · simp only [List.mem_append, List.mem_cons, List.not_mem_nil, or_false] at hc
      rcases hc with (hc | hc) | rfl | rfl
      · exact Or.inl (hd c hc)
      · exact Or.inl (replicate_digits _ c hc)
      · exact Or.inr rfl
      · left; decide
    · simp only [List.mem_append, List.mem_cons] at hc
      rcases hc with hc | rfl | hc
      · exact Or.inl (htd _ c hc)
      · exact Or.inr rfl
      · exact Or.inl (hdd _ c hc)
  refine ⟨fun c hc => ?_, hplain, fun hne => ?_⟩
  · by_cases hn : decpt ≤ -4 ∨ lim < decpt
    · unfold layout at hc
      rw [if_pos hn] at hc
      simp only [List.mem_append, List.mem_cons] at hc
      rcases hc with (hc | hc) | rfl | hc
      · exact Or.inl (htd _ c hc)
      · split_ifs at hc
        · cases hc
        · rcases List.mem_cons.1 hc with rfl | hc
          · simp
          · exact Or.inl (hdd _ c hc)
      · simp
      · exact hex c hc
    · rcases hplain hn c hc with h | h
      · exact Or.inl h
      · exact Or.inr (Or.inl h)
  · obtain ⟨d, r, rfl⟩ := List.exists_cons_of_ne_nil hne
    have hdg := hd d (by simp)
    unfold layout
    split_ifs with h1 h2 h3 h4
    · exact ⟨d, _, rfl, hdg⟩
    · exact ⟨d, _, rfl, hdg⟩
    · exact ⟨'0', _, rfl, digit_zero⟩
    · exact ⟨d, _, rfl, hdg⟩
    · have : 1 ≤ decpt.toNat := by omega
      obtain ⟨k, hk⟩ := Nat.exists_eq_add_of_le this
      rw [hk, Nat.add_comm 1 k, List.take_succ_cons]
      exact ⟨d, _, rfl, hdg⟩

/-- The value printed for a number that is not negative. -/
def shown (q : ℚ) : ℚ := if q = 0 then 0 else dec12 q

/-- The digits printed. -/
theorem posText_digits {q : ℚ} (hq : 0 ≤ q) : ∃ ds decpt, posText q = layout 11 ds decpt ∧ (∀ c ∈ ds, isDigit c = true) ∧ ds ≠ [] ∧
    (digitsVal ds : ℚ) * 10 ^ (decpt - ds.length) = shown q ∧ (q ≠ 0 → decpt = (sig12 q).2 + 1) ∧ (q = 0 → decpt = 1) := by
  unfold posText shown
  split_ifs with h
  · exact ⟨['0'], 1, rfl, by intro c hc; simp at hc; subst hc; decide, by simp, by simp [digitsVal], fun h' => absurd h h', fun _ => rfl⟩
  · have hp : 0 < q := lt_of_le_of_ne hq (Ne.symm h)
    obtain ⟨h1, h2, _⟩ := sig12_spec hp
    obtain ⟨n, hn⟩ := dropZeros_spec (natStr (sig12 q).1)
    have hv := digitsVal_natStr (sig12 q).1
    have hlen : (natStr (sig12 q).1).length = 12 := by
      have key : ∀ k m : ℕ, 10 ^ k ≤ m → m < 10 ^ (k + 1) → (natStr m).length = k + 1 := by
        intro k
        induction k with
        | zero => intro m a b; rw [natStr, if_pos (by omega)]; rfl
        | succ k ih =>
          intro m a b
          have ha : 10 ≤ m := by
            have h0 : 0 < 10 ^ k := by positivity
            rw [pow_succ] at a
            omega
          rw [natStr, if_neg (by omega), List.length_append, ih (m / 10)]
          · rfl
          · rw [pow_succ] at a; omega
          · rw [pow_succ] at b; omega
      exact key 11 _ h1 h2
    refine ⟨_, _, rfl, dropZeros_digits (natStr_digits _), dropZeros_ne (by rw [hv]; omega), ?_, fun _ => rfl, fun h' => absurd h' h⟩
    generalize dropZeros (natStr (sig12 q).1) = ds at *
    rw [hn, List.length_append, List.length_replicate] at hlen
    rw [hn, digitsVal_append, digitsVal_zeros, List.length_replicate, add_zero] at hv
    unfold dec12
    rw [← hv]
    push_cast
    rw [mul_assoc, ← zpow_natCast (10 : ℚ) n, ← zpow_add₀ (by norm_num)]
    congr 2
    omega

/-- `float()` of a text that begins with a digit. -/
theorem parseFloat_body [Rounding] {c : Char} {cs : Str} {q : ℚ} (hc : isDigit c = true)
    (hch : ∀ x ∈ c :: cs, isDigit x = true ∨ x = '.' ∨ x = 'e' ∨ x = '+' ∨ x = '-') (hp : parseDecimal (c :: cs) = some q) :
    parseFloat (c :: cs) = some (rnd q) ∧ parseFloat ('-' :: c :: cs) = some (rnd (-q)) := by
  have hsp : ∀ a ∈ c :: cs, isSpace a = false := by
    intro a ha
    rcases hch a ha with h | rfl | rfl | rfl | rfl
    · exact isSpace_of_isDigit h
    all_goals decide
  have hmap : (c :: cs).map lowerChar = c :: cs := by
    rw [List.map_congr_left (g := id)]
    · simp
    · intro a ha
      rcases hch a ha with h | rfl | rfl | rfl | rfl
      · exact lower_digit h
      all_goals decide
  have h1 : ((c :: cs) == c!"inf") = false := by
    rw [beq_eq_false_iff_ne]; rintro e; simp at e; rw [e.1] at hc; revert hc; decide
  have h2 : ((c :: cs) == c!"infinity") = false := by
    rw [beq_eq_false_iff_ne]; rintro e; simp at e; rw [e.1] at hc; revert hc; decide
  have h3 : ((c :: cs) == c!"nan") = false := by
    rw [beq_eq_false_iff_ne]; rintro e; simp at e; rw [e.1] at hc; revert hc; decide
  constructor
  · unfold parseFloat
    rw [strip_noSpace hsp, takeSign_digit hc]
    simp only [hmap, h1, h2, h3, Bool.or_self, Bool.false_eq_true, if_false, hp]
  · unfold parseFloat
    rw [strip_noSpace (s := '-' :: c :: cs)]
    · have ht : takeSign ('-' :: c :: cs) = (true, c :: cs) := rfl
      rw [ht]
      simp only [hmap, h1, h2, h3, Bool.or_self, Bool.false_eq_true, if_false, hp, if_true]
    · intro a ha
      rcases List.mem_cons.1 ha with rfl | ha
      · decide
      · exact hsp a ha

/-- The value printed for any number. -/
def shownAs (x : ℚ) : ℚ := if x < 0 then -shown (-x) else shown x

theorem parse_pyStr [Rounding] (x : ℚ) : parseFloat (pyStr (.fin x)) = some (rnd (shownAs x)) := by
  unfold pyStr shownAs
  simp only
  split_ifs with h
  · obtain ⟨ds, decpt, e, hd, hne, hv, _⟩ := posText_digits (q := -x) (by linarith)
    obtain ⟨c1, _, c3⟩ := layout_chars hd 11 decpt
    obtain ⟨c, cs, ec, hc⟩ := c3 hne
    have hp := parse_layout hd hne 11 decpt
    rw [hv] at hp
    rw [e, ec]
    rw [ec] at hp c1
    exact (parseFloat_body hc c1 hp).2
  · obtain ⟨ds, decpt, e, hd, hne, hv, _⟩ := posText_digits (q := x) (by linarith)
    obtain ⟨c1, _, c3⟩ := layout_chars hd 11 decpt
    obtain ⟨c, cs, ec, hc⟩ := c3 hne
    have hp := parse_layout hd hne 11 decpt
    rw [hv] at hp
    rw [e, ec]
    rw [ec] at hp c1
    exact (parseFloat_body hc c1 hp).1

theorem pyStr_chars (x : ℚ) : ∀ c ∈ pyStr (.fin x), isDigit c = true ∨ c = '.' ∨ c = 'e' ∨ c = '+' ∨ c = '-' := by
  unfold pyStr
  simp only
  split_ifs with h
  · obtain ⟨ds, decpt, e, hd, hne, hv, _⟩ := posText_digits (q := -x) (by linarith)
    intro c hc
    rcases List.mem_cons.1 hc with rfl | hc
    · simp
    · rw [e] at hc; exact (layout_chars hd 11 decpt).1 c hc
  · obtain ⟨ds, decpt, e, hd, hne, hv, _⟩ := posText_digits (q := x) (by linarith)
    intro c hc
    rw [e] at hc; exact (layout_chars hd 11 decpt).1 c hc

/-! ## What is shown -/

theorem shownAs_zero : shownAs 0 = 0 := by simp [shownAs, shown]

theorem shownAs_pos {x : ℚ} (h : 0 < x) : shownAs x = dec12 x := by
  unfold shownAs shown; rw [if_neg (by linarith), if_neg h.ne']

theorem shownAs_neg (x : ℚ) : shownAs (-x) = -shownAs x := by
  rcases lt_trichotomy x 0 with h | rfl | h
  · rw [shownAs_pos (by linarith)]
    unfold shownAs shown; rw [if_pos h, if_neg (by linarith), neg_neg]
  · simp [shownAs_zero]
  · rw [shownAs_pos h]
    unfold shownAs shown; rw [if_pos (by linarith), neg_neg, if_neg h.ne']

theorem decimal12_neg {z : ℚ} (h : Decimal12 z) : Decimal12 (-z) := by
  obtain ⟨m, k, hm, rfl⟩ := h
  exact ⟨-m, k, by rwa [abs_neg], by push_cast; ring⟩

theorem shownAs_nearest (x : ℚ) : Nearest12 x (shownAs x) := by
  rcases lt_trichotomy x 0 with h | rfl | h
  · obtain ⟨a, b⟩ := dec12_nearest (q := -x) (by linarith)
    have e : shownAs x = -dec12 (-x) := by
      rw [← shownAs_pos (by linarith : 0 < -x), shownAs_neg, neg_neg]
    rw [e]
    refine ⟨decimal12_neg a, fun z hz => ?_⟩
    have := b (-z) (decimal12_neg hz)
    rw [show -dec12 (-x) - x = -(dec12 (-x) - -x) by ring, abs_neg]
    rwa [show -z - -x = -(z - x) by ring, abs_neg] at this
  · rw [shownAs_zero]
    exact ⟨⟨0, 0, by norm_num, by simp⟩, fun z _ => by simp⟩
  · rw [shownAs_pos h]; exact dec12_nearest h

theorem nearest_close {x y : ℚ} (h : Nearest12 x y) : |y - x| ≤ |x| * 5 / 10 ^ 12 := by
  refine le_trans (h.2 _ (shownAs_nearest x).1) ?_
  rcases lt_trichotomy x 0 with hx | rfl | hx
  · have := dec12_err (q := -x) (by linarith)
    rw [show shownAs x - x = -(dec12 (-x) - -x) by
      rw [← shownAs_pos (by linarith : 0 < -x), shownAs_neg]; ring, abs_neg, abs_of_neg hx]
    exact this
  · simp [shownAs_zero]
  · rw [shownAs_pos hx, abs_of_pos hx]; exact dec12_err hx

theorem nearest_exact {x y : ℚ} (hx : Decimal12 x) (h : Nearest12 x y) : y = x := by
  have := h.2 x hx
  rw [sub_self, abs_zero] at this
  have := abs_nonpos_iff.1 this
  linarith

/-- Different decimals of twelve digits are far apart. -/
theorem decimal12_gap {d y : ℚ} (hd : Decimal12 d) (hy : Decimal12 y) (hne : y ≠ d) (hd0 : 0 < d) :
    d / 10 ^ 13 ≤ |y - d| := by
  have h1 := log10_le hd0
  have h2 := lt_log10 (q := d)
  set e := Int.log 10 d with he
  have hu := ten_pos (e - 12)
  have e1 : (10 : ℚ) ^ e = 10 ^ 12 * 10 ^ (e - 12) := by
    rw [← zpow_natCast (10 : ℚ) 12, ← zpow_add₀ (by norm_num)]; congr 1; push_cast; ring
  have e2 : (10 : ℚ) ^ (e + 1) = 10 ^ 13 * 10 ^ (e - 12) := by
    rw [← zpow_natCast (10 : ℚ) 13, ← zpow_add₀ (by norm_num)]; congr 1; push_cast; ring
  have e3 : (10 : ℚ) ^ (e - 1) = 10 ^ 11 * 10 ^ (e - 12) := by
    rw [← zpow_natCast (10 : ℚ) 11, ← zpow_add₀ (by norm_num)]; congr 1; push_cast; ring
  rw [e1] at h1
  rw [e2] at h2
  have hmul : ∀ z, Decimal12 z → (10 : ℚ) ^ (e - 1) ≤ z → ∃ t : ℤ, z = t * 10 ^ (e - 12) := by
    rintro z ⟨m, k, hm, rfl⟩ hz
    by_cases hk : e - 12 ≤ k
    · obtain ⟨j, hj⟩ := Int.le.dest hk
      exact ⟨m * 10 ^ j, by rw [← hj, zpow_add₀ (by norm_num), zpow_natCast]; push_cast; ring⟩
    · exfalso
      have hm' : (m : ℚ) < 10 ^ 12 := by
        have := (abs_lt.1 hm).2
        exact_mod_cast this
      have hk' : (10 : ℚ) ^ k ≤ 10 ^ (e - 13) := zpow_le_zpow_right₀ (by norm_num) (by omega)
      have e4 : (10 : ℚ) ^ (e - 1) = 10 ^ 12 * 10 ^ (e - 13) := by
        rw [← zpow_natCast (10 : ℚ) 12, ← zpow_add₀ (by norm_num)]; congr 1; push_cast; ring
      have h4 : (m : ℚ) * 10 ^ k < 10 ^ 12 * 10 ^ k := mul_lt_mul_of_pos_right hm' (ten_pos k)
      have h5 : (10 : ℚ) ^ 12 * 10 ^ k ≤ 10 ^ 12 * 10 ^ (e - 13) := by gcongr
      linarith
  have hgoal : (10 : ℚ) ^ (e - 12) ≤ |y - d| → d / 10 ^ 13 ≤ |y - d| := by
    intro h
    refine le_trans ?_ h
    rw [div_le_iff₀ (by norm_num)]
    linarith
  apply hgoal
  by_cases hy1 : (10 : ℚ) ^ (e - 1) ≤ y
  · obtain ⟨t, rfl⟩ := hmul y hy hy1
    obtain ⟨s, hs⟩ := hmul d hd (by rw [e3]; nlinarith)
    rw [hs, ← sub_mul, abs_mul, abs_of_pos hu]
    have hts : t ≠ s := by rintro rfl; exact hne hs.symm
    have : (1 : ℚ) ≤ |(t : ℚ) - s| := by
      have : 1 ≤ |t - s| := Int.one_le_abs (sub_ne_zero.2 hts)
      exact_mod_cast this
    nlinarith
  · push Not at hy1
    rw [e3] at hy1
    rw [abs_of_nonpos (by nlinarith)]
    nlinarith

/-- A decimal of twelve digits is shown as itself when it was rounded to a double. -/
theorem nearest_double {d x y : ℚ} (hd : Decimal12 d) (hx : |x - d| ≤ |d| / 2 ^ 53) (h : Nearest12 x y) : y = d := by
  have key : ∀ d x y : ℚ, 0 < d → Decimal12 d → |x - d| ≤ |d| / 2 ^ 53 → Decimal12 y → |y - x| ≤ |d - x| → y = d := by
    intro d x y h0 hd hx hy hn
    by_contra hne
    have hg := decimal12_gap hd hy hne h0
    rw [abs_of_pos h0] at hx
    have h1 : |y - d| ≤ |y - x| + |x - d| := by
      have := abs_add_le (y - x) (x - d)
      rwa [sub_add_sub_cancel] at this
    rw [abs_sub_comm d x] at hn
    have : d / 10 ^ 13 ≤ 2 * (d / 2 ^ 53) := by linarith
    have h2 : d / 10 ^ 13 = d * (1 / 10 ^ 13) := by ring
    have h3 : 2 * (d / 2 ^ 53) = d * (2 / 2 ^ 53) := by ring
    rw [h2, h3] at this
    have h4 := le_of_mul_le_mul_left this h0
    norm_num at h4
  rcases lt_trichotomy d 0 with hlt | rfl | hgt
  · have := key (-d) (-x) (-y) (by linarith) (decimal12_neg hd) (by
      rw [show -x - -d = -(x - d) by ring, abs_neg, abs_neg]; exact hx) (decimal12_neg h.1) (by
      rw [show -y - -x = -(y - x) by ring, show -d - -x = -(d - x) by ring, abs_neg, abs_neg]; exact h.2 d hd)
    linarith
  · simp only [sub_zero, abs_zero, zero_div] at hx
    have hx0 := abs_nonpos_iff.1 hx
    subst hx0
    exact nearest_exact hd h
  · exact key d x y hgt hd hx h.1 (h.2 d hd)

end Txstatsd
