import Verif.Lemmas.FloatShape
import Verif.Model.Json
import Verif.Spec.Json

set_option linter.unusedSectionVars false
set_option linter.unusedSimpArgs false
set_option linter.unusedVariables false

namespace Txstatsd
open Spec

/-! ## Seventeen digits suffice -/

theorem nearestEven_of_close {s : ℚ} {M : ℤ} (h : |s - M| < 1 / 2) : nearestEven s = M := by
  have h1 := nearestEven_err s
  have h2 : |((nearestEven s - M : ℤ) : ℚ)| < 1 := by
    push_cast
    calc |(nearestEven s : ℚ) - M| = |((nearestEven s : ℚ) - s) + (s - M)| := by ring_nf
      _ ≤ |(nearestEven s : ℚ) - s| + |s - M| := abs_add_le _ _
      _ < 1 := by linarith
  have h3 : |nearestEven s - M| < 1 := by exact_mod_cast h2
  have := Int.abs_lt_one_iff.1 h3
  omega

theorem log_unique {q : ℚ} {e : ℤ} (h1 : (2 : ℚ) ^ e ≤ q) (h2 : q < (2 : ℚ) ^ (e + 1)) : Int.log 2 q = e := by
  have hq : 0 < q := lt_of_lt_of_le (two_zpow_pos e) h1
  have a := log_le hq
  have b := lt_log hq
  have c : (2 : ℚ) ^ e < 2 ^ (Int.log 2 q + 1) := lt_of_le_of_lt h1 b
  have d : (2 : ℚ) ^ Int.log 2 q < 2 ^ (e + 1) := lt_of_le_of_lt a h2
  have c' := (zpow_lt_zpow_iff_right₀ (by norm_num : (1 : ℚ) < 2)).1 c
  have d' := (zpow_lt_zpow_iff_right₀ (by norm_num : (1 : ℚ) < 2)).1 d
  omega

/-- A number very near to a double is rounded to it. -/
theorem roundPos_close {x y : ℚ} (hx : 0 < x) (hb : Bits x) (h : |y - x| ≤ x * 5 / 10 ^ 17) : roundPos y = x := by
  obtain ⟨hl, hr⟩ := abs_le.1 h
  have hy : 0 < y := by
    have : x * 5 / 10 ^ 17 < x := by
      rw [div_lt_iff₀ (by norm_num)]; nlinarith
    linarith
  have hbx := roundPos_of_bits hx hb
  have hx1 := log_le hx
  have hx2 := lt_log hx
  have hP := two_zpow_pos (Int.log 2 x)
  have e2 : (2 : ℚ) ^ (Int.log 2 x + 1) = 2 * 2 ^ Int.log 2 x := by rw [zpow_add_one₀ (by norm_num)]; ring
  have e3 : (2 : ℚ) ^ Int.log 2 x = 2 * 2 ^ (Int.log 2 x - 1) := by
    rw [show Int.log 2 x = (Int.log 2 x - 1) + 1 by ring, zpow_add_one₀ (by norm_num)]; ring_nf
  have e4 : (2 : ℚ) ^ (Int.log 2 x + 2) = 4 * 2 ^ Int.log 2 x := by
    rw [zpow_add₀ (by norm_num)]; norm_num; ring
  -- the number of places of `x`
  obtain ⟨M, hM⟩ : ∃ M : ℤ, x = M * 2 ^ lastPlace x := ⟨_, hbx.symm⟩
  have hL : lastPlace x = max (Int.log 2 x - 52) (-1074) := rfl
  have hsmall : x * 5 / 10 ^ 17 < (2 : ℚ) ^ Int.log 2 x / 2 ^ 53 := by
    rw [div_lt_div_iff₀ (by norm_num) (by norm_num)]
    have : (x : ℚ) * 5 * 2 ^ 53 < 2 * 2 ^ Int.log 2 x * 5 * 2 ^ 53 := by
      have : x < 2 * 2 ^ Int.log 2 x := by rw [← e2]; exact hx2
      have := mul_lt_mul_of_pos_right this (by norm_num : (0 : ℚ) < 5 * 2 ^ 53)
      linarith
    refine lt_of_lt_of_le this ?_
    nlinarith
  have hu : (2 : ℚ) ^ (Int.log 2 x - 52) = 2 ^ Int.log 2 x / 2 ^ 52 := by
    rw [zpow_sub₀ (by norm_num)]; norm_num
  have hLge : (2 : ℚ) ^ (Int.log 2 x - 52) ≤ 2 ^ lastPlace x := zpow_mono (by omega)
  have hLpos := two_zpow_pos (lastPlace x)
  by_cases c1 : y < 2 ^ Int.log 2 x
  · -- just below a power of two
    have hylog : Int.log 2 y = Int.log 2 x - 1 := by
      apply log_unique
      · have : x * 5 / 10 ^ 17 ≤ x / 2 := by
          rw [div_le_div_iff₀ (by norm_num) (by norm_num)]; nlinarith
        have : x / 2 ≤ y := by linarith
        linarith
      · rw [show Int.log 2 x - 1 + 1 = Int.log 2 x by ring]; exact c1
    have hxP : x ≤ 2 ^ Int.log 2 x * (1 + 1 / 10 ^ 10) := by
      have : x * (1 - 5 / 10 ^ 17) < 2 ^ Int.log 2 x := by linarith
      nlinarith
    have hyL : lastPlace y = lastPlace x ∨ (lastPlace y = Int.log 2 x - 53 ∧ lastPlace x = Int.log 2 x - 52) := by
      unfold lastPlace; rw [hylog]; omega
    rcases hyL with e | ⟨ey, ex⟩
    · unfold roundPos
      rw [e]
      have : nearestEven (y / 2 ^ lastPlace x) = M := by
        apply nearestEven_of_close
        have : y / 2 ^ lastPlace x - M = (y - x) / 2 ^ lastPlace x := by
          rw [eq_div_iff hLpos.ne', sub_mul, div_mul_cancel₀ _ hLpos.ne', ← hM]
        rw [this, abs_div, abs_of_pos hLpos, div_lt_iff₀ hLpos]
        refine lt_of_le_of_lt h (lt_of_lt_of_le hsmall ?_)
        rw [hu] at hLge
        linarith
      rw [this]; exact hM.symm
    · unfold roundPos
      rw [ey]
      have hq := two_zpow_pos (Int.log 2 x - 53)
      have e5 : (2 : ℚ) ^ lastPlace x = 2 * 2 ^ (Int.log 2 x - 53) := by
        rw [ex, show Int.log 2 x - 52 = (Int.log 2 x - 53) + 1 by ring, zpow_add_one₀ (by norm_num)]; ring
      have e6 : (2 : ℚ) ^ (Int.log 2 x - 53) = 2 ^ Int.log 2 x / 2 ^ 53 := by
        rw [zpow_sub₀ (by norm_num)]; norm_num
      have hM2 : x = ((2 * M : ℤ) : ℚ) * 2 ^ (Int.log 2 x - 53) := by
        rw [e5] at hM; push_cast; linarith
      have : nearestEven (y / 2 ^ (Int.log 2 x - 53)) = 2 * M := by
        apply nearestEven_of_close
        have : y / 2 ^ (Int.log 2 x - 53) - ((2 * M : ℤ) : ℚ) = (y - x) / 2 ^ (Int.log 2 x - 53) := by
          rw [eq_div_iff hq.ne', sub_mul, div_mul_cancel₀ _ hq.ne', ← hM2]
        rw [this, abs_div, abs_of_pos hq, div_lt_iff₀ hq, e6]
        refine lt_of_le_of_lt h ?_
        rw [div_lt_iff₀ (by norm_num)]
        nlinarith
      rw [this]; exact hM2.symm
  · push Not at c1
    by_cases c2 : y < 2 ^ (Int.log 2 x + 1)
    · have hylog : Int.log 2 y = Int.log 2 x := log_unique c1 c2
      have e : lastPlace y = lastPlace x := by unfold lastPlace; rw [hylog]
      unfold roundPos
      rw [e]
      have : nearestEven (y / 2 ^ lastPlace x) = M := by
        apply nearestEven_of_close
        have : y / 2 ^ lastPlace x - M = (y - x) / 2 ^ lastPlace x := by
          rw [eq_div_iff hLpos.ne', sub_mul, div_mul_cancel₀ _ hLpos.ne', ← hM]
        rw [this, abs_div, abs_of_pos hLpos, div_lt_iff₀ hLpos]
        refine lt_of_le_of_lt h (lt_of_lt_of_le hsmall ?_)
        rw [hu] at hLge
        linarith
      rw [this]; exact hM.symm
    · push Not at c2
      by_cases hn : lastPlace x = -1074 ∧ Int.log 2 x + 1 - 52 ≤ -1074
      · -- the subnormals and their successor share the last place
        have hylog : Int.log 2 y = Int.log 2 x + 1 := by
          apply log_unique c2
          have : y < 2 * x := by
            have : x * 5 / 10 ^ 17 < x := by rw [div_lt_iff₀ (by norm_num)]; nlinarith
            linarith
          rw [show Int.log 2 x + 1 + 1 = Int.log 2 x + 2 by ring, e4]
          rw [e2] at hx2
          linarith
        have e : lastPlace y = lastPlace x := by rw [hn.1]; unfold lastPlace; rw [hylog]; omega
        unfold roundPos
        rw [e]
        have : nearestEven (y / 2 ^ lastPlace x) = M := by
          apply nearestEven_of_close
          have : y / 2 ^ lastPlace x - M = (y - x) / 2 ^ lastPlace x := by
            rw [eq_div_iff hLpos.ne', sub_mul, div_mul_cancel₀ _ hLpos.ne', ← hM]
          rw [this, abs_div, abs_of_pos hLpos, div_lt_iff₀ hLpos]
          refine lt_of_le_of_lt h (lt_of_lt_of_le hsmall ?_)
          rw [hu] at hLge
          linarith
        rw [this]; exact hM.symm
      · -- otherwise the next power of two is too far away
        exfalso
        have hLle : lastPlace x ≤ Int.log 2 x + 1 := by omega
        obtain ⟨z, hz, ez⟩ := places hLle
        have hQ : (2 : ℚ) ^ (Int.log 2 x + 1) = z * 2 ^ lastPlace x := by
          rw [← ez]; field_simp
        have h1 : (M : ℚ) < z := by
          have : (M : ℚ) * 2 ^ lastPlace x < z * 2 ^ lastPlace x := by rw [← hM, ← hQ]; exact hx2
          exact lt_of_mul_lt_mul_right this hLpos.le
        have h2 : (M : ℚ) + 1 ≤ z := by
          have : M < z := by exact_mod_cast h1
          have : M + 1 ≤ z := by omega
          exact_mod_cast this
        have h3 : x + 2 ^ lastPlace x ≤ 2 ^ (Int.log 2 x + 1) := by
          rw [hQ]; nlinarith
        rw [hu] at hLge
        have : (2 : ℚ) ^ Int.log 2 x / 2 ^ 53 ≤ 2 ^ Int.log 2 x / 2 ^ 52 := by
          apply div_le_div_of_nonneg_left hP.le (by norm_num) (by norm_num)
        linarith

section
attribute [local instance] binary64

theorem rnd_close {x y : ℚ} (hx : 0 < x) (hd : rnd x = .fin x) (h : |y - x| ≤ x * 5 / 10 ^ 17) : rnd y = .fin x := by
  haveI := binary64_ieee
  obtain ⟨hb, hlt⟩ := Ieee.rep.1 hd
  rw [abs_of_pos hx] at hlt
  have hy : 0 < y := by
    have : x * 5 / 10 ^ 17 < x := by
      rw [div_lt_iff₀ (by norm_num)]; nlinarith
    have := (abs_le.1 h).1
    linarith
  have hr := roundPos_close hx hb h
  change roundDouble y = _
  rw [roundDouble_pos hy, hr, if_neg (not_le.2 hlt)]

end

/-! ## The fewest digits -/

theorem findSome_first {β : Type} {f : ℕ → Option β} (n : ℕ) : 
    (∀ b, (List.range n).findSome? f = some b → ∃ i < n, f i = some b ∧ ∀ j < i, f j = none) ∧
    ((List.range n).findSome? f = none → ∀ j < n, f j = none) := by
  induction n with
  | zero => exact ⟨fun b h => by simp at h, fun _ j hj => by omega⟩
  | succ n ih =>
    rw [List.range_succ, List.findSome?_append]
    cases hc : (List.range n).findSome? f with
    | some b =>
      refine ⟨fun b' h => ?_, fun h => by simp at h⟩
      simp only [Option.some_or, Option.some.injEq] at h
      subst h
      obtain ⟨i, a, b1, c⟩ := ih.1 _ hc
      exact ⟨i, by omega, b1, c⟩
    | none =>
      have hn := ih.2 hc
      have e : List.findSome? f [n] = f n := by
        cases h : f n <;> simp [List.findSome?, h]
      simp only [Option.none_or, e]
      refine ⟨fun b h => ⟨n, by omega, h, hn⟩, fun h j hj => ?_⟩
      rcases Nat.lt_succ_iff_lt_or_eq.1 hj with h' | rfl
      · exact hn j h'
      · exact h

section
variable [Rounding]

theorem digitsOf_some {q : ℚ} {n : ℕ} {m : ℕ} {k : ℤ} (hq : 0 < q) (hn : 1 ≤ n) (h : digitsOf q n = some (m, k)) :
    k = Int.log 10 q - (n - 1 : ℤ) ∧ 10 ^ (n - 1) ≤ m ∧ m ≤ 10 ^ n ∧ rnd (m * (10 : ℚ) ^ k) = .fin q ∧
    ((m : ℤ) = nearestEven (q / (10 : ℚ) ^ k) ∨
      (((m : ℤ) = ⌊q / (10 : ℚ) ^ k⌋ ∨ (m : ℤ) = ⌊q / (10 : ℚ) ^ k⌋ + 1) ∧
        rnd ((nearestEven (q / (10 : ℚ) ^ k) : ℚ) * (10 : ℚ) ^ k) ≠ .fin q)) := by
  unfold digitsOf at h
  simp only [Option.map_eq_some_iff, Prod.mk.injEq] at h
  obtain ⟨m', hf, rfl, hk⟩ := h
  rw [hk] at hf
  have hu := ten_pos k
  have hlo : ((10 : ℚ) ^ (n - 1)) ≤ q / 10 ^ k := by
    rw [le_div_iff₀ hu, ← zpow_natCast, ← zpow_add₀ (by norm_num)]
    refine le_trans (le_of_eq ?_) (log10_le hq)
    congr 1; push_cast [hn]; omega
  have hhi : q / 10 ^ k < (10 : ℚ) ^ n := by
    rw [div_lt_iff₀ hu, ← zpow_natCast, ← zpow_add₀ (by norm_num)]
    refine lt_of_lt_of_le lt_log10 (le_of_eq ?_)
    congr 1; omega
  generalize q / (10 : ℚ) ^ k = s at *
  have f1 : ((10 ^ (n - 1) : ℕ) : ℤ) ≤ ⌊s⌋ := Int.le_floor.2 (by push_cast; exact hlo)
  have f2 : ⌊s⌋ < ((10 ^ n : ℕ) : ℤ) := Int.floor_lt.2 (by push_cast; exact hhi)
  have g1 : ((10 ^ (n - 1) : ℕ) : ℤ) ≤ nearestEven s := le_nearestEven (by push_cast; exact hlo)
  have g2 : nearestEven s ≤ ((10 ^ n : ℕ) : ℤ) := nearestEven_le (by push_cast; exact hhi.le)
  have hp := List.find?_some hf
  simp only [decide_eq_true_eq] at hp
  have hm := List.mem_of_find?_eq_some hf
  simp only [List.mem_cons, List.not_mem_nil, or_false] at hm
  have hb : ((10 ^ (n - 1) : ℕ) : ℤ) ≤ m' ∧ m' ≤ ((10 ^ n : ℕ) : ℤ) := by
    rcases hm with rfl | rfl | rfl
    · exact ⟨g1, g2⟩
    · exact ⟨f1, f2.le⟩
    · exact ⟨by omega, by omega⟩
  have h0 : (0 : ℤ) ≤ m' := le_trans (by positivity) hb.1
  have hc : ((m'.toNat : ℕ) : ℤ) = m' := Int.toNat_of_nonneg h0
  have hc' : ((m'.toNat : ℕ) : ℚ) = (m' : ℚ) := by exact_mod_cast congrArg (Int.cast (R := ℚ)) hc
  refine ⟨hk.symm, by omega, by omega, by rw [hc']; exact hp, ?_⟩
  rw [hc]
  by_cases hne : m' = nearestEven s
  · exact Or.inl hne
  · right
    refine ⟨by rcases hm with h | h | h; exacts [absurd h hne, Or.inl h, Or.inr h], fun hr => ?_⟩
    rw [List.find?_cons_of_pos (by simpa using hr)] at hf
    exact hne (Option.some.inj hf).symm

theorem digitsOf_none {q : ℚ} {n : ℕ} (h : digitsOf q n = none) :
    let k := Int.log 10 q - (n - 1 : ℤ)
    rnd ((⌊q / (10 : ℚ) ^ k⌋ : ℚ) * 10 ^ k) ≠ .fin q ∧ rnd ((((⌊q / (10 : ℚ) ^ k⌋ + 1 : ℤ)) : ℚ) * 10 ^ k) ≠ .fin q ∧
    rnd ((nearestEven (q / (10 : ℚ) ^ k) : ℚ) * 10 ^ k) ≠ .fin q := by
  intro k
  unfold digitsOf at h
  simp only [Option.map_eq_none_iff, List.find?_eq_none, decide_eq_true_eq] at h
  exact ⟨h ⌊q / (10 : ℚ) ^ k⌋ (by simp [k]), h (⌊q / (10 : ℚ) ^ k⌋ + 1) (by simp [k]), h (nearestEven (q / (10 : ℚ) ^ k)) (by simp [k])⟩

/-- A decimal number is a whole number of places. -/
theorem decimal_grid {n : ℕ} {z : ℚ} {e : ℤ} (hz : DecimalOf n z) (h : (10 : ℚ) ^ e ≤ z) :
    ∃ t : ℤ, z = t * 10 ^ (e - (n - 1 : ℤ)) := by
  obtain ⟨m, k, hm, rfl⟩ := hz
  by_cases hk : e - (n - 1 : ℤ) ≤ k
  · obtain ⟨j, hj⟩ := Int.le.dest hk
    exact ⟨m * 10 ^ j, by rw [← hj, zpow_add₀ (by norm_num), zpow_natCast]; push_cast; ring⟩
  · exfalso
    have hm' : (m : ℚ) < 10 ^ n := by
      have := (abs_lt.1 hm).2
      exact_mod_cast this
    have h4 : (m : ℚ) * 10 ^ k < 10 ^ n * 10 ^ k := mul_lt_mul_of_pos_right hm' (ten_pos k)
    rw [← zpow_natCast (10 : ℚ) n, ← zpow_add₀ (by norm_num)] at h4
    have h5 : (10 : ℚ) ^ ((n : ℤ) + k) ≤ 10 ^ e := zpow_le_zpow_right₀ (by norm_num) (by omega)
    linarith

theorem repr_between [Ieee] {a b c q : ℚ} (h1 : a ≤ b) (h2 : b ≤ c) (ha : rnd a = .fin q) (hc : rnd c = .fin q) : rnd b = .fin q := by
  have m1 := Ieee.mono h1
  have m2 := Ieee.mono h2
  rw [ha] at m1
  rw [hc] at m2
  cases hb : rnd b with
  | nan => rw [hb] at m1; simp [PyFloat.le] at m1
  | inf neg =>
    rw [hb] at m1 m2
    cases neg <;> simp [PyFloat.le] at m1 m2
  | fin r =>
    rw [hb] at m1 m2
    simp only [PyFloat.le, decide_eq_true_eq] at m1 m2
    rw [le_antisymm m2 m1]

/-- Where no digits were found, no decimal number of so many digits is read as the float. -/
theorem no_fewer [Ieee] {q : ℚ} (hq : 0 < q) (hd : rnd q = .fin q) {n : ℕ} (h : digitsOf q n = none) {z : ℚ}
    (hz : DecimalOf n z) : rnd z ≠ .fin q := by
  obtain ⟨a, b, _⟩ := digitsOf_none h
  intro hr
  have hu := ten_pos (Int.log 10 q - (n - 1 : ℤ))
  generalize hk : Int.log 10 q - (n - 1 : ℤ) = k at *
  have f1 := Int.floor_le (q / 10 ^ k)
  have f2 := Int.lt_floor_add_one (q / 10 ^ k)
  rw [le_div_iff₀ hu] at f1
  rw [div_lt_iff₀ hu] at f2
  by_cases hz0 : (10 : ℚ) ^ Int.log 10 q ≤ z
  · obtain ⟨t, ht⟩ := decimal_grid hz hz0
    rw [hk] at ht
    by_cases hzq : z ≤ q
    · refine a (repr_between ?_ f1 hr hd)
      rw [ht]
      have : t ≤ ⌊q / (10 : ℚ) ^ k⌋ := Int.le_floor.2 (by rw [le_div_iff₀ hu, ← ht]; exact hzq)
      have : (t : ℚ) ≤ ⌊q / (10 : ℚ) ^ k⌋ := by exact_mod_cast this
      exact mul_le_mul_of_nonneg_right this hu.le
    · push Not at hzq
      refine b (repr_between (a := q) (by push_cast; exact f2.le) ?_ hd hr)
      rw [ht]
      have : ⌊q / (10 : ℚ) ^ k⌋ < t := Int.floor_lt.2 (by rw [div_lt_iff₀ hu, ← ht]; exact hzq)
      have : ((⌊q / (10 : ℚ) ^ k⌋ + 1 : ℤ) : ℚ) ≤ t := by exact_mod_cast this
      exact mul_le_mul_of_nonneg_right this hu.le
  · push Not at hz0
    -- a power of ten lies between
    rcases Nat.eq_zero_or_pos n with rfl | hn
    · obtain ⟨m, k', hm, rfl⟩ := hz
      have : m = 0 := by
        have : |m| < 1 := by simpa using hm
        exact Int.abs_lt_one_iff.1 this
      subst this
      have h2 : ⌊q / (10 : ℚ) ^ k⌋ = 0 := by
        rw [Int.floor_eq_zero_iff]
        refine ⟨by positivity, ?_⟩
        rw [div_lt_one hu, ← hk, show Int.log 10 q - (((0 : ℕ) : ℤ) - 1) = Int.log 10 q + 1 by omega]
        exact lt_log10
      rw [h2] at a
      apply a
      simpa using hr
    · refine a (repr_between (a := z) ?_ f1 hr hd)
      have : ((10 ^ (n - 1) : ℕ) : ℤ) ≤ ⌊q / (10 : ℚ) ^ k⌋ := by
        refine Int.le_floor.2 ?_
        rw [le_div_iff₀ hu]
        push_cast
        rw [← zpow_natCast, ← zpow_add₀ (by norm_num)]
        refine le_trans (le_of_eq ?_) (log10_le hq)
        congr 1; rw [← hk]; push_cast [hn]; ring
      have : ((10 ^ (n - 1) : ℕ) : ℚ) ≤ ⌊q / (10 : ℚ) ^ k⌋ := by exact_mod_cast this
      have h3 := mul_le_mul_of_nonneg_right this hu.le
      refine le_trans hz0.le (le_trans (le_of_eq ?_) h3)
      push_cast
      rw [← zpow_natCast, ← zpow_add₀ (by norm_num)]
      congr 1; rw [← hk]; push_cast [hn]; ring

/-- Among the decimal numbers of so many digits that are read as the float, the chosen one is the nearest. -/
theorem closest [Ieee] {q : ℚ} (hq : 0 < q) (hd : rnd q = .fin q) {n m : ℕ} {k : ℤ} (hn : 1 ≤ n) (h : digitsOf q n = some (m, k)) {z : ℚ}
    (hz : DecimalOf n z) (hr : rnd z = .fin q) : |(m : ℚ) * 10 ^ k - q| ≤ |z - q| := by
  obtain ⟨hk, m1, m2, hm, hc⟩ := digitsOf_some hq hn h
  have hu := ten_pos k
  have hgrid : ∀ t : ℤ, |(nearestEven (q / (10 : ℚ) ^ k) : ℚ) * 10 ^ k - q| ≤ |(t : ℚ) * 10 ^ k - q| := by
    intro t
    have hn := nearestEven_nearest (q / (10 : ℚ) ^ k) t
    have := mul_le_mul_of_nonneg_right hn hu.le
    rwa [← abs_of_pos hu, ← abs_mul, ← abs_mul, abs_of_pos hu, sub_mul, sub_mul, div_mul_cancel₀ _ hu.ne'] at this
  have hpow : ((10 ^ (n - 1) : ℕ) : ℚ) * 10 ^ k = 10 ^ Int.log 10 q := by
    push_cast
    rw [← zpow_natCast, ← zpow_add₀ (by norm_num)]
    congr 1; rw [hk]; push_cast [hn]; ring
  have hlow := log10_le hq
  -- it is enough to consider the places
  suffices H : ∀ t : ℤ, rnd ((t : ℚ) * 10 ^ k) = .fin q → |(m : ℚ) * 10 ^ k - q| ≤ |(t : ℚ) * 10 ^ k - q| by
    by_cases hz0 : (10 : ℚ) ^ Int.log 10 q ≤ z
    · obtain ⟨t, ht⟩ := decimal_grid hz hz0
      rw [← hk] at ht
      rw [ht] at hr ⊢
      exact H t hr
    · push Not at hz0
      have h1 : rnd ((((10 ^ (n - 1) : ℕ) : ℤ) : ℚ) * 10 ^ k) = .fin q := by
        have e : (((10 ^ (n - 1) : ℕ) : ℤ) : ℚ) = ((10 ^ (n - 1) : ℕ) : ℚ) := by push_cast; rfl
        rw [e, hpow]
        exact repr_between hz0.le hlow hr hd
      have h2 := H _ h1
      have e : (((10 ^ (n - 1) : ℕ) : ℤ) : ℚ) = ((10 ^ (n - 1) : ℕ) : ℚ) := by push_cast; rfl
      rw [e, hpow, abs_of_nonpos (by linarith : (10 : ℚ) ^ Int.log 10 q - q ≤ 0)] at h2
      rw [abs_of_nonpos (by linarith : z - q ≤ 0)]
      linarith
  intro t ht
  have cast : ∀ a : ℤ, (m : ℤ) = a → (m : ℚ) = a := fun a e => by
    have := congrArg (Int.cast (R := ℚ)) e; simpa using this
  rcases hc with hc | ⟨hc, hne⟩
  · rw [cast _ hc]; exact hgrid t
  · -- the nearest is not read as the float: it lies on the other side
    have f1 := Int.floor_le (q / 10 ^ k)
    have f2 := Int.lt_floor_add_one (q / 10 ^ k)
    have f1' := f1
    have f2' := f2
    rw [le_div_iff₀ hu] at f1'
    rw [div_lt_iff₀ hu] at f2'
    have hnear : nearestEven (q / (10 : ℚ) ^ k) = ⌊q / (10 : ℚ) ^ k⌋ ∨ nearestEven (q / (10 : ℚ) ^ k) = ⌊q / (10 : ℚ) ^ k⌋ + 1 := by
      unfold nearestEven; split_ifs <;> simp
    generalize hfl : ⌊q / (10 : ℚ) ^ k⌋ = f at *
    have up : ∀ t : ℤ, f + 1 ≤ t → ((f + 1 : ℤ) : ℚ) * 10 ^ k ≤ t * 10 ^ k := fun t h =>
      mul_le_mul_of_nonneg_right (by exact_mod_cast h) hu.le
    have down : ∀ t : ℤ, t ≤ f → (t : ℚ) * 10 ^ k ≤ f * 10 ^ k := fun t h =>
      mul_le_mul_of_nonneg_right (by exact_mod_cast h) hu.le
    have f2'' : q < ((f + 1 : ℤ) : ℚ) * 10 ^ k := by push_cast; exact f2'
    rcases hnear with hN | hN
    · -- the one above was chosen
      rcases hc with hc | hc
      · rw [hN, ← cast _ hc] at hne; exact absurd hm hne
      · rw [cast _ hc]
        by_cases hle : f + 1 ≤ t
        · rw [abs_of_nonneg (by linarith), abs_of_nonneg (by linarith [up t hle])]
          linarith [up t hle]
        · exfalso
          rw [hN] at hne
          exact hne (repr_between (down t (by omega)) f1' ht hd)
    · rcases hc with hc | hc
      · rw [cast _ hc]
        by_cases hle : t ≤ f
        · rw [abs_of_nonpos (by linarith), abs_of_nonpos (by linarith [down t hle])]
          linarith [down t hle]
        · exfalso
          rw [hN] at hne
          exact hne (repr_between f2''.le (up t (by omega)) hd ht)
      · rw [hN, ← cast _ hc] at hne; exact absurd hm hne

end

section
attribute [local instance] binary64

theorem digits17 {q : ℚ} (hq : 0 < q) (hd : rnd q = .fin q) : digitsOf q 17 ≠ none := by
  intro h
  obtain ⟨_, _, c⟩ := digitsOf_none h
  apply c
  have hu := ten_pos (Int.log 10 q - ((17 : ℕ) - 1 : ℤ))
  generalize hk : Int.log 10 q - ((17 : ℕ) - 1 : ℤ) = k at *
  apply rnd_close hq hd
  have he := nearestEven_err (q / (10 : ℚ) ^ k)
  have := mul_le_mul_of_nonneg_right he hu.le
  rw [← abs_of_pos hu, ← abs_mul, abs_of_pos hu, sub_mul, div_mul_cancel₀ _ hu.ne'] at this
  refine this.trans ?_
  have h1 := log10_le hq
  have e1 : (10 : ℚ) ^ Int.log 10 q = 10 ^ 16 * 10 ^ k := by
    rw [← zpow_natCast (10 : ℚ) 16, ← zpow_add₀ (by norm_num)]; congr 1; rw [← hk]; push_cast; ring
  rw [e1] at h1
  rw [le_div_iff₀ (by norm_num)]
  linarith

/-- The digits of a positive double. -/
theorem reprDigits_spec {q : ℚ} (hq : 0 < q) (hd : rnd q = .fin q) : ∃ n m k, reprDigits q = some (m, k) ∧ 1 ≤ n ∧ n ≤ 17 ∧
    digitsOf q n = some (m, k) ∧ ∀ j, j < n → 1 ≤ j → digitsOf q j = none := by
  obtain ⟨a, b⟩ := findSome_first (f := fun i => digitsOf q (i + 1)) 17
  cases h : reprDigits q with
  | none => exact absurd (b h 16 (by norm_num)) (digits17 hq hd)
  | some mk =>
    obtain ⟨i, hi, hf, hlt⟩ := a mk h
    refine ⟨i + 1, mk.1, mk.2, rfl, by omega, by omega, hf, fun j hj h1 => ?_⟩
    have := hlt (j - 1) (by omega)
    rwa [Nat.sub_add_cancel h1] at this

end

end Txstatsd
