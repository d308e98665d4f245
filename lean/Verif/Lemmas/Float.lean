import Verif.Lemmas.Ieee

/-!
# Consequences of the laws of double arithmetic
-/

set_option linter.unusedSectionVars false
set_option linter.unusedSimpArgs false
set_option linter.unusedVariables false

namespace Txstatsd
variable [Rounding] [Ieee]

theorem rnd_ne_nan (q : ℚ) : rnd q ≠ .nan := by
  intro h
  have := Ieee.mono (le_refl q)
  rw [h] at this; cases this

theorem rnd_int {z : ℤ} (h : |z| ≤ 2 ^ 53) : rnd (z : ℚ) = .fin z := by
  refine Ieee.rep.2 ⟨⟨z, 0, h, by norm_num, by simp⟩, ?_⟩
  have h1 : |(z : ℚ)| ≤ 2 ^ 53 := by exact_mod_cast h
  have h2 : (2 : ℚ) ^ 53 < 2 ^ (1024 : ℤ) := by
    have : (2 : ℚ) ^ (53 : ℤ) < 2 ^ (1024 : ℤ) := zpow_lt_zpow_right₀ (by norm_num) (by norm_num)
    rwa [show (2 : ℚ) ^ (53 : ℤ) = 2 ^ 53 by norm_cast] at this
  exact lt_of_le_of_lt h1 h2

instance : IntExact := ⟨fun z h => rnd_int h⟩

theorem rnd_zero : rnd 0 = .fin 0 := by
  have := rnd_int (z := 0) (by norm_num)
  simpa using this

theorem rnd_between {a b q : ℚ} (ha : rnd a = .fin a) (hb : rnd b = .fin b) (h1 : a ≤ q) (h2 : q ≤ b) :
    ∃ r, rnd q = .fin r ∧ a ≤ r ∧ r ≤ b := by
  have e1 := Ieee.mono h1
  have e2 := Ieee.mono h2
  rw [ha] at e1
  rw [hb] at e2
  cases h : rnd q with
  | nan => exact absurd h (rnd_ne_nan q)
  | inf s => rw [h] at e1 e2; cases s <;> simp [PyFloat.le] at e1 e2
  | fin r => rw [h] at e1 e2; simp [PyFloat.le] at e1 e2; exact ⟨r, rfl, e1, e2⟩

theorem rnd_nonneg {q : ℚ} (h : 0 ≤ q) : rnd q = .inf false ∨ ∃ r, rnd q = .fin r ∧ 0 ≤ r := by
  have e := Ieee.mono h
  rw [rnd_zero] at e
  cases hq : rnd q with
  | nan => exact absurd hq (rnd_ne_nan q)
  | inf s => rw [hq] at e; cases s <;> simp [PyFloat.le] at e ⊢
  | fin r => rw [hq] at e; simp [PyFloat.le] at e; exact Or.inr ⟨r, rfl, e⟩

theorem rep_neg {q : ℚ} (h : rnd q = .fin q) : rnd (-q) = .fin (-q) := by
  rw [Ieee.neg, h]; rfl

theorem rep_grid {q : ℚ} (h : rnd q = .fin q) : ∃ z : ℤ, q = z * 2 ^ (-1074 : ℤ) := by
  obtain ⟨⟨m, e, _, he, rfl⟩, _⟩ := Ieee.rep.1 h
  obtain ⟨z, _, hz⟩ := places he
  refine ⟨m * z, ?_⟩
  push_cast
  rw [← hz]
  have := two_zpow_pos (-1074)
  generalize (2 : ℚ) ^ (-1074 : ℤ) = x at *
  field_simp

/-- Small multiples of the smallest number are not rounded. -/
theorem rep_tiny {z : ℤ} (h : |z| ≤ 2 ^ 53) : rnd ((z : ℚ) * 2 ^ (-1074 : ℤ)) = .fin ((z : ℚ) * 2 ^ (-1074 : ℤ)) := by
  refine Ieee.rep.2 ⟨⟨z, -1074, h, le_refl _, rfl⟩, ?_⟩
  have h1 : |(z : ℚ)| ≤ 2 ^ (53 : ℤ) := by
    have : |(z : ℚ)| ≤ 2 ^ 53 := by exact_mod_cast h
    rwa [show (2 : ℚ) ^ (53 : ℤ) = 2 ^ 53 by norm_cast]
  have hp := two_zpow_pos (-1074)
  rw [abs_mul, abs_of_pos hp]
  calc _ ≤ (2 : ℚ) ^ (53 : ℤ) * 2 ^ (-1074 : ℤ) := mul_le_mul_of_nonneg_right h1 hp.le
    _ = 2 ^ (53 + -1074 : ℤ) := by rw [zpow_add₀ (by norm_num)]
    _ < 2 ^ (1024 : ℤ) := zpow_lt_zpow_right₀ (by norm_num) (by norm_num)

/-- A multiple of the smallest number is not rounded, or it is not so small. -/
theorem grid_cases (z : ℤ) : rnd ((z : ℚ) * 2 ^ (-1074 : ℤ)) = .fin ((z : ℚ) * 2 ^ (-1074 : ℤ)) ∨
    2 ^ (-1021 : ℤ) ≤ |(z : ℚ) * 2 ^ (-1074 : ℤ)| := by
  by_cases h : |z| ≤ 2 ^ 53
  · exact Or.inl (rep_tiny h)
  · right
    push Not at h
    have h1 : (2 : ℚ) ^ (53 : ℤ) ≤ |(z : ℚ)| := by
      have : (2 : ℚ) ^ 53 ≤ |(z : ℚ)| := by exact_mod_cast h.le
      rwa [show (2 : ℚ) ^ (53 : ℤ) = 2 ^ 53 by norm_cast]
    have hp := two_zpow_pos (-1074)
    rw [abs_mul, abs_of_pos hp]
    calc (2 : ℚ) ^ (-1021 : ℤ) = 2 ^ (53 : ℤ) * 2 ^ (-1074 : ℤ) := by rw [← zpow_add₀ (by norm_num)]; norm_num
      _ ≤ _ := mul_le_mul_of_nonneg_right h1 hp.le

theorem grid_sub {a b : ℚ} (ha : rnd a = .fin a) (hb : rnd b = .fin b) : ∃ z : ℤ, a - b = z * 2 ^ (-1074 : ℤ) := by
  obtain ⟨x, hx⟩ := rep_grid ha
  obtain ⟨y, hy⟩ := rep_grid hb
  exact ⟨x - y, by rw [hx, hy]; push_cast; ring⟩

theorem grid_add {a b : ℚ} (ha : rnd a = .fin a) (hb : rnd b = .fin b) : ∃ z : ℤ, a + b = z * 2 ^ (-1074 : ℤ) := by
  obtain ⟨x, hx⟩ := rep_grid ha
  obtain ⟨y, hy⟩ := rep_grid hb
  exact ⟨x + y, by rw [hx, hy]; push_cast; ring⟩

theorem grid_err {q r : ℚ} {z : ℤ} (hz : q = z * 2 ^ (-1074 : ℤ)) (h : rnd q = .fin r) : |r - q| ≤ |q| / 2 ^ 53 := by
  rcases grid_cases z with h1 | h1
  · rw [← hz, h] at h1
    simp only [PyFloat.fin.injEq] at h1
    rw [h1, sub_self, abs_zero]; positivity
  · rw [← hz] at h1
    refine Ieee.norm (le_trans ?_ h1) h
    exact zpow_le_zpow_right₀ (by norm_num) (by norm_num)

/-- Sums of doubles have a relative error only. -/
theorem add_err {a b r : ℚ} (ha : rnd a = .fin a) (hb : rnd b = .fin b) (h : rnd (a + b) = .fin r) :
    |r - (a + b)| ≤ |a + b| / 2 ^ 53 := by
  obtain ⟨z, hz⟩ := grid_add ha hb
  exact grid_err hz h

/-- A part of a rounded difference of doubles is not greater than the difference. -/
theorem part_le {x m d c : ℚ} (hx : rnd x = .fin x) (hm : rnd m = .fin m) (h : m ≤ x) (hd : rnd (x - m) = .fin d)
    (hc0 : 0 ≤ c) (hc : c ≤ 1 - 2 / 2 ^ 53) : ∃ r, rnd (c * d) = .fin r ∧ 0 ≤ r ∧ r ≤ x - m := by
  obtain ⟨z, hz⟩ := grid_sub hx hm
  have h0 : 0 ≤ x - m := by linarith
  have hd0 : 0 ≤ d := by
    rcases rnd_nonneg h0 with e | ⟨r, e, hr⟩
    · rw [hd] at e; cases e
    · rw [hd] at e; simp at e; rw [e]; exact hr
  have hc1 : c ≤ 1 := le_trans hc (by norm_num)
  have hcd : 0 ≤ c * d := mul_nonneg hc0 hd0
  have hdr : rnd d = .fin d := Ieee.idem hd
  obtain ⟨r, hr, hr0, hrd⟩ := rnd_between (a := 0) (b := d) (q := c * d) rnd_zero hdr hcd (by nlinarith)
  refine ⟨r, hr, hr0, ?_⟩
  rcases grid_cases z with h1 | h1
  · rw [← hz, hd] at h1
    simp only [PyFloat.fin.injEq] at h1
    rw [← h1]; exact hrd
  · rw [← hz] at h1
    rw [abs_of_nonneg h0] at h1
    have he : |d - (x - m)| ≤ (x - m) / 2 ^ 53 := by
      have := grid_err hz hd
      rwa [abs_of_nonneg h0] at this
    have hdle : d ≤ (x - m) * (1 + 1 / 2 ^ 53) := by
      have := (abs_le.1 he).2
      linarith
    by_cases hn : (2 : ℚ) ^ (-1022 : ℤ) ≤ c * d
    · have h2 := Ieee.norm (by rwa [abs_of_nonneg hcd]) hr
      rw [abs_of_nonneg hcd] at h2
      have h3 : r ≤ c * d * (1 + 1 / 2 ^ 53) := by
        have := (abs_le.1 h2).2
        linarith
      have h4 : c * d ≤ (1 - 2 / 2 ^ 53) * ((x - m) * (1 + 1 / 2 ^ 53)) :=
        mul_le_mul hc hdle hd0 (by norm_num)
      have h5 : c * d * (1 + 1 / 2 ^ 53) ≤ (1 - 2 / 2 ^ 53) * ((x - m) * (1 + 1 / 2 ^ 53)) * (1 + 1 / 2 ^ 53) :=
        mul_le_mul_of_nonneg_right h4 (by norm_num)
      have h6 : (1 - 2 / 2 ^ 53) * ((x - m) * (1 + 1 / 2 ^ 53)) * (1 + 1 / 2 ^ 53) ≤ x - m := by
        have : (1 - 2 / 2 ^ 53) * ((x - m) * (1 + 1 / 2 ^ 53)) * (1 + 1 / 2 ^ 53) =
            (x - m) * ((1 - 2 / 2 ^ 53) * (1 + 1 / 2 ^ 53) * (1 + 1 / 2 ^ 53)) := by ring
        rw [this]
        have hk : (1 - 2 / 2 ^ 53) * (1 + 1 / 2 ^ 53) * (1 + 1 / 2 ^ 53) ≤ (1 : ℚ) := by norm_num
        nlinarith
      linarith
    · push Not at hn
      have hrep : rnd ((2 : ℚ) ^ (-1022 : ℤ)) = .fin (2 ^ (-1022 : ℤ)) := by
        refine Ieee.rep.2 ⟨⟨1, -1022, by norm_num, by norm_num, by simp⟩, ?_⟩
        rw [abs_of_pos (two_zpow_pos _)]
        exact zpow_lt_zpow_right₀ (by norm_num) (by norm_num)
      obtain ⟨r', hr', _, hle⟩ := rnd_between rnd_zero hrep hcd hn.le
      rw [hr] at hr'
      simp only [PyFloat.fin.injEq] at hr'
      rw [hr']
      refine le_trans hle (le_trans ?_ h1)
      exact zpow_le_zpow_right₀ (by norm_num) (by norm_num)

/-- A difference of doubles that are not negative does not overflow. -/
theorem sub_fin {x m : ℚ} (hx : rnd x = .fin x) (hm : 0 ≤ m) (h : m ≤ x) : ∃ d, rnd (x - m) = .fin d ∧ 0 ≤ d ∧ d ≤ x := by
  obtain ⟨d, h1, h2, h3⟩ := rnd_between (a := 0) (b := x) (q := x - m) rnd_zero hx (by linarith) (by linarith)
  exact ⟨d, h1, h2, h3⟩

end Txstatsd
