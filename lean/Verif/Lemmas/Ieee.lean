import Verif.Model.Ieee
import Mathlib.Tactic.Linarith
import Mathlib.Tactic.Ring
import Mathlib.Tactic.FieldSimp
import Mathlib.Tactic.NormNum
import Mathlib.Tactic.Positivity
import Mathlib.Algebra.Order.Floor.Ring

/-!
# Double rounding obeys the laws
-/

set_option linter.unusedSectionVars false
set_option linter.unusedSimpArgs false
set_option linter.unusedVariables false

namespace Txstatsd

theorem nearestEven_err (x : ℚ) : |(nearestEven x : ℚ) - x| ≤ 1 / 2 := by
  have h1 := Int.floor_le x
  have h2 := Int.lt_floor_add_one x
  unfold nearestEven
  split
  · rw [abs_le]; constructor <;> linarith
  · split
    · push_cast; rw [abs_le]; constructor <;> linarith
    · split
      · rw [abs_le]; constructor <;> linarith
      · push_cast; rw [abs_le]; constructor <;> linarith

theorem nearestEven_int (z : ℤ) : nearestEven (z : ℚ) = z := by
  unfold nearestEven
  simp

theorem nearestEven_mono {x y : ℚ} (h : x ≤ y) : nearestEven x ≤ nearestEven y := by
  have e1 := abs_le.1 (nearestEven_err x)
  have e2 := abs_le.1 (nearestEven_err y)
  by_contra hlt
  push Not at hlt
  have hlt' : (nearestEven y : ℚ) + 1 ≤ nearestEven x := by exact_mod_cast hlt
  -- both are at the tie
  have hx : (nearestEven x : ℚ) = x + 1 / 2 := by linarith
  have hy : x = y := by linarith
  rw [hy] at hlt
  exact lt_irrefl _ hlt

theorem nearestEven_le {x : ℚ} {z : ℤ} (h : x ≤ z) : nearestEven x ≤ z := by
  have := nearestEven_mono h
  rwa [nearestEven_int] at this

theorem le_nearestEven {x : ℚ} {z : ℤ} (h : (z : ℚ) ≤ x) : z ≤ nearestEven x := by
  have := nearestEven_mono h
  rwa [nearestEven_int] at this

theorem two_zpow_pos (e : ℤ) : (0 : ℚ) < 2 ^ e := zpow_pos (by norm_num) e

theorem log_le {q : ℚ} (h : 0 < q) : (2 : ℚ) ^ Int.log 2 q ≤ q := by
  have := Int.zpow_log_le_self (b := 2) (by norm_num) h
  exact_mod_cast this

theorem lt_log {q : ℚ} (h : 0 < q) : q < (2 : ℚ) ^ (Int.log 2 q + 1) := by
  have := Int.lt_zpow_succ_log_self (b := 2) (by norm_num) q
  exact_mod_cast this

theorem zpow_int {e : ℤ} (h : 0 ≤ e) : ((2 : ℤ) ^ e.toNat : ℤ) = ((2 : ℚ) ^ e) := by
  obtain ⟨n, rfl⟩ := Int.eq_ofNat_of_zero_le h
  simp

theorem zpow_mono {a b : ℤ} (h : a ≤ b) : (2 : ℚ) ^ a ≤ 2 ^ b := zpow_le_zpow_right₀ (by norm_num) h

/-- A power of two at or above the last place is a whole number of places. -/
theorem places {a e : ℤ} (h : e ≤ a) : ∃ z : ℤ, 0 < z ∧ (2 : ℚ) ^ a / 2 ^ e = z := by
  refine ⟨2 ^ (a - e).toNat, by positivity, ?_⟩
  rw [zpow_int (by omega), zpow_sub₀ (by norm_num)]

theorem roundPos_le {q : ℚ} (hq : 0 < q) {a : ℤ} (ha : lastPlace q ≤ a) (h : q ≤ 2 ^ a) : roundPos q ≤ 2 ^ a := by
  obtain ⟨z, hz, e⟩ := places ha
  have hp := two_zpow_pos (lastPlace q)
  have h1 : nearestEven (q / 2 ^ lastPlace q) ≤ z := nearestEven_le (by rw [← e]; gcongr)
  have h1' : (nearestEven (q / 2 ^ lastPlace q) : ℚ) ≤ z := by exact_mod_cast h1
  unfold roundPos
  calc _ ≤ (z : ℚ) * 2 ^ lastPlace q := by gcongr
    _ = _ := by rw [← e]; field_simp

theorem le_roundPos {q : ℚ} (hq : 0 < q) {a : ℤ} (ha : lastPlace q ≤ a) (h : 2 ^ a ≤ q) : 2 ^ a ≤ roundPos q := by
  obtain ⟨z, hz, e⟩ := places ha
  have hp := two_zpow_pos (lastPlace q)
  have h1 : z ≤ nearestEven (q / 2 ^ lastPlace q) := le_nearestEven (by rw [← e]; gcongr)
  have h1' : (z : ℚ) ≤ nearestEven (q / 2 ^ lastPlace q) := by exact_mod_cast h1
  unfold roundPos
  calc (2 : ℚ) ^ a = (z : ℚ) * 2 ^ lastPlace q := by rw [← e]; field_simp
    _ ≤ _ := by gcongr

theorem roundPos_nonneg {q : ℚ} (hq : 0 < q) : 0 ≤ roundPos q := by
  have hp := two_zpow_pos (lastPlace q)
  have h1 : 0 ≤ nearestEven (q / 2 ^ lastPlace q) := le_nearestEven (by push_cast; positivity)
  have h1' : (0 : ℚ) ≤ nearestEven (q / 2 ^ lastPlace q) := by exact_mod_cast h1
  unfold roundPos
  positivity

theorem log_mono {p q : ℚ} (hp : 0 < p) (h : p ≤ q) : Int.log 2 p ≤ Int.log 2 q := Int.log_mono_right hp h

theorem roundPos_mono {p q : ℚ} (hp : 0 < p) (h : p ≤ q) : roundPos p ≤ roundPos q := by
  have hq : 0 < q := lt_of_lt_of_le hp h
  have hl := log_mono hp h
  by_cases he : lastPlace p = lastPlace q
  · unfold roundPos
    rw [he]
    have hpos := two_zpow_pos (lastPlace q)
    have h1 : nearestEven (p / 2 ^ lastPlace q) ≤ nearestEven (q / 2 ^ lastPlace q) := nearestEven_mono (by gcongr)
    have h1' : (nearestEven (p / 2 ^ lastPlace q) : ℚ) ≤ nearestEven (q / 2 ^ lastPlace q) := by exact_mod_cast h1
    gcongr
  · -- `q` is a normal number, and a power of two lies between
    have h2 : lastPlace q = Int.log 2 q - 52 ∧ max (Int.log 2 p + 1) (lastPlace p) ≤ Int.log 2 q := by
      unfold lastPlace at he ⊢
      omega
    have h3 : roundPos p ≤ 2 ^ (max (Int.log 2 p + 1) (lastPlace p)) :=
      roundPos_le hp (le_max_right _ _) (le_trans (lt_log hp).le (zpow_mono (le_max_left _ _)))
    have h4 : (2 : ℚ) ^ Int.log 2 q ≤ roundPos q := le_roundPos hq (by omega) (log_le hq)
    exact le_trans h3 (le_trans (zpow_mono h2.2) h4)

theorem roundPos_bits {q : ℚ} (hq : 0 < q) : Bits (roundPos q) := by
  refine ⟨nearestEven (q / 2 ^ lastPlace q), lastPlace q, ?_, le_max_right _ _, rfl⟩
  have hp := two_zpow_pos (lastPlace q)
  have h1 : 0 ≤ nearestEven (q / 2 ^ lastPlace q) := le_nearestEven (by push_cast; positivity)
  rw [abs_of_nonneg h1]
  apply nearestEven_le
  rw [div_le_iff₀ hp, show ((2 ^ 53 : ℤ) : ℚ) = 2 ^ 53 by norm_cast]
  have h2 : (2 : ℚ) ^ 53 * 2 ^ lastPlace q = 2 ^ (53 + lastPlace q) := by
    rw [zpow_add₀ (by norm_num)]; norm_num
  rw [h2]
  refine le_trans (lt_log hq).le (zpow_mono ?_)
  unfold lastPlace; omega

theorem roundPos_of_bits {r : ℚ} (hr : 0 < r) (h : Bits r) : roundPos r = r := by
  obtain ⟨m, e, hm, he, rfl⟩ := h
  set r := (m : ℚ) * 2 ^ e with hrdef
  have hpe := two_zpow_pos e
  have hm0 : 0 < (m : ℚ) := by
    by_contra h
    push Not at h
    have : r ≤ 0 := mul_nonpos_of_nonpos_of_nonneg h hpe.le
    linarith
  have hm0' : 0 < m := by exact_mod_cast hm0
  rw [abs_of_pos hm0'] at hm
  have hm' : (m : ℚ) ≤ 2 ^ (53 : ℤ) := by
    have : (m : ℚ) ≤ ((2 ^ 53 : ℤ) : ℚ) := by exact_mod_cast hm
    rwa [show ((2 ^ 53 : ℤ) : ℚ) = 2 ^ (53 : ℤ) by norm_cast] at this
  -- `log r ≤ e + 53`
  have hle : r ≤ 2 ^ (53 + e) := by
    rw [zpow_add₀ (by norm_num)]
    exact mul_le_mul_of_nonneg_right hm' hpe.le
  have hlog : Int.log 2 r ≤ 53 + e := by
    by_contra hlt
    push Not at hlt
    have h1 := log_le hr
    have h2 : (2 : ℚ) ^ (53 + e) < 2 ^ Int.log 2 r := zpow_lt_zpow_right₀ (by norm_num) hlt
    linarith
  have hint : ∃ z : ℤ, r / 2 ^ lastPlace r = z := by
    by_cases hc : lastPlace r ≤ e
    · obtain ⟨z, _, hz⟩ := places hc
      refine ⟨m * z, ?_⟩
      push_cast
      rw [← hz, hrdef]; ring
    · have h1 : lastPlace r = e + 1 ∧ Int.log 2 r = 53 + e := by
        unfold lastPlace at hc ⊢; omega
      have h2 := log_le hr
      rw [h1.2] at h2
      have h3 : r = 2 ^ (53 + e) := le_antisymm hle h2
      obtain ⟨z, _, hz⟩ := places (a := 53 + e) (e := lastPlace r) (by omega)
      refine ⟨z, ?_⟩
      rw [← hz]
      congr 1
  obtain ⟨z, hz⟩ := hint
  unfold roundPos
  rw [hz, nearestEven_int, ← hz]
  have := two_zpow_pos (lastPlace r)
  field_simp

theorem roundPos_err {q : ℚ} (hq : 0 < q) : |roundPos q - q| ≤ 2 ^ lastPlace q / 2 := by
  have hp := two_zpow_pos (lastPlace q)
  have h := nearestEven_err (q / 2 ^ lastPlace q)
  have e : roundPos q - q = (nearestEven (q / 2 ^ lastPlace q) - q / 2 ^ lastPlace q) * 2 ^ lastPlace q := by
    unfold roundPos; field_simp
  rw [e, abs_mul, abs_of_pos hp]
  have := mul_le_mul_of_nonneg_right h hp.le
  linarith

theorem place_normal {q : ℚ} (hq : 0 < q) (h : lastPlace q = Int.log 2 q - 52) :
    (2 : ℚ) ^ lastPlace q / 2 ≤ q / 2 ^ 53 := by
  have h1 := log_le hq
  rw [h, zpow_sub₀ (by norm_num)]
  have : (2 : ℚ) ^ (52 : ℤ) = 2 ^ 52 := by norm_cast
  rw [this]
  rw [div_div, div_le_div_iff₀ (by norm_num) (by norm_num)]
  nlinarith

theorem roundPos_rel {q : ℚ} (hq : 0 < q) : |roundPos q - q| ≤ q / 2 ^ 53 + 2 ^ (-1075 : ℤ) := by
  have h := roundPos_err hq
  by_cases hc : lastPlace q = Int.log 2 q - 52
  · have h1 := place_normal hq hc
    have h2 := two_zpow_pos (-1075)
    linarith
  · have hc' : lastPlace q = -1075 + 1 := by unfold lastPlace at hc ⊢; omega
    rw [hc', zpow_add₀ (by norm_num)] at h
    have h2 : (0 : ℚ) ≤ q / 2 ^ 53 := by positivity
    generalize (2 : ℚ) ^ (-1075 : ℤ) = x at *
    have e : x * 2 ^ (1 : ℤ) / 2 = x := by norm_num
    linarith

theorem roundPos_norm {q : ℚ} (hq : 0 < q) (h : 2 ^ (-1022 : ℤ) ≤ q) : |roundPos q - q| ≤ q / 2 ^ 53 := by
  have h1 : (2 : ℚ) ^ (-1022 : ℤ) < 2 ^ (Int.log 2 q + 1) := lt_of_le_of_lt h (lt_log hq)
  have h2 : -1022 < Int.log 2 q + 1 := (zpow_lt_zpow_iff_right₀ (by norm_num)).1 h1
  exact le_trans (roundPos_err hq) (place_normal hq (by unfold lastPlace; omega))

/-! ## Signs and overflow -/

theorem roundDouble_pos {q : ℚ} (h : 0 < q) :
    roundDouble q = if (2 : ℚ) ^ (1024 : ℤ) ≤ roundPos q then .inf false else .fin (roundPos q) := by
  unfold roundDouble
  rw [if_neg h.ne', abs_of_pos h]
  have h' : ¬ q < 0 := not_lt.2 h.le
  simp only [h', if_false, decide_false]

theorem roundDouble_neg (q : ℚ) : roundDouble (-q) = (roundDouble q).neg := by
  unfold roundDouble
  rcases lt_trichotomy q 0 with h | h | h
  · have h1 : ¬ -q < 0 := by linarith
    rw [if_neg (by linarith), if_neg h.ne, abs_neg]
    simp only [h, h1, if_true, if_false, decide_false, decide_true]
    split <;> simp [PyFloat.neg]
  · subst h; simp [PyFloat.neg]
  · have h1 : ¬ q < 0 := by linarith
    have h2 : -q < 0 := by linarith
    rw [if_neg (by linarith), if_neg h.ne', abs_neg]
    simp only [h1, h2, if_true, if_false, decide_false, decide_true]
    split <;> simp [PyFloat.neg]

theorem roundDouble_zero : roundDouble 0 = .fin 0 := by simp [roundDouble]

theorem le_neg_neg (a b : PyFloat) : (b.neg).le a.neg = a.le b := by
  cases a <;> cases b <;> simp [PyFloat.neg, PyFloat.le, Bool.or_comm]

theorem roundDouble_nonneg {q : ℚ} (h : 0 ≤ q) : (PyFloat.fin 0).le (roundDouble q) = true := by
  rcases h.eq_or_lt with h | h
  · subst h; rw [roundDouble_zero]; simp [PyFloat.le]
  · rw [roundDouble_pos h]
    split
    · rfl
    · simp [PyFloat.le, roundPos_nonneg h]

theorem ple_trans {a b c : PyFloat} (h1 : a.le b = true) (h2 : b.le c = true) : a.le c = true := by
  cases a <;> cases b <;> cases c <;> simp_all [PyFloat.le] <;> first | exact le_trans h1 h2 | skip
  all_goals (rename_i x y z; revert h1 h2; cases x <;> cases y <;> simp)

theorem roundDouble_mono_pos {p q : ℚ} (hp : 0 < p) (h : p ≤ q) : (roundDouble p).le (roundDouble q) = true := by
  have hm := roundPos_mono hp h
  rw [roundDouble_pos hp, roundDouble_pos (lt_of_lt_of_le hp h)]
  split
  · rw [if_pos (by linarith)]; rfl
  · split
    · rfl
    · simp [PyFloat.le, hm]

theorem roundDouble_mono {p q : ℚ} (h : p ≤ q) : (roundDouble p).le (roundDouble q) = true := by
  by_cases hp : 0 < p
  · exact roundDouble_mono_pos hp h
  · push Not at hp
    by_cases hq : 0 ≤ q
    · refine ple_trans (b := .fin 0) ?_ (roundDouble_nonneg hq)
      have := roundDouble_nonneg (q := -p) (by linarith)
      rw [roundDouble_neg] at this
      have e := le_neg_neg (roundDouble p) (.fin 0)
      simp only [PyFloat.neg, neg_zero] at e
      rw [← e]; exact this
    · push Not at hq
      have := roundDouble_mono_pos (p := -q) (q := -p) (by linarith) (by linarith)
      rw [roundDouble_neg, roundDouble_neg, le_neg_neg] at this
      exact this

theorem roundDouble_fin_pos {q r : ℚ} (hq : 0 < q) (h : roundDouble q = .fin r) :
    r = roundPos q ∧ roundPos q < 2 ^ (1024 : ℤ) := by
  rw [roundDouble_pos hq] at h
  split at h
  · cases h
  · rename_i hn
    simp only [PyFloat.fin.injEq] at h
    exact ⟨h.symm, by push Not at hn; exact hn⟩

/-- Reduce a statement about a finite result to positive arguments. -/
theorem fin_cases {q r : ℚ} (h : roundDouble q = .fin r) :
    (q = 0 ∧ r = 0) ∨ (0 < q ∧ r = roundPos q ∧ roundPos q < 2 ^ (1024 : ℤ)) ∨
    (0 < -q ∧ -r = roundPos (-q) ∧ roundPos (-q) < 2 ^ (1024 : ℤ)) := by
  rcases lt_trichotomy q 0 with hq | hq | hq
  · right; right
    have h' : roundDouble (-q) = .fin (-r) := by rw [roundDouble_neg, h]; rfl
    obtain ⟨a, b⟩ := roundDouble_fin_pos (by linarith) h'
    exact ⟨by linarith, a, b⟩
  · subst hq; rw [roundDouble_zero] at h; simp at h; exact Or.inl ⟨rfl, h.symm⟩
  · right; left
    obtain ⟨a, b⟩ := roundDouble_fin_pos hq h
    exact ⟨hq, a, b⟩

theorem roundDouble_of_bits {r : ℚ} (h : Bits r) (hb : |r| < 2 ^ (1024 : ℤ)) : roundDouble r = .fin r := by
  rcases lt_trichotomy r 0 with hr | hr | hr
  · have h' : Bits (-r) := by
      obtain ⟨m, e, h1, h2, h3⟩ := h
      exact ⟨-m, e, by rwa [abs_neg], h2, by rw [h3]; push_cast; ring⟩
    have e : roundDouble (-r) = .fin (-r) := by
      rw [roundDouble_pos (by linarith), roundPos_of_bits (by linarith) h', if_neg]
      rw [abs_of_neg hr] at hb; linarith
    rw [roundDouble_neg] at e
    cases hx : roundDouble r with
    | fin x => rw [hx] at e; simp [PyFloat.neg] at e; rw [e]
    | nan => rw [hx] at e; simp [PyFloat.neg] at e
    | inf s => rw [hx] at e; simp [PyFloat.neg] at e
  · subst hr; exact roundDouble_zero
  · rw [roundDouble_pos hr, roundPos_of_bits hr h, if_neg]
    rw [abs_of_pos hr] at hb; linarith

theorem sqrtDouble_nonneg {q : ℚ} (h : 0 ≤ q) : ∃ r, 0 ≤ r ∧ sqrtDouble q = .fin r := by
  unfold sqrtDouble
  split
  · exact ⟨0, le_refl _, rfl⟩
  · exact ⟨_, mul_nonneg (Nat.cast_nonneg _) (two_zpow_pos _).le, rfl⟩

theorem binary64_ieee : @Ieee binary64 :=
  letI := binary64
  { mono := fun h => roundDouble_mono h
    neg := roundDouble_neg
    idem := fun {q r} h => by
      have h : roundDouble q = .fin r := h
      show roundDouble r = .fin r
      rcases fin_cases h with ⟨_, rfl⟩ | ⟨hq, rfl, hb⟩ | ⟨hq, hr, hb⟩
      · exact roundDouble_zero
      · exact roundDouble_of_bits (roundPos_bits hq) (by rw [abs_of_nonneg (roundPos_nonneg hq)]; exact hb)
      · have h' : roundDouble (-r) = .fin (-r) := by
          rw [hr]
          exact roundDouble_of_bits (roundPos_bits hq) (by rw [abs_of_nonneg (roundPos_nonneg hq)]; exact hb)
        have := roundDouble_neg (-r)
        rw [neg_neg, h'] at this
        rw [this]; simp [PyFloat.neg]
    rep := fun {q} => by
      show roundDouble q = .fin q ↔ _
      constructor
      · intro h
        rcases fin_cases h with ⟨rfl, _⟩ | ⟨hq, e, hb⟩ | ⟨hq, e, hb⟩
        · exact ⟨⟨0, 0, by norm_num, by norm_num, by simp⟩, by rw [abs_zero]; exact two_zpow_pos _⟩
        · rw [← e] at hb
          have := roundPos_bits hq
          rw [← e] at this
          exact ⟨this, by rw [abs_of_pos hq]; exact hb⟩
        · rw [← e] at hb
          obtain ⟨m, x, h1, h2, h3⟩ := roundPos_bits hq
          rw [← e] at h3
          refine ⟨⟨-m, x, by rwa [abs_neg], h2, ?_⟩, ?_⟩
          · push_cast; rw [neg_mul, ← h3, neg_neg]
          · rw [abs_of_neg (by linarith)]; exact hb
      · rintro ⟨h1, h2⟩
        exact roundDouble_of_bits h1 h2
    norm := fun {q r} hn h => by
      have h : roundDouble q = .fin r := h
      rcases fin_cases h with ⟨rfl, rfl⟩ | ⟨hq, rfl, _⟩ | ⟨hq, hr, _⟩
      · simp
      · rw [abs_of_pos hq] at hn ⊢; exact roundPos_norm hq hn
      · rw [abs_of_neg (show q < 0 by linarith)] at hn ⊢
        have := roundPos_norm hq hn
        rw [← hr, show -r - -q = -(r - q) by ring, abs_neg] at this
        exact this
    err := fun {q r} h => by
      have h : roundDouble q = .fin r := h
      rcases fin_cases h with ⟨rfl, rfl⟩ | ⟨hq, rfl, _⟩ | ⟨hq, hr, _⟩
      · rw [sub_self, abs_zero]
        have := two_zpow_pos (-1075)
        rw [zero_div, zero_add]
        exact this.le
      · rw [abs_of_pos hq]; exact roundPos_rel hq
      · have := roundPos_rel hq
        rw [← hr, show -r - -q = -(r - q) by ring, abs_neg] at this
        rw [show |q| = -q from abs_of_neg (by linarith)]
        exact this
    sqrt := fun h => sqrtDouble_nonneg h }

end Txstatsd
