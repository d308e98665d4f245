import Verif.Lemmas.Float
import Verif.Lemmas.Percentile
import Verif.Spec.Float

/-!
# Histograms in double arithmetic
-/

set_option linter.unusedSectionVars false
set_option linter.unusedSimpArgs false
set_option linter.unusedVariables false

namespace Txstatsd
open Spec
namespace Histogram
variable [Rounding] [Ieee]

/-- Welford's step moves the mean towards the value and not beyond it; the two deviations have the same sign. -/
theorem toward {x m : ℚ} (hx : rnd x = .fin x) (hm : rnd m = .fin m) (hx0 : 0 ≤ x) (hm0 : 0 ≤ m) {n : ℕ} (hn : 2 ≤ n) :
    ∃ m', (PyFloat.fin m).add (((PyFloat.fin x).sub (.fin m)).divInt n) = .fin m' ∧ rnd m' = .fin m' ∧
      Min.min m x ≤ m' ∧ m' ≤ Max.max m x ∧
      NotNegative (((PyFloat.fin x).sub (.fin m)).mul ((PyFloat.fin x).sub (.fin m'))) := by
  have hn0 : (2 : ℚ) ≤ n := by exact_mod_cast hn
  have hc : (1 : ℚ) / n ≤ 1 - 2 / 2 ^ 53 := by
    have : (1 : ℚ) / n ≤ 1 / 2 := by
      rw [div_le_div_iff₀ (by linarith) (by norm_num)]; linarith
    exact le_trans this (by norm_num)
  have hc0 : (0 : ℚ) ≤ 1 / n := by positivity
  rcases le_total m x with h | h
  · obtain ⟨d, hd, hd0, _⟩ := sub_fin hx hm0 h
    obtain ⟨r, hr, hr0, hrd⟩ := part_le hx hm h hd hc0 hc
    obtain ⟨m', hm', h1, h2⟩ := rnd_between (q := m + r) hm hx (by linarith) (by linarith)
    refine ⟨m', ?_, Ieee.idem hm', by simpa [min_eq_left h] using h1, by simpa [max_eq_right h] using h2, ?_⟩
    · simp only [PyFloat.sub, hd, PyFloat.divInt]
      rw [show d / ((n : ℤ) : ℚ) = 1 / n * d by push_cast; ring, hr]
      simp only [PyFloat.add, hm']
    · simp only [PyFloat.sub, hd]
      obtain ⟨f, hf, hf0, _⟩ := sub_fin hx (le_trans hm0 h1) h2
      rw [hf]
      simp only [PyFloat.mul]
      rcases rnd_nonneg (mul_nonneg hd0 hf0) with e | ⟨s, e, hs⟩
      · exact Or.inl e
      · exact Or.inr ⟨s, e, hs⟩
  · obtain ⟨d, hd, hd0, _⟩ := sub_fin hm hx0 h
    have hd' : rnd (x - m) = .fin (-d) := by
      rw [show x - m = -(m - x) by ring, Ieee.neg, hd]; rfl
    obtain ⟨r, hr, hr0, hrd⟩ := part_le hm hx h hd hc0 hc
    have hr' : rnd (-d / ((n : ℤ) : ℚ)) = .fin (-r) := by
      rw [show -d / ((n : ℤ) : ℚ) = -(1 / n * d) by push_cast; ring, Ieee.neg, hr]; rfl
    obtain ⟨m', hm', h1, h2⟩ := rnd_between (q := m + -r) hx hm (by linarith) (by linarith)
    refine ⟨m', ?_, Ieee.idem hm', by simpa [min_eq_right h] using h1, by simpa [max_eq_left h] using h2, ?_⟩
    · simp only [PyFloat.sub, hd', PyFloat.divInt, hr', PyFloat.add, hm']
    · simp only [PyFloat.sub, hd']
      obtain ⟨f, hf, hf0, _⟩ := sub_fin (Ieee.idem hm') hx0 h1
      have hf' : rnd (x - m') = .fin (-f) := by
        rw [show x - m' = -(m' - x) by ring, Ieee.neg, hf]; rfl
      rw [hf']
      simp only [PyFloat.mul]
      rw [show -d * -f = d * f by ring]
      rcases rnd_nonneg (mul_nonneg hd0 hf0) with e | ⟨s, e, hs⟩
      · exact Or.inl e
      · exact Or.inr ⟨s, e, hs⟩

theorem notNegative_add {a b : PyFloat} (ha : NotNegative a) (hb : NotNegative b) : NotNegative (a.add b) := by
  rcases ha with rfl | ⟨p, rfl, hp⟩ <;> rcases hb with rfl | ⟨q, rfl, hq⟩ <;> simp only [PyFloat.add, if_true]
  · exact Or.inl rfl
  · exact Or.inl rfl
  · exact Or.inl rfl
  · rcases rnd_nonneg (add_nonneg hp hq) with e | ⟨s, e, hs⟩
    · exact Or.inl e
    · exact Or.inr ⟨s, e, hs⟩

/-- The state of Welford's algorithm: with finite durations the mean lies between the extremes and the sum of squares is
not negative; in any case the sum of squares is not negative or nan. -/
structure Welford (h : Histogram) (vs : List PyFloat) : Prop where
  nil : vs = [] → h.varM = .fin (-1) ∧ h.varS = .fin 0
  mean : vs ≠ [] → (∃ m, h.varM = .fin m ∧ 0 ≤ m ∧ rnd m = .fin m) ∨ h.varM = .inf false ∨ h.varM = .nan
  sq : h.varS = .nan ∨ NotNegative h.varS
  fins : ∀ qs : List ℚ, vs = qs.map PyFloat.fin → vs ≠ [] → NotNegative h.varS ∧
    ∃ m, h.varM = .fin m ∧ (∃ a ∈ qs, a ≤ m) ∧ (∃ b ∈ qs, m ≤ b)

theorem welford_clear (h : Histogram) : Welford h.clear [] :=
  ⟨fun _ => ⟨rfl, rfl⟩, fun h => absurd rfl h, Or.inr (Or.inr ⟨0, rfl, le_refl _⟩), fun _ _ h => absurd rfl h⟩

theorem welford_update {h : Histogram} {vs : List PyFloat} (hw : Welford h vs) (hc : h.count = vs.length) (d : Nat)
    {v : PyFloat} (hv : Duration v) : Welford (h.update d v) (vs ++ [v]) := by
  have hu := update_var h d v
  have e1 := congrArg Prod.fst hu
  have e2 := congrArg Prod.snd hu
  simp only at e1 e2
  clear hu
  by_cases hne : vs = []
  · subst hne
    obtain ⟨k1, k2⟩ := hw.nil rfl
    rw [if_pos k1] at e1 e2
    refine ⟨fun h => by simp at h, fun _ => ?_, ?_, ?_⟩
    · rw [e1]
      rcases hv with rfl | ⟨q, rfl, h1, h2⟩
      · exact Or.inr (Or.inl rfl)
      · exact Or.inl ⟨q, rfl, h1, h2⟩
    · rw [e2]; exact Or.inr (Or.inr ⟨0, rfl, le_refl _⟩)
    · intro qs hqs _
      rw [e1, e2]
      refine ⟨Or.inr ⟨0, rfl, le_refl _⟩, ?_⟩
      cases qs with
      | nil => simp at hqs
      | cons q t =>
        simp only [List.nil_append, List.map_cons, List.cons.injEq] at hqs
        exact ⟨q, hqs.1, ⟨q, by simp, le_refl _⟩, ⟨q, by simp, le_refl _⟩⟩
  · have hlen : 2 ≤ h.count + 1 := by
      have : 0 < vs.length := List.length_pos_iff.2 hne
      omega
    have hmne : h.varM ≠ .fin (-1) := by
      rcases hw.mean hne with ⟨m, hm, h0, _⟩ | hm | hm <;> rw [hm]
      · intro h; simp at h; linarith
      · simp
      · simp
    rw [if_neg hmne] at e1 e2
    rcases hw.mean hne with ⟨m, hm, hm0, hmr⟩ | hm | hm
    · rcases hv with rfl | ⟨x, rfl, hx0, hxr⟩
      · -- an infinite duration
        rw [hm] at e1 e2
        simp only [PyFloat.sub, PyFloat.divInt, PyFloat.add, PyFloat.mul] at e1 e2
        have hb : (false != decide (((h.count + 1 : ℕ) : ℤ) < 0)) = false := by
          simp; omega
        rw [hb] at e1 e2
        simp only [PyFloat.add] at e1 e2
        simp only [PyFloat.sub, if_true, PyFloat.mul] at e2
        refine ⟨fun h => by simp at h, fun _ => Or.inr (Or.inl e1), ?_, ?_⟩
        · left; rw [e2]; cases h.varS <;> rfl
        · intro qs hqs _
          exfalso
          have : PyFloat.inf false ∈ qs.map PyFloat.fin := by rw [← hqs]; simp
          simp at this
      · obtain ⟨m', h1, h2, h3, h4, h5⟩ := toward hxr hmr hx0 hm0 hlen
        rw [hm, h1] at e1 e2
        have hm'0 : 0 ≤ m' := le_trans (le_min hm0 hx0) h3
        have hsq : h.varS = .nan ∨ NotNegative h.varS := hw.sq
        refine ⟨fun h => by simp at h, fun _ => Or.inl ⟨m', e1, hm'0, h2⟩, ?_, ?_⟩
        · rw [e2]
          rcases hsq with hs | hs
          · left; rw [hs]; rfl
          · exact Or.inr (notNegative_add hs h5)
        · intro qs hqs _
          rcases List.eq_nil_or_concat qs with rfl | ⟨ps, p, rfl⟩
          · simp at hqs
          · simp only [List.concat_eq_append, List.map_append, List.map_cons, List.map_nil] at hqs
            obtain ⟨g1, g2⟩ := List.append_inj' hqs rfl
            simp only [List.cons.injEq, PyFloat.fin.injEq, and_true] at g2
            subst g2
            obtain ⟨k1, mm, k2, ⟨a, ha, ham⟩, ⟨b, hb, hbm⟩⟩ := hw.fins ps g1 hne
            rw [hm] at k2
            simp only [PyFloat.fin.injEq] at k2
            subst k2
            rw [e2]
            refine ⟨notNegative_add k1 h5, m', e1, ?_, ?_⟩
            · rcases min_choice m x with hmin | hmin
              · exact ⟨a, by simp [ha], le_trans ham (by rwa [hmin] at h3)⟩
              · exact ⟨x, by simp, by rwa [hmin] at h3⟩
            · rcases max_choice m x with hmax | hmax
              · exact ⟨b, by simp [hb], le_trans (by rwa [hmax] at h4) hbm⟩
              · exact ⟨x, by simp, by rwa [hmax] at h4⟩
    · have hnf : ∀ qs : List ℚ, vs ++ [v] = qs.map PyFloat.fin → False := by
        intro qs hqs
        rcases List.eq_nil_or_concat qs with rfl | ⟨ps, p, rfl⟩
        · simp at hqs
        · simp only [List.concat_eq_append, List.map_append, List.map_cons, List.map_nil] at hqs
          obtain ⟨g1, g2⟩ := List.append_inj' hqs rfl
          obtain ⟨_, mm, k2, _⟩ := hw.fins ps g1 hne
          rw [hm] at k2; cases k2
      have key : ∃ x, (v.sub h.varM).divInt (h.count + 1 : ℕ) = x ∧ (h.varM.add x = .nan) ∧ True := by
        refine ⟨_, rfl, ?_, trivial⟩
        rw [hm]
        rcases hv with rfl | ⟨x, rfl, hx0, hxr⟩
        · rfl
        · simp only [PyFloat.sub, PyFloat.divInt]
          have hb : ((!false) != decide (((h.count + 1 : ℕ) : ℤ) < 0)) = true := by
            simp; omega
          rw [hb]; rfl
      obtain ⟨x, k1, k2, _⟩ := key
      rw [k1, k2] at e1 e2
      refine ⟨fun h => by simp at h, fun _ => Or.inr (Or.inr e1), ?_, fun qs hqs _ => (hnf qs hqs).elim⟩
      left; rw [e2]
      have : v.sub .nan = .nan := by cases v <;> rfl
      rw [this]
      have h2 : ∀ y : PyFloat, y.mul .nan = .nan := by intro y; cases y <;> rfl
      have h3 : ∀ y : PyFloat, y.add .nan = .nan := by intro y; cases y <;> rfl
      rw [h2, h3]
    · have hnf : ∀ qs : List ℚ, vs ++ [v] = qs.map PyFloat.fin → False := by
        intro qs hqs
        rcases List.eq_nil_or_concat qs with rfl | ⟨ps, p, rfl⟩
        · simp at hqs
        · simp only [List.concat_eq_append, List.map_append, List.map_cons, List.map_nil] at hqs
          obtain ⟨g1, g2⟩ := List.append_inj' hqs rfl
          obtain ⟨_, mm, k2, _⟩ := hw.fins ps g1 hne
          rw [hm] at k2; cases k2
      have h1 : v.sub .nan = .nan := by cases v <;> rfl
      have h2 : ∀ y : PyFloat, y.mul .nan = .nan := by intro y; cases y <;> rfl
      have h3 : ∀ y : PyFloat, y.add .nan = .nan := by intro y; cases y <;> rfl
      rw [hm, h1] at e1 e2
      simp only [PyFloat.divInt] at e1 e2
      rw [h3, h1, h2, h3] at e2
      rw [h3] at e1
      exact ⟨fun h => by simp at h, fun _ => Or.inr (Or.inr e1), Or.inl e2, fun qs hqs _ => (hnf qs hqs).elim⟩

theorem welford_ops (n : Nat) (ops : List (StreamOp PyFloat)) (hv : ∀ v ∈ streamValues ops, Duration v) :
    Welford ((init n).runOps ops) (streamValues ops) := by
  induction ops using List.reverseRecOn with
  | nil => exact welford_clear _
  | append_singleton os o ih =>
    rw [runOps_snoc]
    rw [UniformSample.streamValues_snoc] at hv ⊢
    cases o with
    | clear => exact welford_clear _
    | update d v =>
      simp only at hv ⊢
      exact welford_update (ih fun x hx => hv x (by simp [hx])) (count_runOps n os) d (hv v (by simp))

theorem variance_notNegative {h : Histogram} (hs : NotNegative h.varS) : NotNegative h.getVariance := by
  unfold getVariance
  split
  · exact Or.inr ⟨0, rfl, le_refl _⟩
  · rename_i hc
    have hc' : (0 : ℤ) ≤ (h.count : ℤ) - 1 := by omega
    rcases hs with hs | ⟨s, hs, h0⟩ <;> rw [hs]
    · have : (false != decide ((h.count : ℤ) - 1 < 0)) = false := by simp; omega
      left
      simp only [PyFloat.divInt, this]
    · have hq : (0 : ℚ) ≤ s / (((h.count : ℤ) - 1 : ℤ) : ℚ) := div_nonneg h0 (by exact_mod_cast hc')
      rcases rnd_nonneg hq with e | ⟨r, e, hr⟩
      · exact Or.inl e
      · exact Or.inr ⟨r, e, hr⟩

theorem variance_nan {h : Histogram} (hs : h.varS = .nan) : h.getVariance = .nan ∨ NotNegative h.getVariance := by
  unfold getVariance
  split
  · exact Or.inr (Or.inr ⟨0, rfl, le_refl _⟩)
  · rw [hs]; exact Or.inl rfl

theorem sqrtF_ok {v : PyFloat} (h : NotNegative v) : ∃ s, sqrtF v = .ok s ∧ NotNegative s := by
  rcases h with rfl | ⟨q, rfl, hq⟩
  · exact ⟨_, rfl, Or.inl rfl⟩
  · obtain ⟨r, hr, e⟩ := Ieee.sqrt hq
    refine ⟨.fin r, ?_, Or.inr ⟨r, rfl, hr⟩⟩
    simp only [sqrtF, if_neg (not_lt.2 hq), e]

/-! ## Percentiles -/

/-- The fraction of a position is a double, and not close to one. -/
theorem fraction {pos : ℚ} (h : rnd pos = .fin pos) (h1 : 1 ≤ pos) :
    rnd (pos - ⌊pos⌋) = .fin (pos - ⌊pos⌋) ∧ pos - ⌊pos⌋ ≤ 1 - 2 / 2 ^ 53 := by
  have hf := Int.floor_le pos
  have hf' := Int.lt_floor_add_one pos
  have hf1 : 1 ≤ ⌊pos⌋ := Int.le_floor.2 (by exact_mod_cast h1)
  obtain ⟨⟨m, e, hm, he, hpos⟩, _⟩ := Ieee.rep.1 h
  have hpe := two_zpow_pos e
  by_cases h0 : 0 ≤ e
  · -- an integer
    have hz : pos = ((m * 2 ^ e.toNat : ℤ) : ℚ) := by
      rw [hpos]; push_cast
      congr 1
      have := zpow_int h0
      push_cast at this
      exact this.symm
    have hfl : (⌊pos⌋ : ℚ) = pos := by rw [hz, Int.floor_intCast]
    rw [hfl, sub_self]
    exact ⟨rnd_zero, by norm_num⟩
  · -- the place is a part of one
    have hs : ((2 ^ (-e).toNat : ℤ) : ℚ) * 2 ^ e = 1 := by
      rw [show ((2 ^ (-e).toNat : ℤ) : ℚ) = 2 ^ (-e) from zpow_int (by omega), ← zpow_add₀ (by norm_num)]
      simp
    set k : ℤ := 2 ^ (-e).toNat with hk
    have hm0 : 0 < m := by
      have : 0 < (m : ℚ) * 2 ^ e := by rw [← hpos]; linarith
      have := pos_of_mul_pos_left this hpe.le
      exact_mod_cast this
    rw [abs_of_pos hm0] at hm
    have hfr : pos - ⌊pos⌋ = ((m - ⌊pos⌋ * k : ℤ) : ℚ) * 2 ^ e := by
      push_cast
      rw [sub_mul, mul_assoc, hs, mul_one, ← hpos]
    have hk0 : 0 < k := by rw [hk]; positivity
    have hfr0 : 0 ≤ m - ⌊pos⌋ * k := by
      have : 0 ≤ ((m - ⌊pos⌋ * k : ℤ) : ℚ) * 2 ^ e := by rw [← hfr]; linarith
      have := nonneg_of_mul_nonneg_left this hpe
      exact_mod_cast this
    refine ⟨Ieee.rep.2 ⟨⟨m - ⌊pos⌋ * k, e, ?_, he, hfr⟩, ?_⟩, ?_⟩
    · rw [abs_of_nonneg hfr0]
      have : 0 ≤ ⌊pos⌋ * k := by positivity
      omega
    · rw [abs_of_nonneg (by linarith)]
      have : (1 : ℚ) < 2 ^ (1024 : ℤ) := by
        have : (2 : ℚ) ^ (0 : ℤ) < 2 ^ (1024 : ℤ) := zpow_lt_zpow_right₀ (by norm_num) (by norm_num)
        simpa using this
      exact lt_trans (by linarith) this
    · -- the complement is a positive number of places
      have hlt : m - ⌊pos⌋ * k + 1 ≤ k := by
        have h3 : ((m - ⌊pos⌋ * k : ℤ) : ℚ) * 2 ^ e < (k : ℚ) * 2 ^ e := by rw [← hfr, hs]; linarith
        have h4 := lt_of_mul_lt_mul_right h3 hpe.le
        have h5 : m - ⌊pos⌋ * k < k := by exact_mod_cast h4
        omega
      have h6 : (((m - ⌊pos⌋ * k : ℤ) : ℚ) + 1) * 2 ^ e ≤ 1 := by
        refine le_trans (mul_le_mul_of_nonneg_right (b := ((m - ⌊pos⌋ * k : ℤ) : ℚ) + 1) (c := (k : ℚ)) ?_ hpe.le) hs.le
        exact_mod_cast hlt
      have h7 : pos - ⌊pos⌋ ≤ 1 - 2 ^ e := by rw [hfr]; linarith
      -- and the place is at least 2^-52, or the fraction is zero
      by_cases h8 : e ≤ -53
      · have hke : (2 : ℤ) ^ 53 ≤ k := by
          rw [hk]; exact pow_le_pow_right₀ (by norm_num) (by omega)
        have h9 : m - ⌊pos⌋ * k = 0 := by nlinarith
        rw [hfr, h9]; norm_num
      · have h10 : (2 : ℚ) ^ (-52 : ℤ) ≤ 2 ^ e := zpow_le_zpow_right₀ (by norm_num) (by omega)
        have h11 : (2 : ℚ) ^ (-52 : ℤ) = 2 / 2 ^ 53 := by
          rw [zpow_neg, show (52 : ℤ) = ((52 : ℕ) : ℤ) from rfl, zpow_natCast]; norm_num
        rw [h11] at h10
        linarith

/-- The interpolated score lies between the neighbours and grows with the fraction. -/
theorem score_between {a b c : ℚ} (ha : rnd a = .fin a) (hb : rnd b = .fin b) (ha0 : 0 ≤ a) (h : a ≤ b)
    (hc0 : 0 ≤ c) (hc : c ≤ 1 - 2 / 2 ^ 53) :
    ∃ r, (PyFloat.fin a).add ((PyFloat.fin c).mul ((PyFloat.fin b).sub (.fin a))) = .fin r ∧ rnd r = .fin r ∧ a ≤ r ∧ r ≤ b := by
  obtain ⟨d, hd, hd0, _⟩ := sub_fin hb ha0 h
  obtain ⟨t, ht, ht0, htd⟩ := part_le hb ha h hd hc0 hc
  obtain ⟨r, hr, h1, h2⟩ := rnd_between (q := a + t) ha hb (by linarith) (by linarith)
  exact ⟨r, by simp only [PyFloat.sub, hd, PyFloat.mul, ht, PyFloat.add, hr], Ieee.idem hr, h1, h2⟩

theorem score_mono {a b c c' : ℚ} (ha : rnd a = .fin a) (hb : rnd b = .fin b) (ha0 : 0 ≤ a) (h : a ≤ b)
    (hc0 : 0 ≤ c) (hcc : c ≤ c') (hc : c' ≤ 1 - 2 / 2 ^ 53) {r r' : ℚ}
    (hr : (PyFloat.fin a).add ((PyFloat.fin c).mul ((PyFloat.fin b).sub (.fin a))) = .fin r)
    (hr' : (PyFloat.fin a).add ((PyFloat.fin c').mul ((PyFloat.fin b).sub (.fin a))) = .fin r') : r ≤ r' := by
  obtain ⟨d, hd, hd0, _⟩ := sub_fin hb ha0 h
  obtain ⟨t, ht, ht0, htd⟩ := part_le hb ha h hd hc0 (le_trans hcc hc)
  obtain ⟨t', ht', _, _⟩ := part_le hb ha h hd (le_trans hc0 hcc) hc
  simp only [PyFloat.sub, hd, PyFloat.mul, ht, PyFloat.add] at hr
  simp only [PyFloat.sub, hd, PyFloat.mul, ht', PyFloat.add] at hr'
  have h1 : t ≤ t' := by
    have := Ieee.mono (mul_le_mul_of_nonneg_right hcc hd0)
    rw [ht, ht'] at this
    simpa [PyFloat.le] using this
  have := Ieee.mono (show a + t ≤ a + t' by linarith)
  rw [hr, hr'] at this
  simpa [PyFloat.le] using this

/-- What `percentile` computes for a rounded position. -/
def ScoreAt (rs : List ℚ) (pos : PyFloat) (r : ℚ) : Prop :=
  match pos with
  | .nan => False
  | .inf false => r = rs.getD (rs.length - 1) 0
  | .inf true => r = rs.getD 0 0
  | .fin x =>
    if x < 1 then r = rs.getD 0 0
    else if x ≥ rs.length then r = rs.getD (rs.length - 1) 0
    else (PyFloat.fin (rs.getD (⌊x⌋.toNat - 1) 0)).add ((PyFloat.fin (x - ⌊x⌋)).mul
      ((PyFloat.fin (rs.getD ⌊x⌋.toNat 0)).sub (.fin (rs.getD (⌊x⌋.toNat - 1) 0)))) = .fin r

theorem floor_bounds {x : ℚ} {n : ℕ} (h1 : ¬ x < 1) (h2 : ¬ x ≥ n) :
    1 ≤ ⌊x⌋.toNat ∧ ⌊x⌋.toNat < n ∧ ((⌊x⌋.toNat : ℕ) : ℤ) = ⌊x⌋ := by
  push Not at h1 h2
  have hf1 : 1 ≤ ⌊x⌋ := Int.le_floor.2 (by exact_mod_cast h1)
  have hf2 : ⌊x⌋ < n := Int.floor_lt.2 (by exact_mod_cast h2)
  omega

theorem percentile_score (rs : List ℚ) (hne : rs ≠ []) (hs : rs.Pairwise (· ≤ ·))
    (hr : ∀ x ∈ rs, 0 ≤ x ∧ rnd x = .fin x) (p : ℚ) :
    ∃ r, percentile (rs.map .fin) p = .ok (.fin r) ∧ ScoreAt rs (rnd (p * (rs.length + 1))) r ∧
      rs.getD 0 0 ≤ r ∧ r ≤ rs.getD (rs.length - 1) 0 := by
  have hpos : 0 < rs.length := List.length_pos_iff.2 hne
  have hall : rs.getD 0 0 ≤ rs.getD (rs.length - 1) 0 := getD_mono hs (by omega) (by omega)
  have hhead : (rs.map PyFloat.fin).head? = some (.fin (rs.getD 0 0)) := by
    rw [List.head?_eq_getElem?]; simp [List.getD, hpos]
  have hlast : (rs.map PyFloat.fin).getLast? = some (.fin (rs.getD (rs.length - 1) 0)) := by
    rw [List.getLast?_eq_getElem?]; simp [List.getD, hpos]
  unfold percentile
  rw [List.length_map]
  cases hx : rnd (p * ((rs.length : ℚ) + 1)) with
  | nan => exact absurd hx (rnd_ne_nan _)
  | inf s =>
    cases s with
    | false =>
      simp only [hlast]
      exact ⟨_, rfl, rfl, hall, le_refl _⟩
    | true =>
      simp only [hhead]
      exact ⟨_, rfl, rfl, le_refl _, hall⟩
  | fin x =>
    simp only [ScoreAt]
    by_cases h1 : x < 1
    · simp only [if_pos h1, hhead]
      exact ⟨_, rfl, rfl, le_refl _, hall⟩
    · by_cases h2 : x ≥ rs.length
      · simp only [if_neg h1, if_pos h2, hlast]
        exact ⟨_, rfl, rfl, hall, le_refl _⟩
      · simp only [if_neg h1, if_neg h2]
        obtain ⟨k0, k2, k3⟩ := floor_bounds h1 h2
        have k1 : ⌊x⌋.toNat - 1 < rs.length := by omega
        have ht : truncQ x = ⌊x⌋ := by unfold truncQ; rw [if_pos (by linarith [not_lt.1 h1])]
        have e1 : (⌊x⌋ - 1).toNat = ⌊x⌋.toNat - 1 := by omega
        have hm : ∀ i, i < rs.length → rs.getD i 0 ∈ rs := by
          intro i hi
          rw [List.getD_eq_getElem?_getD, List.getElem?_eq_getElem hi]
          exact List.getElem_mem hi
        obtain ⟨ha0, har⟩ := hr _ (hm _ k1)
        obtain ⟨_, hbr⟩ := hr _ (hm _ k2)
        have hab := getD_mono hs (show ⌊x⌋.toNat - 1 ≤ ⌊x⌋.toNat by omega) k2
        obtain ⟨f1, f2⟩ := fraction (Ieee.idem hx) (not_lt.1 h1)
        have hf0 : 0 ≤ x - ⌊x⌋ := by linarith [Int.floor_le x]
        obtain ⟨r, g1, _, g3, g4⟩ := score_between har hbr ha0 hab hf0 f2
        refine ⟨r, ?_, g1, le_trans (getD_mono hs (by omega) k1) g3, le_trans g4 (getD_mono hs (by omega) (by omega))⟩
        rw [ht, e1, f1]
        have q1 : (rs.map PyFloat.fin)[⌊x⌋.toNat - 1]? = some (.fin (rs.getD (⌊x⌋.toNat - 1) 0)) := by
          simp [List.getD, k1]
        have q2 : (rs.map PyFloat.fin)[⌊x⌋.toNat]? = some (.fin (rs.getD ⌊x⌋.toNat 0)) := by
          simp [List.getD, k2]
        rw [q1, q2]
        simp only [g1]

theorem score_mono_pos (rs : List ℚ) (hne : rs ≠ []) (hs : rs.Pairwise (· ≤ ·))
    (hr : ∀ x ∈ rs, 0 ≤ x ∧ rnd x = .fin x) {p p' : ℚ} (hp : p ≤ p') {r r' : ℚ}
    (h : percentile (rs.map .fin) p = .ok (.fin r)) (h' : percentile (rs.map .fin) p' = .ok (.fin r')) : r ≤ r' := by
  obtain ⟨s, e, sc, lo, hi⟩ := percentile_score rs hne hs hr p
  obtain ⟨s', e', sc', lo', hi'⟩ := percentile_score rs hne hs hr p'
  rw [h] at e
  rw [h'] at e'
  simp only [Except.ok.injEq, PyFloat.fin.injEq] at e e'
  subst e e'
  have hm := Ieee.mono (mul_le_mul_of_nonneg_right hp (show (0 : ℚ) ≤ (rs.length : ℚ) + 1 by positivity))
  cases hx : rnd (p * ((rs.length : ℚ) + 1)) with
  | nan => exact absurd hx (rnd_ne_nan _)
  | inf t =>
    rw [hx] at sc hm
    cases t with
    | true => simp only [ScoreAt] at sc; rw [sc]; exact lo'
    | false =>
      have : rnd (p' * ((rs.length : ℚ) + 1)) = .inf false := by
        cases hy : rnd (p' * ((rs.length : ℚ) + 1)) with
        | nan => exact absurd hy (rnd_ne_nan _)
        | inf t' => rw [hy] at hm; cases t' <;> simp [PyFloat.le] at hm ⊢
        | fin y => rw [hy] at hm; simp [PyFloat.le] at hm
      rw [this] at sc'
      simp only [ScoreAt] at sc sc'
      rw [sc, sc']
  | fin x =>
    rw [hx] at sc hm
    cases hy : rnd (p' * ((rs.length : ℚ) + 1)) with
    | nan => exact absurd hy (rnd_ne_nan _)
    | inf t' =>
      rw [hy] at sc' hm
      cases t' with
      | true => simp [PyFloat.le] at hm
      | false => simp only [ScoreAt] at sc'; rw [sc']; exact hi
    | fin y =>
      rw [hy] at sc' hm
      have hxy : x ≤ y := by simpa [PyFloat.le] using hm
      simp only [ScoreAt] at sc sc'
      by_cases h1 : x < 1
      · rw [if_pos h1] at sc; rw [sc]; exact lo'
      · rw [if_neg h1] at sc
        rw [if_neg (show ¬ y < 1 by linarith [not_lt.1 h1])] at sc'
        by_cases h2 : y ≥ rs.length
        · rw [if_pos h2] at sc'; rw [sc']; exact hi
        · rw [if_neg h2] at sc'
          rw [if_neg (show ¬ x ≥ rs.length by push Not at h2 ⊢; linarith)] at sc
          have hx2 : ¬ x ≥ rs.length := by push Not at h2 ⊢; linarith
          have hy1 : ¬ y < 1 := by linarith [not_lt.1 h1]
          obtain ⟨a0, a2, a3⟩ := floor_bounds h1 hx2
          obtain ⟨b0, b2, b3⟩ := floor_bounds hy1 h2
          have hm' : ∀ i, i < rs.length → rs.getD i 0 ∈ rs := by
            intro i hi
            rw [List.getD_eq_getElem?_getD, List.getElem?_eq_getElem hi]
            exact List.getElem_mem hi
          obtain ⟨f1, f2⟩ := fraction (Ieee.idem hx) (not_lt.1 h1)
          obtain ⟨g1, g2⟩ := fraction (Ieee.idem hy) (not_lt.1 hy1)
          have hf0 : 0 ≤ x - ⌊x⌋ := by linarith [Int.floor_le x]
          have hg0 : 0 ≤ y - ⌊y⌋ := by linarith [Int.floor_le y]
          have ka : ⌊x⌋.toNat - 1 < rs.length := by omega
          have kb : ⌊y⌋.toNat - 1 < rs.length := by omega
          obtain ⟨ha0, har⟩ := hr _ (hm' _ ka)
          obtain ⟨_, hbr⟩ := hr _ (hm' _ a2)
          obtain ⟨hc0, hcr⟩ := hr _ (hm' _ kb)
          obtain ⟨_, hdr⟩ := hr _ (hm' _ b2)
          have hab := getD_mono hs (show ⌊x⌋.toNat - 1 ≤ ⌊x⌋.toNat by omega) a2
          have hcd := getD_mono hs (show ⌊y⌋.toNat - 1 ≤ ⌊y⌋.toNat by omega) b2
          have hfl : ⌊x⌋ ≤ ⌊y⌋ := Int.floor_le_floor hxy
          rcases hfl.eq_or_lt with heq | hlt
          · rw [← heq] at sc' g2 hg0
            exact score_mono har hbr ha0 hab hf0 (by linarith) g2 sc sc'
          · obtain ⟨r1, u1, _, _, u4⟩ := score_between har hbr ha0 hab hf0 f2
            obtain ⟨r2, v1, _, v3, _⟩ := score_between hcr hdr hc0 hcd hg0 g2
            rw [sc] at u1
            rw [sc'] at v1
            simp only [PyFloat.fin.injEq] at u1 v1
            subst u1 v1
            have : rs.getD ⌊x⌋.toNat 0 ≤ rs.getD (⌊y⌋.toNat - 1) 0 := getD_mono hs (by omega) (by omega)
            linarith

/-! ## Bins -/

omit [Rounding] [Ieee] in
theorem bump_at (scores : List Nat) (i : Nat) (h : i < scores.length) :
    bump scores (i : ℤ) = .ok (scores.modify i (· + 1)) := by
  unfold bump
  simp only [show ¬ ((i : ℤ) < 0) by omega, if_false]
  rw [if_pos (by omega)]
  simp

omit [Rounding] [Ieee] in
theorem bump_sum (scores : List Nat) (i : Nat) (h : i < scores.length) : (scores.modify i (· + 1)).sum = scores.sum + 1 := by
  induction scores generalizing i with
  | nil => simp at h
  | cons a l ih =>
    cases i with
    | zero => simp; omega
    | succ i =>
      simp only [List.length_cons, Nat.add_lt_add_iff_right] at h
      simp only [List.modify_succ_cons, List.sum_cons, ih i h]; omega

theorem binLoop_double {lo hi range : ℚ} {bins : Nat} (hl : rnd lo = .fin lo) (hh : rnd hi = .fin hi) (hlo0 : 0 ≤ lo)
    (hlh : lo < hi) (hrange : rnd (hi - lo) = .fin range) (hb : 1 ≤ bins) (hb2 : bins ≤ 2 ^ 53) (qs : List ℚ)
    (h : ∀ v ∈ qs, lo ≤ v ∧ v ≤ hi) (scores : List Nat) (hlen : scores.length = bins) :
    ∃ out, binLoop bins (.fin lo) (.fin range) (qs.map .fin) scores = .ok out ∧ out.length = bins ∧
      out.sum = scores.sum + qs.length := by
  have hr0 : 0 < range := by
    obtain ⟨z, hz⟩ := grid_sub hh hl
    have hp := two_zpow_pos (-1074)
    have hz0 : 0 < z := by
      have : 0 < (z : ℚ) * 2 ^ (-1074 : ℤ) := by rw [← hz]; linarith
      have := pos_of_mul_pos_left this hp.le
      exact_mod_cast this
    have ht := rep_tiny (z := 1) (by norm_num)
    have hle : ((1 : ℤ) : ℚ) * 2 ^ (-1074 : ℤ) ≤ hi - lo := by
      rw [hz]
      apply mul_le_mul_of_nonneg_right _ hp.le
      exact_mod_cast hz0
    have := Ieee.mono hle
    rw [ht, hrange] at this
    simp only [PyFloat.le, decide_eq_true_eq] at this
    refine lt_of_lt_of_le ?_ this
    simpa using hp
  have hbr : rnd (bins : ℚ) = .fin bins := by
    have := rnd_int (z := bins) (by rw [abs_of_nonneg (by positivity)]; exact_mod_cast hb2)
    simpa using this
  have hone : rnd (1 : ℚ) = .fin 1 := by
    have := rnd_int (z := 1) (by norm_num)
    simpa using this
  induction qs generalizing scores with
  | nil => exact ⟨scores, rfl, hlen, by simp⟩
  | cons v qs ih =>
    obtain ⟨h1, h2⟩ := h v (by simp)
    obtain ⟨dv, hdv, hdv0, _⟩ := rnd_between (q := v - lo) rnd_zero hh (by linarith) (by linarith)
    have hdvr : dv ≤ range := by
      have := Ieee.mono (show v - lo ≤ hi - lo by linarith)
      rw [hdv, hrange] at this
      simpa [PyFloat.le] using this
    obtain ⟨x, hx, hx0, hx1⟩ := rnd_between (q := dv / range) rnd_zero hone (by positivity)
      (by rw [div_le_one hr0]; exact hdvr)
    have hb0 : (0 : ℚ) ≤ bins := by positivity
    obtain ⟨y, hy, hy0, hy1⟩ := rnd_between (q := x * bins) rnd_zero hbr (by positivity) (by nlinarith)
    have hfl0 : 0 ≤ ⌊y⌋ := Int.floor_nonneg.2 hy0
    have hfl1 : ⌊y⌋ ≤ bins := by
      have := Int.floor_le_floor hy1
      simpa using this
    set i : ℕ := (if ⌊y⌋ = (bins : ℤ) then ⌊y⌋ - 1 else ⌊y⌋).toNat with hi
    have hi' : (if ⌊y⌋ = (bins : ℤ) then ⌊y⌋ - 1 else ⌊y⌋) = (i : ℤ) := by
      rw [hi]; split_ifs <;> omega
    have hib : i < bins := by
      rw [hi]; split_ifs <;> omega
    obtain ⟨out, e1, e2, e3⟩ := ih (fun x hx => h x (by simp [hx])) (scores.modify i (· + 1)) (by simpa using hlen)
    refine ⟨out, ?_, e2, ?_⟩
    · rw [List.map_cons]
      unfold binLoop
      simp only [PyFloat.sub, PyFloat.div, hdv, if_neg hr0.ne', hx, PyFloat.mul, hbr, hy, toIntF, truncQ, if_pos hy0,
        bind, Except.bind, hi']
      rw [bump_at _ _ (by omega)]
      exact e1
    · rw [e3, bump_sum _ _ (by omega), List.length_cons]; omega

end Histogram
end Txstatsd
