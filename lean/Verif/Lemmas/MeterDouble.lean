import Verif.Lemmas.FloatSum
import Verif.Lemmas.Meter

set_option linter.unusedSectionVars false
set_option linter.unusedSimpArgs false
set_option linter.unusedVariables false

/-!
# Meters in double arithmetic
-/

namespace Txstatsd
open Spec
section
variable [Rounding]

/-- The int 0 that a meter starts with, or a finite float. -/
def Num.Holds (n : Num) (q : ℚ) : Prop := (n = .int 0 ∧ q = 0) ∨ n = .flt (.fin q)

theorem holds_zero : Num.Holds (.int 0) 0 := Or.inl ⟨rfl, rfl⟩

theorem holds_add (h0 : rnd 0 = .fin 0) {a b : Num} {x y r : ℚ} (ha : a.Holds x) (hb : b.Holds y)
    (h : rnd (x + y) = .fin r) : (a.add b).Holds r := by
  rcases ha with ⟨rfl, rfl⟩ | rfl <;> rcases hb with ⟨rfl, rfl⟩ | rfl
  · left
    rw [add_zero, h0] at h
    simp only [PyFloat.fin.injEq] at h
    exact ⟨rfl, h.symm⟩
  · right; simp only [Num.add, Num.toFloat, Int.cast_zero, h0, PyFloat.add, h]
  · right; simp only [Num.add, Num.toFloat, Int.cast_zero, h0, PyFloat.add, h]
  · right; simp only [Num.add, Num.toFloat, PyFloat.add, h]

theorem holds_toFloat (h0 : rnd 0 = .fin 0) {a : Num} {x : ℚ} (ha : a.Holds x) : a.toFloat = .fin x := by
  rcases ha with ⟨rfl, rfl⟩ | rfl
  · simp [Num.toFloat, h0]
  · rfl

theorem meterRun_snoc (m : Meter) (h : List MeterOp) (o : MeterOp) : m.run (h ++ [o]) = (m.run h).apply o := by
  simp [Meter.run, List.foldl_append]

theorem marks_mark (h : List MeterOp) (q : ℚ) : marks (h ++ [.mark q]) = marks h ++ [q] := by simp [marks]
theorem marks_report (h : List MeterOp) (ts : ℤ) : marks (h ++ [.report ts]) = marks h := by simp [marks]

/-- A report either leaves count and value alone, or it moves the value to the count. -/
theorem report_cases (m : Meter) (ts : ℤ) :
    ((m.report ts).1.count = m.count ∧ (m.report ts).1.value = m.value ∧ ∀ l, (m.report ts).2 = .ok l → l = []) ∨
    ((m.report ts).1.count = m.count.add m.value ∧ (m.report ts).1.value = .int 0 ∧
      ∃ r, (m.report ts).2 = .ok [⟨m.pre ++ m.name ++ c!".count", .flt (round6 (m.report ts).1.count.toFloat), ts⟩,
        ⟨m.pre ++ m.name ++ c!".rate", .flt r, ts⟩]) := by
  unfold Meter.report
  simp only
  split_ifs with h
  · exact Or.inl ⟨rfl, rfl, fun l hl => by simpa using hl.symm⟩
  · cases hd : m.value.toFloat.div (rnd ((ts : ℚ) - m.pollTime)) with
    | error e => exact Or.inl ⟨rfl, rfl, fun l hl => by cases hl⟩
    | ok r => exact Or.inr ⟨rfl, rfl, _, rfl⟩

/-! ## Whole numbers -/

theorem whole_run [IntExact] (name pre : Str) (start : ℚ) (h : List MeterOp) (zs : List ℤ)
    (hz : marks h = zs.map (fun z : ℤ => (z : ℚ))) (hb : (zs.map abs).sum ≤ 2 ^ 53) :
    ∃ c v : ℤ, ((Meter.init name pre start).run h).count.Holds c ∧ ((Meter.init name pre start).run h).value.Holds v ∧
      c + v = zs.sum ∧ |c| + |v| ≤ (zs.map abs).sum := by
  have h0 : rnd 0 = .fin 0 := by
    have := IntExact.rnd_int (0 : ℤ) (by norm_num)
    simpa using this
  induction h using List.reverseRecOn generalizing zs with
  | nil =>
    have : zs = [] := List.map_eq_nil_iff.1 hz.symm
    subst this
    exact ⟨0, 0, Or.inl ⟨rfl, by simp⟩, Or.inl ⟨rfl, by simp⟩, by simp, by simp⟩
  | append_singleton h o ih =>
    rw [meterRun_snoc]
    generalize (Meter.init name pre start).run h = m at ih ⊢
    cases o with
    | mark q =>
      rw [marks_mark] at hz
      obtain ⟨z1, z2, rfl, e1, e2⟩ := List.map_eq_append_iff.1 hz.symm
      obtain ⟨z, rfl, hq⟩ : ∃ z, z2 = [z] ∧ (z : ℚ) = q := by
        cases z2 with
        | nil => simp at e2
        | cons z t =>
          simp only [List.map_cons, List.cons.injEq, List.map_eq_nil_iff] at e2
          obtain ⟨e3, rfl⟩ := e2
          exact ⟨z, rfl, e3⟩
      simp only [List.map_append, List.map_cons, List.map_nil, List.sum_append, List.sum_cons, List.sum_nil, add_zero] at hb ⊢
      obtain ⟨c, v, a1, a2, a3, a4⟩ := ih z1 e1.symm (by have := abs_nonneg z; omega)
      have hab : |v + z| ≤ |v| + |z| := abs_add_le _ _
      refine ⟨c, v + z, a1, ?_, by omega, by omega⟩
      have hr : rnd ((v : ℚ) + q) = .fin ((v + z : ℤ) : ℚ) := by
        rw [← hq, ← Int.cast_add]
        exact IntExact.rnd_int _ (by have := abs_nonneg c; omega)
      exact holds_add h0 a2 (Or.inr rfl) hr
    | report ts =>
      rw [marks_report] at hz
      obtain ⟨c, v, a1, a2, a3, a4⟩ := ih zs hz hb
      simp only [Meter.apply]
      rcases report_cases m ts with ⟨e1, e2, _⟩ | ⟨e1, e2, _⟩
      · rw [e1, e2]; exact ⟨c, v, a1, a2, a3, a4⟩
      · rw [e1, e2]
        have hab : |c + v| ≤ |c| + |v| := abs_add_le _ _
        refine ⟨c + v, 0, ?_, Or.inl ⟨rfl, by simp⟩, by omega, by simp; omega⟩
        have hr : rnd ((c : ℚ) + v) = .fin ((c + v : ℤ) : ℚ) := by
          rw [← Int.cast_add]; exact IntExact.rnd_int _ (by omega)
        exact holds_add h0 a1 a2 hr

theorem roundHalfAway_int (z : ℤ) : roundHalfAway ((z : ℚ)) = z := by
  have h := roundHalfAway_near (z : ℚ)
  have h' : |roundHalfAway (z : ℚ) - z| ≤ 0 := by
    by_contra hc
    have : 1 ≤ |roundHalfAway (z : ℚ) - z| := by omega
    have : (1 : ℚ) ≤ |(roundHalfAway (z : ℚ) : ℚ) - z| := by exact_mod_cast this
    linarith
  have := abs_nonpos_iff.1 h'
  omega

theorem round6_int [IntExact] {z : ℤ} (h : |z| ≤ 2 ^ 53) : round6 (.fin z) = .fin z := by
  have e : (z : ℚ) * 1000000 = ((z * 1000000 : ℤ) : ℚ) := by push_cast; rfl
  rw [round6, e, roundHalfAway_int]
  have e' : ((z * 1000000 : ℤ) : ℚ) / 1000000 = z := by push_cast; field_simp
  rw [e']
  exact IntExact.rnd_int _ h

end

/-! ## Doubles -/

section
variable [Rounding] [Ieee]

theorem near_run (name pre : Str) (start : ℚ) (h : List MeterOp) (hd : ∀ q ∈ marks h, rnd q = .fin q)
    (hn : (marks h).length ≤ 2 ^ 51) (hb : ((marks h).map abs).sum ≤ 2 ^ (1000 : ℤ)) :
    ∃ (c v : ℚ) (k : ℕ), ((Meter.init name pre start).run h).count.Holds c ∧
      ((Meter.init name pre start).run h).value.Holds v ∧ rnd c = .fin c ∧ rnd v = .fin v ∧
      k ≤ 2 * (marks h).length ∧ (((Meter.init name pre start).run h).value ≠ .int 0 → k + 1 ≤ 2 * (marks h).length) ∧
      |c| + |v| ≤ (1 + 1 / 2 ^ 53) ^ k * ((marks h).map abs).sum ∧
      |c + v - (marks h).sum| ≤ ((1 + 1 / 2 ^ 53) ^ k - 1) * ((marks h).map abs).sum := by
  induction h using List.reverseRecOn with
  | nil =>
    exact ⟨0, 0, 0, Or.inl ⟨rfl, rfl⟩, Or.inl ⟨rfl, rfl⟩, rnd_zero, rnd_zero, by simp, fun h => absurd rfl h, by simp [marks],
      by simp [marks]⟩
  | append_singleton h o ih =>
    rw [meterRun_snoc]
    generalize (Meter.init name pre start).run h = m at ih ⊢
    cases o with
    | mark q =>
      rw [marks_mark] at *
      simp only [List.map_append, List.map_cons, List.map_nil, List.sum_append, List.sum_cons, List.sum_nil, add_zero,
        List.length_append, List.length_singleton] at hb hn ⊢
      have hq := hd q (by simp)
      have hqa := abs_nonneg q
      have hA := abs_sum_nonneg (marks h)
      obtain ⟨c, v, k, a1, a2, a3, a4, a5, a6, a7, a8⟩ := ih (fun x hx => hd x (by simp [hx])) (by omega)
        (le_trans (le_add_of_nonneg_right hqa) hb)
      have hu := unit_pow k (by omega)
      have hk : (k : ℚ) / 2 ^ 52 ≤ 1 := by
        rw [div_le_one (by norm_num)]; exact_mod_cast (by omega : k ≤ 2 ^ 52)
      have hp2 : (1 + 1 / 2 ^ 53 : ℚ) ^ k ≤ 2 := by linarith
      have hp1 : (1 : ℚ) ≤ (1 + 1 / 2 ^ 53) ^ k := one_le_pow₀ (by norm_num)
      have hr4 := rep_two
      generalize (2 : ℚ) ^ (1000 : ℤ) = M at hb hr4
      have hps : (1 + 1 / 2 ^ 53 : ℚ) ^ (k + 1) = (1 + 1 / 2 ^ 53) ^ k * (1 + 1 / 2 ^ 53) := pow_succ _ _
      generalize (1 + 1 / 2 ^ 53 : ℚ) ^ k = p at *
      generalize ((marks h).map abs).sum = A at *
      have hc := abs_nonneg c
      have hvq : |v + q| ≤ |v| + |q| := abs_add_le _ _
      have hpA : p * A ≤ 2 * A := mul_le_mul_of_nonneg_right hp2 hA
      obtain ⟨b1, b2⟩ := abs_le.1 (show |v + q| ≤ 4 * M by linarith)
      obtain ⟨r, hr, _, _⟩ := rnd_between (rep_neg hr4) hr4 b1 b2
      have he := add_err a4 hq hr
      refine ⟨c, r, k + 1, a1, holds_add rnd_zero a2 (Or.inr rfl) hr, a3, Ieee.idem hr, by omega, fun _ => by omega, ?_, ?_⟩
      · rw [hps]
        have h1 : |r| ≤ |r - (v + q)| + |v + q| := by
          calc |r| = |(r - (v + q)) + (v + q)| := by ring_nf
            _ ≤ _ := abs_add_le _ _
        have h2 : |v + q| / 2 ^ 53 = |v + q| * (1 / 2 ^ 53) := by ring
        rw [h2] at he
        have hu0 : (0 : ℚ) ≤ 1 / 2 ^ 53 := by norm_num
        generalize (1 / 2 ^ 53 : ℚ) = u at *
        have h3 : |v + q| * u ≤ (|v| + |q|) * u := mul_le_mul_of_nonneg_right hvq hu0
        have h4 : (|c| + |v|) * u ≤ p * A * u := mul_le_mul_of_nonneg_right a7 hu0
        have h5 : 0 ≤ |c| * u := mul_nonneg hc hu0
        have h6 : 0 ≤ (p - 1) * (1 + u) * |q| := mul_nonneg (mul_nonneg (by linarith) (by linarith)) hqa
        nlinarith
      · rw [hps]
        have h2 : |v + q| / 2 ^ 53 = |v + q| * (1 / 2 ^ 53) := by ring
        rw [h2] at he
        have hu0 : (0 : ℚ) ≤ 1 / 2 ^ 53 := by norm_num
        generalize (1 / 2 ^ 53 : ℚ) = u at *
        have h1 : |c + r - ((marks h).sum + q)| ≤ |c + v - (marks h).sum| + |r - (v + q)| := by
          calc |c + r - ((marks h).sum + q)| = |(c + v - (marks h).sum) + (r - (v + q))| := by ring_nf
            _ ≤ _ := abs_add_le _ _
        have h3 : |v + q| * u ≤ (|v| + |q|) * u := mul_le_mul_of_nonneg_right hvq hu0
        have h4 : (|c| + |v|) * u ≤ p * A * u := mul_le_mul_of_nonneg_right a7 hu0
        have h5 : 0 ≤ |c| * u := mul_nonneg hc hu0
        have h6 : 0 ≤ (p - 1) * (1 + u) * |q| := mul_nonneg (mul_nonneg (by linarith) (by linarith)) hqa
        nlinarith
    | report ts =>
      rw [marks_report] at *
      obtain ⟨c, v, k, a1, a2, a3, a4, a5, a6, a7, a8⟩ := ih hd hn hb
      simp only [Meter.apply]
      rcases report_cases m ts with ⟨e1, e2, _⟩ | ⟨e1, e2, _⟩
      · rw [e1, e2]; exact ⟨c, v, k, a1, a2, a3, a4, a5, a6, a7, a8⟩
      · rw [e1, e2]
        by_cases hv : m.value = .int 0
        · have hv0 : v = 0 := by
            rcases a2 with ⟨_, h⟩ | h
            · exact h
            · rw [hv] at h; cases h
          subst hv0
          refine ⟨c, 0, k, holds_add rnd_zero a1 a2 (by rw [add_zero]; exact a3), holds_zero, a3, rnd_zero, a5,
            fun h => absurd rfl h, a7, a8⟩
        · have hk1 := a6 hv
          have hA := abs_sum_nonneg (marks h)
          have hu := unit_pow k (by omega)
          have hk : (k : ℚ) / 2 ^ 52 ≤ 1 := by
            rw [div_le_one (by norm_num)]; exact_mod_cast (by omega : k ≤ 2 ^ 52)
          have hp2 : (1 + 1 / 2 ^ 53 : ℚ) ^ k ≤ 2 := by linarith
          have hr4 := rep_two
          generalize (2 : ℚ) ^ (1000 : ℤ) = M at hb hr4
          have hps : (1 + 1 / 2 ^ 53 : ℚ) ^ (k + 1) = (1 + 1 / 2 ^ 53) ^ k * (1 + 1 / 2 ^ 53) := pow_succ _ _
          generalize (1 + 1 / 2 ^ 53 : ℚ) ^ k = p at *
          generalize ((marks h).map abs).sum = A at *
          have hcv : |c + v| ≤ |c| + |v| := abs_add_le _ _
          have hpA : p * A ≤ 2 * A := mul_le_mul_of_nonneg_right hp2 hA
          obtain ⟨b1, b2⟩ := abs_le.1 (show |c + v| ≤ 4 * M by linarith)
          obtain ⟨r, hr, _, _⟩ := rnd_between (rep_neg hr4) hr4 b1 b2
          have he := add_err a3 a4 hr
          have h2 : |c + v| / 2 ^ 53 = |c + v| * (1 / 2 ^ 53) := by ring
          rw [h2] at he
          have hu0 : (0 : ℚ) ≤ 1 / 2 ^ 53 := by norm_num
          refine ⟨r, 0, k + 1, holds_add rnd_zero a1 a2 hr, holds_zero, Ieee.idem hr, rnd_zero, by omega,
            fun h => absurd rfl h, ?_, ?_⟩
          · rw [hps, abs_zero, add_zero]
            generalize (1 / 2 ^ 53 : ℚ) = u at *
            have h1 : |r| ≤ |r - (c + v)| + |c + v| := by
              calc |r| = |(r - (c + v)) + (c + v)| := by ring_nf
                _ ≤ _ := abs_add_le _ _
            have h3 : |c + v| * u ≤ p * A * u := mul_le_mul_of_nonneg_right (le_trans hcv a7) hu0
            nlinarith
          · rw [hps, add_zero]
            generalize (1 / 2 ^ 53 : ℚ) = u at *
            have h1 : |r - (marks h).sum| ≤ |c + v - (marks h).sum| + |r - (c + v)| := by
              calc |r - (marks h).sum| = |(c + v - (marks h).sum) + (r - (c + v))| := by ring_nf
                _ ≤ _ := abs_add_le _ _
            have h3 : |c + v| * u ≤ p * A * u := mul_le_mul_of_nonneg_right (le_trans hcv a7) hu0
            nlinarith

/-- Rounding to six decimals. -/
theorem round6_double {q : ℚ} (h : |q| ≤ 3 * 2 ^ (1000 : ℤ)) : ∃ d r, Near6 d q ∧ rnd d = .fin r ∧ round6 (.fin q) = .fin r := by
  have hn := near6 q
  have hr4 := rep_two
  have h1 : (1 : ℚ) ≤ 2 ^ (1000 : ℤ) := one_le_zpow₀ (by norm_num) (by norm_num)
  have hd : |(roundHalfAway (q * 1000000) : ℚ) / 1000000| ≤ 4 * 2 ^ (1000 : ℤ) := by
    have h2 := hn.2
    generalize (roundHalfAway (q * 1000000) : ℚ) / 1000000 = d at *
    have : |d| ≤ |d - q| + |q| := by
      calc |d| = |(d - q) + q| := by ring_nf
        _ ≤ _ := abs_add_le _ _
    generalize (2 : ℚ) ^ (1000 : ℤ) = M at *
    linarith [show (1 / 2000000 : ℚ) ≤ 1 by norm_num]
  obtain ⟨b1, b2⟩ := abs_le.1 hd
  obtain ⟨r, hr, _, _⟩ := rnd_between (rep_neg hr4) hr4 b1 b2
  exact ⟨_, r, hn, hr, hr⟩

end
end Txstatsd
