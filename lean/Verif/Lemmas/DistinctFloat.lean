import Verif.Model.DistinctFloat
import Verif.Lemmas.Distinct
import Verif.Lemmas.Sterbenz

set_option linter.unusedSectionVars false
set_option linter.unusedSimpArgs false
set_option linter.unusedVariables false

namespace Txstatsd
open Spec

theorem least0Float_fin (since : ℚ) (r : HashRow) : r.least0Float (.fin since) = r.least0 since := by
  unfold HashRow.least0Float HashRow.least0
  simp [PyFloat.le]

section
variable [Rounding] [Ieee]

theorem totalFloat_aux (since : ℚ) (rows : List HashRow) (n : ℕ) (h : n + (rows.map (HashRow.least0 since)).sum ≤ 2 ^ 53) :
    rows.foldl (fun (total : PyFloat) r => total.add (Num.toFloat (.int (r.least0Float (.fin since))))) (PyFloat.fin n) =
      PyFloat.fin ((n + (rows.map (HashRow.least0 since)).sum : ℕ) : ℚ) := by
  induction rows generalizing n with
  | nil => simp
  | cons r rows ih =>
    simp only [List.map_cons, List.sum_cons] at h
    simp only [List.foldl_cons, List.map_cons, List.sum_cons, least0Float_fin, Num.toFloat]
    have e1 : rnd (((r.least0 since : ℕ) : ℤ) : ℚ) = .fin (((r.least0 since : ℕ) : ℤ) : ℚ) := rnd_int (by
      rw [abs_of_nonneg (Int.natCast_nonneg _)]; exact_mod_cast (by omega : r.least0 since ≤ 2 ^ 53))
    have e2 : rnd (((n + r.least0 since : ℕ) : ℤ) : ℚ) = .fin (((n + r.least0 since : ℕ) : ℤ) : ℚ) := rnd_int (by
      rw [abs_of_nonneg (Int.natCast_nonneg _)]; exact_mod_cast (by omega : n + r.least0 since ≤ 2 ^ 53))
    have e3 : (PyFloat.fin (n : ℚ)).add (rnd (((r.least0 since : ℕ) : ℤ) : ℚ)) = .fin ((n + r.least0 since : ℕ) : ℚ) := by
      rw [e1]
      simp only [PyFloat.add]
      have : (n : ℚ) + (((r.least0 since : ℕ) : ℤ) : ℚ) = (((n + r.least0 since : ℕ) : ℤ) : ℚ) := by push_cast; ring
      rw [this, e2]
      simp
    have ih' := ih (n + r.least0 since) (by omega)
    simp only [least0Float_fin, Num.toFloat] at ih'
    rw [e3, ih', Nat.add_assoc]

theorem totalFloat_eq (c : DistinctCounter) (since : ℚ) (h : (c.rows.map (HashRow.least0 since)).sum ≤ 2 ^ 53) :
    c.totalFloat (.fin since) = .fin (((c.rows.map (HashRow.least0 since)).sum : ℕ) : ℚ) := by
  have := totalFloat_aux since c.rows 0 (by omega)
  simpa [DistinctCounter.totalFloat] using this

/-- Dividing by a power of two is exact. -/
theorem div_pow_exact (s j : ℕ) (hs : s ≤ 2 ^ 53) (hj : j ≤ 1000) : rnd ((s : ℚ) / ((2 ^ j : ℕ) : ℚ)) = .fin ((s : ℚ) / ((2 ^ j : ℕ) : ℚ)) := by
  refine Ieee.rep.2 ⟨⟨s, -j, ?_, by omega, ?_⟩, ?_⟩
  · rw [abs_of_nonneg (Int.natCast_nonneg _)]; exact_mod_cast hs
  · rw [zpow_neg, zpow_natCast]; push_cast; rw [div_eq_mul_inv]
  · rw [abs_of_nonneg (by positivity)]
    have h1 : (s : ℚ) / ((2 ^ j : ℕ) : ℚ) ≤ s := div_le_self (Nat.cast_nonneg s) (by exact_mod_cast Nat.one_le_two_pow)
    have h2 : (s : ℚ) ≤ 2 ^ (53 : ℤ) := by exact_mod_cast hs
    exact lt_of_le_of_lt (h1.trans h2) (zpow_lt_zpow_right₀ (by norm_num) (by norm_num))

/-- The divisor. -/
theorem divisor_double : ∃ c : ℚ, rnd (77351 / 100000) = .fin c ∧ |c - 77351 / 100000| ≤ (77351 / 100000 : ℚ) / 2 ^ 53 := by
  have h1 : rnd ((1 : ℤ) : ℚ) = .fin ((1 : ℤ) : ℚ) := rnd_int (by norm_num)
  have h0 : rnd 0 = .fin 0 := rnd_zero
  obtain ⟨c, hc, -, -⟩ := rnd_between (q := 77351 / 100000) h0 (by simpa using h1) (by norm_num) (by norm_num)
  refine ⟨c, hc, ?_⟩
  have := Ieee.norm (q := 77351 / 100000) (by
    rw [abs_of_nonneg (by norm_num)]
    have : (2 : ℚ) ^ (-1022 : ℤ) ≤ 2 ^ (-1 : ℤ) := zpow_le_zpow_right₀ (by norm_num) (by norm_num)
    refine this.trans ?_
    norm_num) hc
  rwa [abs_of_nonneg (show (0 : ℚ) ≤ 77351 / 100000 by norm_num)] at this

/-- The quotient in doubles is within `2^-51` of the exact one, relatively. -/
theorem quotient_near {w : ℚ} (h1 : 1 ≤ w) (h2 : w ≤ 2 ^ 1000) :
    ∃ x, (PyFloat.fin w).div (rnd (77351 / 100000)) = .ok (.fin x) ∧
      |x - w / (77351 / 100000)| ≤ w / (77351 / 100000) / 2 ^ 51 := by
  obtain ⟨c, hc, hcerr⟩ := divisor_double
  have hcb := abs_le.1 hcerr
  have c1 : (77351 / 100000 : ℚ) * (1 - 1 / 2 ^ 53) ≤ c := by linarith
  have c2 : c ≤ (77351 / 100000 : ℚ) * (1 + 1 / 2 ^ 53) := by linarith
  have cpos : 0 < c := lt_of_lt_of_le (by norm_num) c1
  have chalf : 1 / 2 ≤ c := le_trans (by norm_num) c1
  have clt : c < 1 := lt_of_le_of_lt c2 (by norm_num)
  have hq1 : 1 ≤ w / c := by rw [le_div_iff₀ cpos]; linarith
  have hq2 : w / c ≤ 2 ^ (1001 : ℤ) := by
    rw [div_le_iff₀ cpos]
    have : (2 : ℚ) ^ (1001 : ℤ) = 2 ^ 1000 * 2 := by
      rw [show (1001 : ℤ) = ((1000 + 1 : ℕ) : ℤ) by norm_num, zpow_natCast, pow_succ]
    rw [this]
    have hp : (0 : ℚ) < 2 ^ 1000 := pow_pos (by norm_num) _
    refine h2.trans ?_
    rw [mul_assoc]
    exact le_mul_of_one_le_right hp.le (by linarith)
  have hrep : rnd ((2 : ℚ) ^ (1001 : ℤ)) = .fin (2 ^ (1001 : ℤ)) := Ieee.rep.2 ⟨⟨1, 1001, by norm_num, by norm_num, by simp⟩, by
    rw [abs_of_pos (two_zpow_pos _)]
    exact zpow_lt_zpow_right₀ (by norm_num) (by norm_num)⟩
  obtain ⟨x, hx, -, -⟩ := rnd_between (q := w / c) rnd_zero hrep (zero_le_one.trans hq1) hq2
  refine ⟨x, by rw [hc]; simp only [PyFloat.div, cpos.ne', if_false, hx], ?_⟩
  have he := Ieee.norm (q := w / c) (by
    rw [abs_of_nonneg (zero_le_one.trans hq1)]
    have : (2 : ℚ) ^ (-1022 : ℤ) ≤ 2 ^ (0 : ℤ) := zpow_le_zpow_right₀ (by norm_num) (by norm_num)
    rw [zpow_zero] at this
    exact this.trans hq1) hx
  rw [abs_of_nonneg (zero_le_one.trans hq1)] at he
  clear hq2 hrep h2
  set y := w / (77351 / 100000 : ℚ) with hy
  have y0 : 0 < y := by rw [hy]; positivity
  have hyc : w / c = y * ((77351 / 100000) / c) := by rw [hy]; field_simp
  -- the ratio of the divisors
  have r1 : (77351 / 100000 : ℚ) / c ≤ 1 + 9 / 8 / 2 ^ 53 := by
    rw [div_le_iff₀ cpos]
    calc (77351 / 100000 : ℚ) ≤ (1 + 9 / 8 / 2 ^ 53) * ((77351 / 100000 : ℚ) * (1 - 1 / 2 ^ 53)) := by norm_num
      _ ≤ _ := by gcongr
  have r2 : 1 - 1 / 2 ^ 53 ≤ (77351 / 100000 : ℚ) / c := by
    rw [le_div_iff₀ cpos]
    calc (1 - 1 / 2 ^ 53) * c ≤ (1 - 1 / 2 ^ 53) * ((77351 / 100000 : ℚ) * (1 + 1 / 2 ^ 53)) := by gcongr
      _ ≤ _ := by norm_num
  have d1 : w / c ≤ y * (1 + 9 / 8 / 2 ^ 53) := by rw [hyc]; gcongr
  have d2 : y * (1 - 1 / 2 ^ 53) ≤ w / c := by rw [hyc]; gcongr
  obtain ⟨e1, e2⟩ := abs_le.1 he
  rw [abs_le]
  constructor
  · have := div_le_div_of_nonneg_right d1 (show (0 : ℚ) ≤ 2 ^ 53 by positivity)
    have h3 : x ≥ w / c - w / c / 2 ^ 53 := by linarith
    norm_num at *
    nlinarith
  · have := div_le_div_of_nonneg_right d1 (show (0 : ℚ) ≤ 2 ^ 53 by positivity)
    norm_num at *
    nlinarith

/-- Powers of two are estimated exactly. -/
theorem estimate_pow (k : ℕ) (hk : k ≤ 33) : estimateFloat (.fin (2 ^ k)) = .ok ⌊(2 : ℚ) ^ k / (77351 / 100000)⌋ := by
  have hw1 : (1 : ℚ) ≤ 2 ^ k := one_le_pow₀ (by norm_num)
  have hw33 : (2 : ℚ) ^ k ≤ 2 ^ 33 := pow_le_pow_right₀ (by norm_num) hk
  obtain ⟨x, hx, herr⟩ := quotient_near hw1 (hw33.trans (pow_le_pow_right₀ (by norm_num) (by norm_num)))
  have hnot : ¬ (77351 : ℤ) ∣ 2 ^ k * 100000 := by
    intro h
    have h1 : Nat.Coprime 77351 (2 ^ k) := Nat.Coprime.pow_right _ (by decide)
    have h2 : Nat.Coprime 77351 (2 ^ k * 100000) := Nat.Coprime.mul_right h1 (by decide +kernel)
    have h3 : 77351 ∣ 2 ^ k * 100000 := by exact_mod_cast h
    exact absurd (Nat.Coprime.eq_one_of_dvd h2 h3) (by norm_num)
  set n : ℤ := 2 ^ k * 100000 with hn
  set f := n / 77351 with hf
  have hrem : 1 ≤ n - 77351 * f ∧ n - 77351 * f ≤ 77350 := by
    have h1 := Int.emod_add_mul_ediv n 77351
    have h2 := Int.emod_nonneg n (show (77351 : ℤ) ≠ 0 by norm_num)
    have h3 := Int.emod_lt_of_pos n (show (0 : ℤ) < 77351 by norm_num)
    have h4 : n % 77351 ≠ 0 := fun e => hnot (Int.dvd_of_emod_eq_zero e)
    rw [hf]
    omega
  have hy : (2 : ℚ) ^ k / (77351 / 100000) = (n : ℚ) / 77351 := by rw [hn]; push_cast; field_simp
  rw [hy] at herr ⊢
  have hfq1 : (f : ℚ) + 1 / 77351 ≤ n / 77351 := by
    have : (1 : ℚ) ≤ n - 77351 * f := by exact_mod_cast hrem.1
    rw [le_div_iff₀ (by norm_num)]; linarith
  have hfq2 : (n : ℚ) / 77351 ≤ f + 1 - 1 / 77351 := by
    have : (n : ℚ) - 77351 * f ≤ 77350 := by exact_mod_cast hrem.2
    rw [div_le_iff₀ (by norm_num)]; linarith
  have hnb : (n : ℚ) / 77351 / 2 ^ 51 < 1 / 77351 := by
    have : (n : ℚ) ≤ 2 ^ 33 * 100000 := by rw [hn]; push_cast; gcongr
    calc (n : ℚ) / 77351 / 2 ^ 51 ≤ 2 ^ 33 * 100000 / 77351 / 2 ^ 51 := by gcongr
      _ < _ := by norm_num
  obtain ⟨e1, e2⟩ := abs_le.1 herr
  have hfx : ⌊x⌋ = f := by rw [Int.floor_eq_iff]; constructor <;> linarith
  have hfy : ⌊(n : ℚ) / 77351⌋ = f := by
    rw [Int.floor_eq_iff]
    have : (0 : ℚ) < 1 / 77351 := by norm_num
    constructor <;> linarith
  have f0 : 0 ≤ f := by
    apply Int.ediv_nonneg _ (by norm_num)
    rw [hn]; positivity
  have x0 : 0 ≤ x := by
    have : (f : ℚ) ≤ x := by linarith
    exact le_trans (by exact_mod_cast f0) this
  simp only [estimateFloat, hx, truncNum, truncQ, x0, if_true, hfx, hfy]

theorem estimateFloat_near {w : ℚ} (h1 : 1 ≤ w) (h2 : w ≤ 2 ^ 1000) :
    ∃ e : ℤ, estimateFloat (.fin w) = .ok e ∧
      ⌊w / (77351 / 100000) * (1 - 1 / 2 ^ 51)⌋ ≤ e ∧ e ≤ ⌊w / (77351 / 100000) * (1 + 1 / 2 ^ 51)⌋ := by
  obtain ⟨x, hx, herr⟩ := quotient_near h1 h2
  obtain ⟨e1, e2⟩ := abs_le.1 herr
  have y0 : 0 ≤ w / (77351 / 100000) := by positivity
  have x0 : 0 ≤ x := by
    generalize w / (77351 / 100000) = y at *
    norm_num at *
    linarith
  refine ⟨⌊x⌋, by simp only [estimateFloat, hx, truncNum, truncQ, x0, if_true], ?_, ?_⟩
  · apply Int.floor_le_floor
    rw [mul_sub, mul_one, mul_one_div]; linarith
  · apply Int.floor_le_floor
    rw [mul_add, mul_one, mul_one_div]; linarith

/-- Estimates are monotone. -/
theorem estimateFloat_mono {w w' : ℚ} (h1 : 1 ≤ w) (h : w ≤ w') (h2 : w' ≤ 2 ^ 1000) :
    ∃ e e' : ℤ, estimateFloat (.fin w) = .ok e ∧ estimateFloat (.fin w') = .ok e' ∧ e ≤ e' := by
  obtain ⟨x, hx, _⟩ := quotient_near h1 (h.trans h2)
  obtain ⟨x', hx', _⟩ := quotient_near (h1.trans h) h2
  refine ⟨truncQ x, truncQ x', by simp only [estimateFloat, hx, truncNum], by simp only [estimateFloat, hx', truncNum], ?_⟩
  apply truncQ_mono
  obtain ⟨c, hc, hcerr⟩ := divisor_double
  have hcb := abs_le.1 hcerr
  have cpos : 0 < c := lt_of_lt_of_le (show (0 : ℚ) < 77351 / 100000 * (1 - 1 / 2 ^ 53) by norm_num) (by linarith)
  rw [hc] at hx hx'
  simp only [PyFloat.div, cpos.ne', if_false, Except.ok.injEq] at hx hx'
  have := Ieee.mono (div_le_div_of_nonneg_right h cpos.le)
  rw [hx, hx'] at this
  simpa [PyFloat.le] using this

variable [FloatPow] [FloatPowLaws]

theorem pow2_range {v : ℚ} {n : ℕ} (h0 : 0 ≤ v) (h1 : v ≤ n) (hn : n ≤ 1000) :
    ∃ w, FloatPow.pow2 (.fin v) = .fin w ∧ 1 ≤ w ∧ w ≤ 2 ^ n := by
  have e0 := FloatPowLaws.mono h0
  have e1 := FloatPowLaws.mono h1
  have z : FloatPow.pow2 (.fin 0) = .fin 1 := by simpa using FloatPowLaws.whole 0 (by omega)
  rw [z] at e0
  rw [FloatPowLaws.whole n (by omega)] at e1
  cases h : FloatPow.pow2 (.fin v) with
  | nan => rw [h] at e0; cases e0
  | inf s => rw [h] at e0 e1; cases s <;> simp [PyFloat.le] at e0 e1
  | fin w =>
    rw [h] at e0 e1
    exact ⟨w, rfl, by simpa [PyFloat.le] using e0, by simpa [PyFloat.le] using e1⟩

omit [Ieee] [FloatPow] [FloatPowLaws] in
theorem runs_le (c : DistinctCounter) (hc : WellSized c) (since : ℚ) :
    (c.rows.map (HashRow.least0 since)).sum ≤ c.nBuckets * c.rows.length := by
  have : ∀ rows : List HashRow, (∀ r ∈ rows, r.buckets.length = c.nBuckets) →
      (rows.map (HashRow.least0 since)).sum ≤ c.nBuckets * rows.length := by
    intro rows
    induction rows with
    | nil => simp
    | cons r rows ih =>
      intro h
      have h1 : r.least0 since ≤ r.buckets.length := least0_le_length ..
      have h2 := h r (by simp)
      have h3 := ih fun r hr => h r (by simp [hr])
      have h4 : r.least0 since ≤ c.nBuckets := by rw [← h2]; exact h1
      simp only [List.map_cons, List.sum_cons, List.length_cons, Nat.mul_add, mul_one]
      omega
  exact this _ hc.2

/-- `distinct` in doubles: the mean is not rounded. -/
theorem distinctFloat_eq (c : DistinctCounter) (hc : WellSized c) (hn : c.nBuckets ≤ 1000) (j : ℕ) (hj : j ≤ 30)
    (hl : c.rows.length = 2 ^ j) (since : ℚ) :
    ∃ w, FloatPow.pow2 (.fin (((c.rows.map (HashRow.least0 since)).sum : ℚ) / ((2 ^ j : ℕ) : ℚ))) = .fin w ∧ 1 ≤ w ∧ w ≤ 2 ^ 1000 ∧
      c.distinctFloat (.fin since) = estimateFloat (.fin w) := by
  have hs := runs_le c hc since
  have hp : (0 : ℕ) < 2 ^ j := pow_pos (by norm_num) j
  have hj30 : 2 ^ j ≤ 2 ^ 30 := Nat.pow_le_pow_right (by norm_num) hj
  have hb : (c.rows.map (HashRow.least0 since)).sum ≤ 2 ^ 53 := by
    refine hs.trans ?_
    rw [hl]
    calc c.nBuckets * 2 ^ j ≤ 1000 * 2 ^ 30 := Nat.mul_le_mul hn hj30
      _ ≤ 2 ^ 53 := by norm_num
  have hm : (((c.rows.map (HashRow.least0 since)).sum : ℕ) : ℚ) / ((2 ^ j : ℕ) : ℚ) ≤ (c.nBuckets : ℚ) := by
    rw [div_le_iff₀ (by exact_mod_cast hp), ← hl]
    exact_mod_cast hs
  obtain ⟨w, hw, w1, w2⟩ := pow2_range (v := (((c.rows.map (HashRow.least0 since)).sum : ℕ) : ℚ) / ((2 ^ j : ℕ) : ℚ)) (by positivity) hm hn
  refine ⟨w, hw, w1, w2.trans (pow_le_pow_right₀ (by norm_num) hn), ?_⟩
  have el : rnd (((c.rows.length : ℕ) : ℤ) : ℚ) = .fin (((2 ^ j : ℕ) : ℤ) : ℚ) := by
    rw [hl]
    apply rnd_int
    rw [abs_of_nonneg (Int.natCast_nonneg _)]
    exact_mod_cast hj30.trans (by norm_num)
  have hne : ((2 ^ j : ℕ) : ℚ) ≠ 0 := by exact_mod_cast hp.ne'
  unfold DistinctCounter.distinctFloat
  rw [totalFloat_eq c since hb]
  have ed : (PyFloat.fin (((c.rows.map (HashRow.least0 since)).sum : ℕ) : ℚ)).div (Num.toFloat (.int c.rows.length)) =
      .ok (.fin ((((c.rows.map (HashRow.least0 since)).sum : ℕ) : ℚ) / ((2 ^ j : ℕ) : ℚ))) := by
    rw [show Num.toFloat (.int c.rows.length) = .fin (((2 ^ j : ℕ) : ℤ) : ℚ) from el, Int.cast_natCast]
    simp only [PyFloat.div, hne, if_false]
    rw [div_pow_exact _ j hb (by omega)]
  rw [ed]
  simp only [hw]

end
end Txstatsd
