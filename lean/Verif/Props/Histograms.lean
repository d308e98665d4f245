import Verif.Lemmas.Percentile
import Mathlib.Algebra.Order.BigOperators.Group.List

/-!
# C31–C34: histograms
-/

namespace Txstatsd

/-! ## C31 -/

/-- In exact arithmetic the running variance is the sample variance of the values since the last clear, unless the mean of a
proper initial part of them is exactly -1. -/
theorem C31_variance [Rounding] [Exact] (n : Nat) (ops : List (StreamOp PyFloat)) (qs : List ℚ)
    (hq : streamValues ops = qs.map .fin) (hm : ∀ ps, ps <+: qs → ps ≠ [] → ps ≠ qs → meanOf ps ≠ -1) :
    ((Histogram.init n).runOps ops).getVariance = .fin (varianceOf qs) :=
  Histogram.variance_run n ops qs hq hm

/-- In particular for non-negative values. -/
theorem C31_nonnegative [Rounding] [Exact] (n : Nat) (ops : List (StreamOp PyFloat)) (qs : List ℚ)
    (hq : streamValues ops = qs.map .fin) (h0 : ∀ q ∈ qs, 0 ≤ q) :
    ((Histogram.init n).runOps ops).getVariance = .fin (varianceOf qs) := by
  refine C31_variance n ops qs hq ?_
  intro ps h1 _ _
  have : 0 ≤ ps.sum := List.sum_nonneg fun x hx => h0 x (h1.subset hx)
  have h2 : 0 ≤ meanOf ps := div_nonneg this (by positivity)
  intro h
  rw [h] at h2
  norm_num at h2

section
attribute [local instance] ratRounding

instance : @Exact ratRounding := ⟨fun _ => rfl⟩

/-- Without that condition it is false: after -1 the code believes that it has seen nothing, and the values -1, 5 get
variance 0 instead of 18. -/
theorem C31_marker_refuted : ¬ ∀ (n : Nat) (ops : List (StreamOp PyFloat)) (qs : List ℚ), streamValues ops = qs.map .fin →
    ((Histogram.init n).runOps ops).getVariance = .fin (varianceOf qs) := by
  intro h
  have := h 10 [.update 0 (.fin (-1)), .update 0 (.fin 5)] [-1, 5] rfl
  revert this
  decide +kernel

/-- Variance 17/3 of 1, 2, 5, 6 after a clear, with a reservoir of two. -/
example : ((Histogram.init 2).runOps [.update 0 (.fin 9), .clear, .update 0 (.fin 1), .update 0 (.fin 2), .update 1 (.fin 5),
    .update 7 (.fin 6)]).getVariance = .fin (17 / 3) ∧ varianceOf [1, 2, 5, 6] = 17 / 3 := by decide +kernel
end

/-! ## C32 -/

/-- Once values have been added, `percentiles` succeeds for every list of quantiles and returns one score for each. Each score
lies between the least and the greatest value held by the sample; scores are non-decreasing in the quantile. At the quantile
`k/(m+1)` of `m` held values the score is the `k`-th smallest of them. -/
theorem C32_percentiles [Rounding] [Exact] (n : Nat) (hn : 1 ≤ n) (ops : List (StreamOp PyFloat)) (qs : List ℚ)
    (hq : streamValues ops = qs.map .fin) (hne : qs ≠ []) :
    let h := (Histogram.init n).runOps ops
    ∃ held : List ℚ, held ≠ [] ∧ h.sample.getValues = held.map .fin ∧ ∃ score : ℚ → ℚ,
      (∀ ps : List ℚ, h.percentiles ps = .ok (ps.map fun p => .fin (score p))) ∧
      (∀ p, ∃ a ∈ held, ∃ b ∈ held, a ≤ score p ∧ score p ≤ b) ∧
      (∀ p p', p ≤ p' → score p ≤ score p') ∧
      (∀ sorted : List ℚ, sorted.Pairwise (· ≤ ·) → sorted.Perm held → ∀ (k : Nat) (x : ℚ), sorted[k]? = some x →
        score (((k : ℚ) + 1) / ((held.length : ℚ) + 1)) = x) := by
  obtain ⟨held, e1, e2, e3⟩ := Histogram.held_fin n ops qs hq
  have hl : 0 < qs.length := List.length_pos_iff.2 hne
  have hne' : held ≠ [] := by rw [← List.length_pos_iff, e2]; omega
  have hs := Histogram.sorted_mergeSort held
  have hp := List.mergeSort_perm held (fun a b => decide (a ≤ b))
  have hsort := Histogram.sortFloats_fin held
  generalize held.mergeSort (fun a b => decide (a ≤ b)) = rs at *
  have hrne : rs ≠ [] := by rintro rfl; exact hne' (List.perm_nil.1 hp.symm)
  have hrl : 0 < rs.length := List.length_pos_iff.2 hrne
  have hlen := hp.length_eq
  have hmem : ∀ i, i < rs.length → rs.getD i 0 ∈ held := by
    intro i hi
    rw [← hp.mem_iff, List.getD_eq_getElem?_getD, List.getElem?_eq_getElem hi]
    exact List.getElem_mem hi
  refine ⟨held, hne', e1, fun p => Histogram.interp rs (p * (rs.length + 1)), ?_, ?_, ?_, ?_⟩
  · intro ps
    have hc := Histogram.count_runOps n ops
    rw [hq, List.length_map] at hc
    unfold Histogram.percentiles
    rw [if_pos (by omega), e1, hsort]
    induction ps with
    | nil => rfl
    | cons p ps ih =>
      simp only [List.mapM_cons, Histogram.percentile_eq rs hrne] at ih ⊢
      rw [ih]; rfl
  · intro p
    obtain ⟨h1, h2⟩ := Histogram.interp_range hs hrne (p * (rs.length + 1))
    exact ⟨_, hmem 0 hrl, _, hmem (rs.length - 1) (by omega), h1, h2⟩
  · intro p p' hpp
    exact Histogram.interp_mono hs hrne (mul_le_mul_of_nonneg_right hpp (by positivity))
  · intro sorted h1 h2 k x hk
    have : sorted = rs := (h2.trans hp.symm).eq_of_pairwise (fun a b _ _ hab hba => le_antisymm hab hba) h1 hs
    subst this
    obtain ⟨hkl, hkx⟩ := List.getElem?_eq_some_iff.1 hk
    have e : ((k : ℚ) + 1) / ((held.length : ℚ) + 1) * ((sorted.length : ℚ) + 1) = ((k + 1 : ℕ) : ℚ) := by
      rw [hlen]; push_cast; field_simp
    simp only
    rw [e, Histogram.interp_nat (k + 1) (by omega) (by omega)]
    simp [List.getD, hk]

section
attribute [local instance] ratRounding
/-- 30, 10, 20 meet the hypotheses (they are held as they came); the scores of four quantiles of the sorted values. -/
example : streamValues [.update 0 (.fin 30), .update 0 (.fin 10), .update 0 (.fin 20)] = [30, 10, 20].map PyFloat.fin ∧
    ((Histogram.init 5).runOps [.update 0 (.fin 30), .update 0 (.fin 10), .update 0 (.fin 20)]).sample.getValues =
      [30, 10, 20].map PyFloat.fin ∧
    [0, 1 / 2, 5 / 8, 1].map (Histogram.percentile [.fin 10, .fin 20, .fin 30]) =
      [.ok (.fin 10), .ok (.fin 20), .ok (.fin 25), .ok (.fin 30)] := by decide +kernel
end

/-! ## C33 -/

/-- When the sample holds at least two different values, `histogram` succeeds for any positive number of bins: bin `j`
counts exactly the held values in the `j`-th part of the range, and the bins add up to the number of held values. -/
theorem C33_bins [Rounding] [Exact] (n : Nat) (ops : List (StreamOp PyFloat)) (held : List ℚ) (bins : Nat) (hb : 1 ≤ bins)
    (hh : ((Histogram.init n).runOps ops).sample.getValues = held.map .fin)
    (a b : ℚ) (ha : a ∈ held) (hb' : b ∈ held) (hab : a ≠ b) :
    ∃ scores lo hi, ((Histogram.init n).runOps ops).histogramWith bins = .ok scores ∧ scores.length = bins ∧
      IsLeast' held lo ∧ IsGreatest' held hi ∧
      (∀ j < bins, scores.getD j 0 = held.countP (fun v => decide (InBin lo hi bins j v))) ∧
      scores.sum = held.length := by
  have hc : ((Histogram.init n).runOps ops).count > 0 := by
    rw [Histogram.count_runOps, ← UniformSample.Holds.cnt (UniformSample.holds_runOps (PyFloat.fin 0) n ops).choose_spec]
    rw [Histogram.sample_runOps] at hh
    rcases Nat.eq_zero_or_pos ((UniformSample.init (PyFloat.fin 0) n).runOps (PyFloat.fin 0) ops).count with h0 | h0
    · have : ((UniformSample.init (PyFloat.fin 0) n).runOps (PyFloat.fin 0) ops).getValues = [] := by
        unfold UniformSample.getValues UniformSample.size; simp [h0]
      rw [this] at hh
      have : held = [] := by simpa using hh.symm
      subst this; simp at ha
    · exact h0
  unfold Histogram.histogramWith
  rw [if_neg (not_not.2 hc), hh]
  cases held with
  | nil => simp at ha
  | cons q qs =>
    simp only [List.map_cons]
    obtain ⟨hi, e1, g1⟩ := Histogram.foldl_pyMax qs q
    obtain ⟨lo, e2, g2⟩ := Histogram.foldl_pyMin qs q
    rw [e1, e2]
    have hlh : lo < hi := by
      rcases lt_or_gt_of_ne hab with h | h
      · exact lt_of_le_of_lt (g2.2 a ha) (lt_of_lt_of_le h (g1.2 b hb'))
      · exact lt_of_le_of_lt (g2.2 b hb') (lt_of_lt_of_le h (g1.2 a ha))
    have hall : ∀ v ∈ q :: qs, lo ≤ v ∧ v ≤ hi := fun v hv => ⟨g2.2 v hv, g1.2 v hv⟩
    obtain ⟨out, k1, k2, k3⟩ := Histogram.binLoop_ok hlh hb (q :: qs) (List.replicate bins 0) (by simp) hall
    simp only [PyFloat.sub, Exact.rnd_eq]
    have k4 : ∀ j < bins, out.getD j 0 = (q :: qs).countP (fun v => decide (InBin lo hi bins j v)) := by
      intro j hj; rw [k3 j hj]; simp [List.getD, hj]
    refine ⟨out, lo, hi, k1, k2, g2, g1, k4, ?_⟩
    rw [Histogram.sum_getD, k2, ← Histogram.sum_bins hlh hb (q :: qs) hall]
    exact Finset.sum_congr rfl fun j hj => k4 j (Finset.mem_range.1 hj)

/-- `histogram()` itself uses Sturges' number of bins, which is positive. -/
theorem C33_sturges [Rounding] (h : Histogram) : ∃ bins, 1 ≤ bins ∧ h.histogram = h.histogramWith bins :=
  ⟨Histogram.sturges h.count, by unfold Histogram.sturges; omega, rfl⟩

/-- When all held values are equal, `histogram()` raises `ZeroDivisionError`, whatever the number of bins. -/
theorem C33_equal_values [Rounding] [Exact] (n : Nat) (ops : List (StreamOp PyFloat)) (held : List ℚ) (bins : Nat) (a : ℚ)
    (hh : ((Histogram.init n).runOps ops).sample.getValues = held.map .fin) (hne : held ≠ []) (hall : ∀ v ∈ held, v = a) :
    ((Histogram.init n).runOps ops).histogramWith bins = .error .zeroDivisionError := by
  have hc : ((Histogram.init n).runOps ops).count > 0 := by
    rw [Histogram.count_runOps, ← UniformSample.Holds.cnt (UniformSample.holds_runOps (PyFloat.fin 0) n ops).choose_spec]
    rw [Histogram.sample_runOps] at hh
    rcases Nat.eq_zero_or_pos ((UniformSample.init (PyFloat.fin 0) n).runOps (PyFloat.fin 0) ops).count with h0 | h0
    · have : ((UniformSample.init (PyFloat.fin 0) n).runOps (PyFloat.fin 0) ops).getValues = [] := by
        unfold UniformSample.getValues UniformSample.size; simp [h0]
      rw [this] at hh
      exact absurd (by simpa using hh.symm) hne
    · exact h0
  unfold Histogram.histogramWith
  rw [if_neg (not_not.2 hc), hh]
  cases held with
  | nil => exact absurd rfl hne
  | cons q qs =>
    simp only [List.map_cons]
    obtain ⟨hi, e1, g1⟩ := Histogram.foldl_pyMax qs q
    obtain ⟨lo, e2, g2⟩ := Histogram.foldl_pyMin qs q
    have h1 := hall hi g1.1
    have h2 := hall lo g2.1
    rw [e1, e2, h1, h2]
    simp only [PyFloat.sub, Exact.rnd_eq, sub_self]
    exact Histogram.binLoop_equal _ _ _ (by rw [hall q (by simp)])

section
attribute [local instance] ratRounding
/-- Four values in three (Sturges) bins; and equal values. -/
example : ((Histogram.init 5).runOps [.update 0 (.fin 0), .update 0 (.fin 1), .update 0 (.fin 8), .update 0 (.fin 9)]).histogram =
      .ok [2, 0, 2] ∧
    ((Histogram.init 5).runOps [.update 0 (.fin 7), .update 0 (.fin 7)]).histogram = .error .zeroDivisionError := by
  decide +kernel
end

/-! ## C34 -/

/-- `max` and `min` are the greatest and the least of all values since the last clear (other than nan), also of those the
reservoir dropped, in any float arithmetic; both are 0 when there are none. -/
theorem C34_extremes [Rounding] (n : Nat) (ops : List (StreamOp PyFloat)) (hn : ∀ v ∈ streamValues ops, v ≠ .nan) :
    let h := (Histogram.init n).runOps ops
    (streamValues ops = [] → h.max = .fin 0 ∧ h.min = .fin 0) ∧
    (streamValues ops ≠ [] → h.max ∈ streamValues ops ∧ h.min ∈ streamValues ops ∧
      ∀ v ∈ streamValues ops, h.max.lt v = false ∧ v.lt h.min = false) := by
  have hx := Histogram.extremes_run n ops hn
  have hc := Histogram.count_runOps n ops
  refine ⟨fun h => ?_, fun h => ?_⟩
  · unfold Histogram.max Histogram.min
    rw [hc, h]; simp
  · obtain ⟨a, b, e1, e2, h1, h2, h3⟩ := hx.some_ h
    have hpos : 0 < (streamValues ops).length := List.length_pos_iff.2 h
    have ea : ((Histogram.init n).runOps ops).max = a := by unfold Histogram.max; rw [hc, if_pos hpos, e1]; rfl
    have eb : ((Histogram.init n).runOps ops).min = b := by unfold Histogram.min; rw [hc, if_pos hpos, e2]; rfl
    rw [ea, eb]
    exact ⟨h1, h2, h3⟩

/-- In exact arithmetic `mean` is the mean of all values since the last clear. -/
theorem C34_mean [Rounding] [Exact] (n : Nat) (ops : List (StreamOp PyFloat)) (qs : List ℚ)
    (hq : streamValues ops = qs.map .fin) : ((Histogram.init n).runOps ops).mean = .fin (meanOf qs) := by
  have hc := Histogram.count_runOps n ops
  rw [hq, List.length_map] at hc
  unfold Histogram.mean
  rw [hc, (Histogram.sum_run n ops qs hq).1]
  split_ifs with h
  · simp [PyFloat.divInt, Exact.rnd_eq, meanOf]
  · have : qs = [] := List.length_eq_zero_iff.1 (by omega)
    subst this; simp [meanOf]

section
attribute [local instance] ratRounding
/-- Five values through a reservoir of one. -/
example :
    let h := (Histogram.init 1).runOps [.update 0 (.fin 99), .clear, .update 0 (.fin 3), .update 1 (.fin (-4)),
      .update 2 (.fin 10), .update 2 (.fin 1)]
    h.max = .fin 10 ∧ h.min = .fin (-4) ∧ h.mean = .fin (5 / 2) ∧ h.sample.getValues = [.fin 3] := by decide +kernel
end

end Txstatsd
