import Verif.Lemmas.DecayHistogram

/-!
# Histograms over decaying samples, reports of histograms, and the accessors of timers
-/

namespace Txstatsd
open Spec

section
variable [Rounding] [Ieee] [FloatExp] [ExpLaws]

/-- C134: the numbers of a histogram over a decaying sample do not depend on times and random draws: least, greatest, and how many;
the standard deviation exists and is not negative; the mean is right up to one unit in the 52nd bit per value. -/
theorem C134_numbers (t1 t2 t3 t4 : ℚ) (hc : SensibleOp (.clear t3 t4)) (ops : List FDecayOp)
    (ho : Sensible ops) :
    let h := (DecayHistogram.init t1 t2 t3 t4).runOps ops
    h.nums.count = (decayValues ops).length ∧
    (decayValues ops = [] → h.nums.max = .fin 0 ∧ h.nums.min = .fin 0 ∧ h.nums.mean = .fin 0 ∧ h.nums.stdDev = .ok (.fin 0)) ∧
    ((∀ v ∈ decayValues ops, v ≠ .nan) → decayValues ops ≠ [] →
      h.nums.max ∈ decayValues ops ∧ h.nums.min ∈ decayValues ops ∧
      ∀ v ∈ decayValues ops, h.nums.max.lt v = false ∧ v.lt h.nums.min = false) ∧
    ((∀ v ∈ decayValues ops, Duration v) → ∃ s, h.nums.stdDev = .ok s ∧ (s = .nan ∨ NotNegative s) ∧
      ((∀ v ∈ decayValues ops, v ≠ .inf false) → NotNegative s)) ∧
    (∀ qs : List ℚ, decayValues ops = qs.map .fin → qs ≠ [] → (∀ q ∈ qs, 0 ≤ q ∧ rnd q = .fin q) → qs.length ≤ 2 ^ 52 →
      qs.sum ≤ 2 ^ (1000 : ℤ) →
      ∃ m, h.nums.mean = .fin m ∧ 0 ≤ m ∧ |m - meanOf qs| ≤ (qs.length : ℚ) / 2 ^ 52 * meanOf qs + 2 ^ (-1075 : ℤ)) := by
  intro h
  obtain ⟨al, e, a0, a1⟩ := alpha_double
  have hk := keeps_clear (n := 1028) (alpha := .fin al) (s := DecaySample.init 1028 (.fin al) t1 t2) rfl rfl hc
  have hb := (decay_bare (n := 1028) (by norm_num) a0 a1 ops ho (h := DecayHistogram.init t1 t2 t3 t4) (by
    unfold DecayHistogram.init; rw [e]; exact hk) (u := Histogram.init 1028) (bare_init 1028)).2
  obtain ⟨b1, b2, b3, b4, b5, b6⟩ := bare_numbers hb
  have hs := decayValues_uniform ops
  have hcnt := Histogram.count_runOps 1028 (ops.map FDecayOp.uniform)
  rw [hs] at hcnt
  refine ⟨b1.trans hcnt, fun h0 => ?_, fun hn hne => ?_, fun hd => ?_, fun qs hq hne hd hl hsum => ?_⟩
  · have : ((Histogram.init 1028).runOps (ops.map FDecayOp.uniform)).count = 0 := by rw [hcnt, h0]; rfl
    rw [b2, b3, b4, b6]
    refine ⟨?_, ?_, ?_, ?_⟩
    · unfold Histogram.max; rw [this]; rfl
    · unfold Histogram.min; rw [this]; rfl
    · unfold Histogram.mean; rw [this]; rfl
    · unfold Histogram.stdDev; rw [this]; rfl
  · have := (C34_extremes 1028 (ops.map FDecayOp.uniform) (by rw [hs]; exact hn)).2 (by rw [hs]; exact hne)
    rw [b2, b3, ← hs]
    exact this
  · have := C108_std_dev 1028 (ops.map FDecayOp.uniform) (by rw [hs]; exact hd)
    rw [b6, ← hs]
    exact this
  · have := C110_mean 1028 (ops.map FDecayOp.uniform) qs (by rw [hs]; exact hq) hne hd hl hsum
    rw [b4]
    exact this

/-- C134: the percentiles of a histogram over a decaying sample are found for every list of quantiles. Each lies between two of the
values held, which are among those added; a greater quantile never has a smaller score. -/
theorem C134_percentiles (t1 t2 t3 t4 : ℚ) (hc : SensibleOp (.clear t3 t4)) (ops : List FDecayOp)
    (ho : Sensible ops) (qs : List ℚ) (hq : decayValues ops = qs.map .fin) (hne : qs ≠ []) (hd : ∀ q ∈ qs, 0 ≤ q ∧ rnd q = .fin q) :
    let h := (DecayHistogram.init t1 t2 t3 t4).runOps ops
    ∃ held : List ℚ, held.length = min 1028 qs.length ∧ h.getValues = held.map .fin ∧ (∀ x ∈ held, x ∈ qs) ∧ ∃ score : ℚ → ℚ,
      (∀ ps : List ℚ, h.percentiles ps = .ok (ps.map fun p => .fin (score p))) ∧
      (∀ p, ∃ a ∈ held, ∃ b ∈ held, a ≤ score p ∧ score p ≤ b) ∧
      (∀ p p', p ≤ p' → score p ≤ score p') := by
  intro h
  obtain ⟨al, e, a0, a1⟩ := alpha_double
  have hk := keeps_clear (n := 1028) (alpha := .fin al) (s := DecaySample.init 1028 (.fin al) t1 t2) rfl rfl hc
  have hsm := (decay_bare (n := 1028) (by norm_num) a0 a1 ops ho (h := DecayHistogram.init t1 t2 t3 t4) (by
    unfold DecayHistogram.init; rw [e]; exact hk) (u := Histogram.init 1028) (bare_init 1028)).1
  have hcnt := (C134_numbers t1 t2 t3 t4 hc ops ho).1
  obtain ⟨held, dropped, k1, k2, k3, k4, k5, k6, k7⟩ := C133_top 1028 (by norm_num) al a0 a1 t3 t4 hc ops ho
  have hv : h.getValues = held.map Prod.snd := by
    rw [← k4]
    show h.sample.getValues = _
    rw [hsm]
    show (((DecaySample.init 1028 (rnd (15 / 1000)) t1 t2).clear t3 t4).runOps ops).getValues = _
    rw [e]
    rfl
  have hmem : ∀ v ∈ held.map Prod.snd, ∃ q ∈ qs, v = .fin q := by
    intro v hv
    have : v ∈ decayValues ops := k7.subset (by rw [List.map_append]; exact List.mem_append_left _ hv)
    rw [hq] at this
    obtain ⟨q, hq, rfl⟩ := List.mem_map.1 this
    exact ⟨q, hq, rfl⟩
  obtain ⟨hs, hs1, hs2⟩ : ∃ hs : List ℚ, held.map Prod.snd = hs.map .fin ∧ ∀ x ∈ hs, x ∈ qs := by
    generalize held.map Prod.snd = l at hmem
    induction l with
    | nil => exact ⟨[], rfl, by simp⟩
    | cons v l ih =>
      obtain ⟨hs, i1, i2⟩ := ih fun v hv => hmem v (by simp [hv])
      obtain ⟨q, hq, rfl⟩ := hmem v (by simp)
      exact ⟨q :: hs, by rw [i1]; rfl, by simpa [hq] using i2⟩
  have hlen : hs.length = min 1028 qs.length := by
    have := congrArg List.length hs1
    rw [List.length_map, List.length_map, k6, hq, List.length_map] at this
    exact this.symm
  have hpos : 0 < qs.length := List.length_pos_iff.2 hne
  have hsne : hs ≠ [] := by rw [← List.length_pos_iff, hlen]; omega
  obtain ⟨score, c1, c2, c3⟩ := scores_of hs hsne fun q hq => hd q (hs2 q hq)
  refine ⟨hs, hlen, hv.trans hs1, hs2, score, fun ps => ?_, c2, c3⟩
  unfold DecayHistogram.percentiles
  rw [hv, hs1, if_pos ?_]
  · exact c1 ps
  · show 0 < h.nums.count
    rw [hcnt, hq, List.length_map]
    exact hpos

end

section
variable [Rounding]

/-- C134, refuted for every histogram: `report` never returns. -/
theorem C134_report_refuted (h : Histogram) (d : DecayHistogram) :
    (∀ pts, h.report ≠ .ok pts) ∧ (∀ pts, d.report ≠ .ok pts) := by
  constructor
  · intro pts hp
    unfold Histogram.report at hp
    cases h1 : h.percentiles timerPercentiles with
    | error e => rw [h1] at hp; cases hp
    | ok ps =>
      rw [h1] at hp
      cases h2 : h.stdDev with
      | error e => rw [h2] at hp; cases hp
      | ok sd => rw [h2] at hp; cases hp
  · intro pts hp
    unfold DecayHistogram.report at hp
    cases h1 : d.percentiles timerPercentiles with
    | error e => rw [h1] at hp; cases hp
    | ok ps =>
      rw [h1] at hp
      cases h2 : d.nums.stdDev with
      | error e => rw [h2] at hp; cases hp
      | ok sd => rw [h2] at hp; cases hp

variable [Ieee]

/-- C134: what the accessors of a timer of the configurable processor return between reports, after any durations and reports: the
numbers of the durations since the last report that are not negative. -/
theorem C134_timer (name pre : Str) (start : ℚ) (hist : List TimerOp) (hd : ∀ q ∈ durations hist, rnd q = .fin q) (t : TimerRep)
    (ht : TimerRun (TimerRep.init name pre start) hist t) :
    let qs := period hist
    (∀ q ∈ qs, q ∈ durations hist ∧ 0 ≤ q) ∧
    (qs = [] → t.max = .fin 0 ∧ t.min = .fin 0 ∧ t.mean = .fin 0 ∧ t.stdDev = .ok (.fin 0) ∧
      (∀ ps : List ℚ, t.percentiles ps = .ok (ps.map fun _ => .fin 0)) ∧ t.getValues = []) ∧
    (qs ≠ [] → (∃ hi lo : ℚ, t.max = .fin hi ∧ t.min = .fin lo ∧ IsGreatest' qs hi ∧ IsLeast' qs lo) ∧
      (∃ s, t.stdDev = .ok s ∧ NotNegative s) ∧
      (qs.length ≤ 2 ^ 52 → qs.sum ≤ 2 ^ (1000 : ℤ) →
        ∃ m, t.mean = .fin m ∧ 0 ≤ m ∧ |m - meanOf qs| ≤ (qs.length : ℚ) / 2 ^ 52 * meanOf qs + 2 ^ (-1075 : ℤ)) ∧
      ∃ held : List ℚ, held.length = min 1028 qs.length ∧ t.getValues = held.map .fin ∧ (∀ x ∈ held, x ∈ qs) ∧ ∃ score : ℚ → ℚ,
        (∀ ps : List ℚ, t.percentiles ps = .ok (ps.map fun p => .fin (score p))) ∧
        (∀ p, ∃ a ∈ held, ∃ b ∈ held, a ≤ score p ∧ score p ≤ b) ∧ (∀ p p', p ≤ p' → score p ≤ score p')) := by
  intro qs
  obtain ⟨⟨sops, e1, e2⟩, _, _, _, _⟩ := timerHolds_run ht hd
  have hcnt := Histogram.count_runOps 1028 sops
  rw [e2, List.length_map] at hcnt
  have hqs : ∀ q ∈ qs, q ∈ durations hist ∧ 0 ≤ q := fun q hq => ⟨period_sub hist q hq, period_nonneg hist q hq⟩
  have hdd : ∀ q ∈ qs, 0 ≤ q ∧ rnd q = .fin q := fun q hq => ⟨(hqs q hq).2, hd q (hqs q hq).1⟩
  obtain ⟨held, g1, g2, g3⟩ := Histogram.held_fin 1028 sops qs e2
  refine ⟨hqs, fun h0 => ?_, fun hne => ⟨?_, ?_, fun hl hs => ?_, ?_⟩⟩
  · have hz : ((Histogram.init 1028).runOps sops).count = 0 := by rw [hcnt]; show qs.length = 0; rw [h0]; rfl
    unfold TimerRep.max TimerRep.min TimerRep.mean TimerRep.stdDev TimerRep.percentiles TimerRep.getValues
    rw [e1, g1]
    refine ⟨?_, ?_, ?_, ?_, fun ps => ?_, ?_⟩
    · unfold Histogram.max; rw [hz]; rfl
    · unfold Histogram.min; rw [hz]; rfl
    · unfold Histogram.mean; rw [hz]; rfl
    · unfold Histogram.stdDev; rw [hz]; rfl
    · unfold Histogram.percentiles; rw [hz, if_neg (by decide)]
      simp [List.map_const']
    · have : held = [] := List.length_eq_zero_iff.1 (by rw [g2, h0]; rfl)
      rw [this]; rfl
  · obtain ⟨x1, x2, x3⟩ := (C34_extremes 1028 sops (by rw [e2]; simp)).2 (by rw [e2]; simpa using hne)
    rw [e2] at x1 x2 x3
    obtain ⟨hi, hi1, hi2⟩ := List.mem_map.1 x1
    obtain ⟨lo, lo1, lo2⟩ := List.mem_map.1 x2
    rw [← hi2, ← lo2] at x3
    refine ⟨hi, lo, by unfold TimerRep.max; rw [e1, ← hi2], by unfold TimerRep.min; rw [e1, ← lo2], ⟨hi1, fun x hx => ?_⟩, lo1, fun x hx => ?_⟩
    · simpa [PyFloat.lt] using (x3 _ (List.mem_map_of_mem hx)).1
    · simpa [PyFloat.lt] using (x3 _ (List.mem_map_of_mem hx)).2
  · obtain ⟨s, s1, _, s3⟩ := C108_std_dev 1028 sops (holds_durations hd e2)
    exact ⟨s, by unfold TimerRep.stdDev; rw [e1, s1], s3 (by rw [e2]; simp)⟩
  · obtain ⟨m, h1, h2⟩ := C110_mean 1028 sops qs e2 hne hdd hl hs
    exact ⟨m, by unfold TimerRep.mean; rw [e1, h1], h2⟩
  · have hpos : 0 < qs.length := List.length_pos_iff.2 hne
    have hsne : held ≠ [] := by rw [← List.length_pos_iff, g2]; omega
    obtain ⟨score, c1, c2, c3⟩ := scores_of held hsne fun q hq => hdd q (g3 q hq)
    refine ⟨held, g2, by unfold TimerRep.getValues; rw [e1, g1], g3, score, fun ps => ?_, c2, c3⟩
    unfold TimerRep.percentiles Histogram.percentiles
    rw [e1, g1, if_pos ?_]
    · exact c1 ps
    · show 0 < ((Histogram.init 1028).runOps sops).count
      rw [hcnt]; exact hpos

/-- C134: the report of a histogram that received durations fails with a `TypeError`. -/
theorem C134_report_type_error_partial (n : Nat) (hn : 1 ≤ n) (ops : List (StreamOp PyFloat)) (qs : List ℚ)
    (hq : streamValues ops = qs.map .fin) (hd : ∀ q ∈ qs, 0 ≤ q ∧ rnd q = .fin q) :
    ((Histogram.init n).runOps ops).report = .error .typeError := by
  obtain ⟨s, s1, _⟩ := C108_std_dev n ops (by
    rw [hq]; intro v hv
    obtain ⟨q, hq, rfl⟩ := List.mem_map.1 hv
    exact Or.inr ⟨q, rfl, hd q hq⟩)
  unfold Histogram.report
  by_cases hne : qs = []
  · have hcnt := Histogram.count_runOps n ops
    rw [hq, hne] at hcnt
    have : ((Histogram.init n).runOps ops).percentiles timerPercentiles = .ok (List.replicate 6 (.fin 0)) := by
      unfold Histogram.percentiles; rw [hcnt]; rfl
    rw [this, s1]; rfl
  · obtain ⟨held, _, _, _, score, g, _⟩ := C109_percentiles n hn ops qs hq hne hd
    rw [g, s1]; rfl

end

section
attribute [local instance] binary64 stairExp

/-- The hypotheses of `C134_numbers` and `C134_percentiles` are met by three values, two of them within the same second and one after
a day. -/
example : @SensibleOp binary64 (.clear 0 0) ∧ @Sensible binary64 underflowOps ∧ decayValues underflowOps = [5, 3, 7].map .fin ∧
    (∀ q ∈ ([5, 3, 7] : List ℚ), 0 ≤ q ∧ rnd q = .fin q) ∧
    ((DecayHistogram.init 0 0 0 0).runOps underflowOps).nums.max = .fin 7 := by
  refine ⟨start_sensible, underflow_sensible, rfl, by decide +kernel, by decide +kernel⟩

/-- The hypotheses of `C134_timer` are met by 1, -1, a report, and 2. -/
example : ∃ t, TimerRun (TimerRep.init c!"t" c!"p" 0) [.add 1, .add (-1), .report 10, .add 2] t ∧
    (∀ q ∈ durations [.add 1, .add (-1), .report 10, .add 2], rnd q = .fin q) ∧
    period [.add 1, .add (-1), .report 10, .add 2] = [2] := by
  refine ⟨_, TimerRun.add (draw := 0) (h := [.add 1, .add (-1), .report 10]) (TimerRun.report (h := [.add 1, .add (-1)])
    (TimerRun.add (draw := 0) (h := [.add 1]) (TimerRun.add (draw := 0) (h := []) .nil))), by decide +kernel, by decide +kernel⟩

/-- The hypotheses of `C134_report_type_error_partial` are met by two durations. -/
example : streamValues [.update 0 (PyFloat.fin 1), .update 0 (PyFloat.fin 2)] = ([1, 2] : List ℚ).map PyFloat.fin ∧
    ∀ q ∈ ([1, 2] : List ℚ), 0 ≤ q ∧ rnd q = .fin q := by
  refine ⟨rfl, by decide +kernel⟩

end
end Txstatsd
