import Verif.Lemmas.FloatThreshold
import Verif.Props.Counters
import Verif.Props.Timers
import Verif.Props.Configurable

/-!
# C108–C112: the arithmetic of doubles

The theorems hold for every arithmetic that obeys the laws of `Ieee` (Model/Ieee.lean). The doubles of IEEE 754 do
(`C108_doubles`): the examples and refutations below compute with them.
-/

namespace Txstatsd
open Spec

/-- The doubles of IEEE 754 obey the laws that the theorems below use. -/
theorem C108_doubles : @Ieee binary64 := binary64_ieee

section
variable [Rounding] [Ieee] {PF PM : Type}

/-! ## C108 -/

/-- C108: `std_dev` never takes the root of a negative number: after any stream of durations (doubles that are not negative,
or infinity) it returns a value, which is not negative, and is nan only if some duration was infinite. -/
theorem C108_std_dev (n : Nat) (ops : List (StreamOp PyFloat)) (hv : ∀ v ∈ streamValues ops, Duration v) :
    ∃ s, ((Histogram.init n).runOps ops).stdDev = .ok s ∧ (s = .nan ∨ NotNegative s) ∧
      ((∀ v ∈ streamValues ops, v ≠ .inf false) → NotNegative s) :=
  stdDev_any n ops hv

/-- C108: the running mean of `update_variance` stays between the least and the greatest duration. -/
theorem C108_running_mean (n : Nat) (ops : List (StreamOp PyFloat)) (qs : List ℚ) (hq : streamValues ops = qs.map .fin)
    (hne : qs ≠ []) (hd : ∀ q ∈ qs, 0 ≤ q ∧ rnd q = .fin q) :
    ∃ m, ((Histogram.init n).runOps ops).varM = .fin m ∧ (∃ a ∈ qs, a ≤ m) ∧ (∃ b ∈ qs, m ≤ b) := by
  refine ((Histogram.welford_ops n ops ?_).fins qs hq (by rw [hq]; simpa using hne)).2
  rw [hq]
  intro v hv
  obtain ⟨q, hq, rfl⟩ := List.mem_map.1 hv
  exact Or.inr ⟨q, rfl, hd q hq⟩

/-- C108: in double arithmetic a flush of a configurable processor without plugins completes, whatever was sent to timers,
gauges and meters (nan, infinities, negative and huge numbers included), provided that the last value of every counter is
finite (see C26) and the clock reads doubles. -/
theorem C108_survives (ops : PluginOps PF PM) (pre int : Str) (w : World) (hw : ∀ n, rnd (w.clk n) = .fin (w.clk n))
    (os : List Op) (interval percent : ℤ) (hc : ∀ k v, Latest c!"c" k (messages os) v → ∃ q, v = .fin q) :
    (flush (configurable ops pre int) w interval percent
      (runOps (configurable ops pre int) w (CPState.init ops []) os).1).2.2 = none := by
  have hwf := cpwf_runOps ops pre int w (cpwf_init ops pre []) os
  have hst := storedC ops pre int [] w os
  have hso := sound_runOps ops pre int [] hw os
  have hnp := no_plugin_metrics ops pre int w os
  generalize (runOps (configurable ops pre int) w (CPState.init ops []) os).1 = s at *
  rw [flush_cp ops pre int w interval percent hwf]
  apply flushForm_survives
  · apply (counter_phase_ok _ _ _).1
    rintro ⟨k, c⟩ hp
    obtain ⟨v, hv, rfl⟩ := (mem_counters hwf hst k c).1 hp
    obtain ⟨q, rfl⟩ := hc k v hv
    exact ⟨q, rfl⟩
  · apply runElems_none
    rintro ⟨k, t⟩ hp
    obtain ⟨pts, h1⟩ := soundTimer_ok (hso.timers _ hp) (truncQ (w.clk s.ticks))
    exact ⟨some pts, by simp only [h1]; rfl⟩
  · apply runElems_none
    rintro ⟨k, m⟩ hp
    obtain ⟨l, h1⟩ := soundMeter_ok (hso.meters _ hp) (truncQ (w.clk s.ticks))
    exact ⟨some l, by simp only [h1]; rfl⟩
  · exact hwf.shared
  · exact runElems_keys _ _ _
  · exact hnp.2

/-! ## C109 -/

/-- C109: in double arithmetic `percentiles` succeeds for every list of quantiles; each score lies between the least and the
greatest value held, and the scores do not decrease with the quantile. -/
theorem C109_percentiles (n : Nat) (hn : 1 ≤ n) (ops : List (StreamOp PyFloat)) (qs : List ℚ)
    (hq : streamValues ops = qs.map .fin) (hne : qs ≠ []) (hd : ∀ q ∈ qs, 0 ≤ q ∧ rnd q = .fin q) :
    let h := (Histogram.init n).runOps ops
    ∃ held : List ℚ, held ≠ [] ∧ h.sample.getValues = held.map .fin ∧ (∀ x ∈ held, x ∈ qs) ∧ ∃ score : ℚ → ℚ,
      (∀ ps : List ℚ, h.percentiles ps = .ok (ps.map fun p => .fin (score p))) ∧
      (∀ p, ∃ a ∈ held, ∃ b ∈ held, a ≤ score p ∧ score p ≤ b) ∧
      (∀ p p', p ≤ p' → score p ≤ score p') := by
  obtain ⟨held, e1, e2, e3⟩ := Histogram.held_fin n ops qs hq
  have hl : 0 < qs.length := List.length_pos_iff.2 hne
  have hne' : held ≠ [] := by rw [← List.length_pos_iff, e2]; omega
  have hs := Histogram.sorted_mergeSort held
  have hp := List.mergeSort_perm held (fun a b => decide (a ≤ b))
  have hsort := Histogram.sortFloats_fin held
  generalize held.mergeSort (fun a b => decide (a ≤ b)) = rs at *
  have hrne : rs ≠ [] := by rintro rfl; exact hne' (List.perm_nil.1 hp.symm)
  have hrl : 0 < rs.length := List.length_pos_iff.2 hrne
  have hmem : ∀ i, i < rs.length → rs.getD i 0 ∈ held := by
    intro i hi
    rw [← hp.mem_iff, List.getD_eq_getElem?_getD, List.getElem?_eq_getElem hi]
    exact List.getElem_mem hi
  have hr : ∀ x ∈ rs, 0 ≤ x ∧ rnd x = .fin x := fun x hx => hd x (e3 x (hp.mem_iff.1 hx))
  have hsc := fun p => Histogram.percentile_score rs hrne hs hr p
  choose score h1 _ h3 h4 using hsc
  refine ⟨held, hne', e1, e3, score, ?_, ?_, ?_⟩
  · intro ps
    have hc := Histogram.count_runOps n ops
    rw [hq, List.length_map] at hc
    unfold Histogram.percentiles
    rw [if_pos (by omega), e1, hsort]
    induction ps with
    | nil => rfl
    | cons p ps ih =>
      simp only [List.mapM_cons, h1] at ih ⊢
      rw [ih]; rfl
  · intro p
    exact ⟨_, hmem 0 hrl, _, hmem (rs.length - 1) (by omega), h3 p, h4 p⟩
  · intro p p' hpp
    exact Histogram.score_mono_pos rs hrne hs hr hpp (h1 p) (h1 p')

/-! ## C110 -/

theorem hist_sum (n : Nat) (ops : List (StreamOp PyFloat)) (qs : List ℚ) (hq : streamValues ops = qs.map .fin) :
    ((Histogram.init n).runOps ops).sum = sumFloats qs := by
  induction ops using List.reverseRecOn generalizing qs with
  | nil =>
    have : qs = [] := by simpa [streamValues] using hq.symm
    subst this; rfl
  | append_singleton os o ih =>
    rw [Histogram.runOps_snoc]
    rw [UniformSample.streamValues_snoc] at hq
    cases o with
    | clear =>
      have : qs = [] := by simpa using hq.symm
      subst this; rfl
    | update d v =>
      simp only at hq ⊢
      obtain ⟨ps, last, rfl⟩ : ∃ ps last, qs = ps ++ [last] := by
        rcases List.eq_nil_or_concat qs with rfl | ⟨ps, last, rfl⟩
        · simp at hq
        · exact ⟨ps, last, by simp⟩
      rw [List.map_append, List.map_cons, List.map_nil] at hq
      obtain ⟨hq1, hq2⟩ := List.append_inj' hq rfl
      simp only [List.cons.injEq, and_true] at hq2
      rw [Histogram.update_sum, ih ps hq1, sumFloats_snoc, hq2]

/-- C110: the mean of `n` durations kept by a timer of the configurable processor (their sum divided by their number, in
double arithmetic) differs from the exact mean by at most `n` units in the 52nd bit (and half the smallest double). -/
theorem C110_mean (n : Nat) (ops : List (StreamOp PyFloat)) (qs : List ℚ) (hq : streamValues ops = qs.map .fin)
    (hne : qs ≠ []) (hd : ∀ q ∈ qs, 0 ≤ q ∧ rnd q = .fin q) (hb : qs.length ≤ 2 ^ 52) (hs : qs.sum ≤ 2 ^ (1000 : ℤ)) :
    ∃ m, ((Histogram.init n).runOps ops).mean = .fin m ∧ 0 ≤ m ∧
      |m - meanOf qs| ≤ (qs.length : ℚ) / 2 ^ 52 * meanOf qs + 2 ^ (-1075 : ℤ) := by
  obtain ⟨m, h1, _, h2, h3⟩ := mean_near qs hne hd hb hs
  refine ⟨m, ?_, h2, h3⟩
  have hc := Histogram.count_runOps n ops
  rw [hq, List.length_map] at hc
  unfold Histogram.mean
  rw [hc, if_pos (List.length_pos_iff.2 hne), hist_sum n ops qs hq, h1]

/-- C110: the timer section of a flush of the default processor in double arithmetic: one summary for each timer that
received durations since the last flush. It never raises, whatever the durations. -/
theorem C110_timer_section (ops : PluginOps PF PM) (plugins : List PF) (w : World) (os : List Op)
    (hw : WholeSeconds os) (hp : Percents os) (hb : os.length ≤ 2 ^ 52) (interval percent : ℤ) (hi : 1000 ≤ interval)
    (h50 : 50 ≤ percent) (h100 : percent ≤ 100) (ds : Str → List PyFloat)
    (hds : ∀ k, Collect (Reading c!"ms" k) (sinceFlush os) (ds k)) :
    let s := (runOps (messageProcessor ops) w (MPState.init ops plugins) os).1
    let ts := truncQ (w.clk s.ticks)
    ∃ (counters : List Datapoint) (ks : List Str) (group : Str → List Datapoint) (rest : List Datapoint),
      (flush (messageProcessor ops) w interval percent s).2.1 = counters ++ ks.flatMap group ++ rest ∧
      (∀ d ∈ counters, ∃ k ∈ s.counters.keys, d.name = c!"stats." ++ k ∨ d.name = c!"stats_counts." ++ k) ∧
      ks.Nodup ∧ (∀ k, k ∈ ks ↔ ds k ≠ []) ∧
      (∀ k ∈ ks, ∀ qs : List ℚ, ds k = qs.map PyFloat.fin → (∀ q ∈ qs, 0 ≤ q) → qs.sum ≤ 2 ^ (1000 : ℤ) →
        DoubleSummary percent ts k qs (group k)) := by
  intro s ts
  have hwf : MPWf ops s := mpwf_runOps ops w (mpwf_init ops plugins) os
  have hst : ∀ k, (s.timers.find k).getD [] = ds k := fun k =>
    collect_unique (P := Reading c!"ms" k) (fun _ _ _ h h' => reading_unique h h')
      (stored_timers_double ops plugins w os hw hp hb k) (hds k)
  have hlen : ∀ k, (ds k).length ≤ 2 ^ 52 := fun k =>
    le_trans (collect_length (hds k)) (le_trans (sinceFlush_length os) hb)
  have hmem : ∀ p ∈ s.timers, ds p.1 = p.2 := by
    rintro ⟨k, v⟩ hp
    have := hst k
    rw [Dict.find_of_mem hwf.timers hp] at this
    simpa using this.symm
  have hce := counter_elems (fdiv_pos hi) (ts := ts) s.counters
  obtain ⟨rest, hr⟩ := flushForm_prefix (messageProcessor ops) w (Int.fdiv interval 1000) ts
    (runElems (fun _ _ => Num.int 0) (counterGroup (Int.fdiv interval 1000) ts) s.counters)
    (runElems (fun _ _ => []) (timerGroup percent ts) s.timers)
    (s.gauges.map fun p => [⟨c!"stats.gauge." ++ p.2 ++ c!".value", Num.flt p.1, ts⟩])
    (meterRes ts s.meters) s (by rw [hce])
  let group : Str → List Datapoint := fun k =>
    match timerGroup percent ts k (ds k) with
    | .ok (some g) => g
    | _ => []
  refine ⟨(s.counters.map fun p => ([⟨c!"stats." ++ p.1, quot p.2 (Int.fdiv interval 1000), ts⟩,
      ⟨c!"stats_counts." ++ p.1, p.2, ts⟩] : List Datapoint)).flatten,
    (s.timers.filter fun p => decide (p.2 ≠ [])).map Prod.fst, group, rest, ?_, ?_, ?_, ?_, ?_⟩
  · rw [flush_mp ops w interval percent hwf]
    rw [← hr, hce, timer_elems_double h50 h100 _ _ (fun p hp => by rw [← hmem p hp]; exact hlen _)]
    simp only [List.append_assoc]
    congr 2
    have : ∀ d : Dict (List PyFloat), (∀ p ∈ d, ds p.1 = p.2) →
        (d.filterMap fun p => (match timerGroup percent ts p.1 p.2 with | .ok o => o | .error _ => none)).flatten =
        ((d.filter fun p => decide (p.2 ≠ [])).map Prod.fst).flatMap group := by
      intro d
      induction d with
      | nil => intro _; rfl
      | cons p d ih =>
        intro hd
        obtain ⟨k, v⟩ := p
        have ih := ih (fun p hp => hd p (by simp [hp]))
        have hv : ds k = v := hd (k, v) (by simp)
        obtain ⟨o, ho, hon⟩ := timerGroup_double h50 h100 ts k v (by rw [← hv]; exact hlen k)
        by_cases hve : v = []
        · have : o = none := hon.2 hve
          simp only [List.filterMap_cons, ho, this, hve, List.filter_cons, ne_eq, not_true_eq_false, decide_false,
            Bool.false_eq_true, if_false]
          exact ih
        · cases o with
          | none => exact absurd (hon.1 rfl) hve
          | some g =>
            simp only [List.filterMap_cons, ho, List.filter_cons, ne_eq, hve, not_false_eq_true, decide_true, if_true,
              List.map_cons, List.flatMap_cons, List.flatten_cons]
            rw [ih]
            congr 1
            simp only [group, hv, ho]
    exact this _ hmem
  · intro d hd
    obtain ⟨gr, hgr, hd⟩ := List.mem_flatten.1 hd
    obtain ⟨⟨k, v⟩, hp, rfl⟩ := List.mem_map.1 hgr
    simp only [List.mem_cons, List.not_mem_nil, or_false] at hd
    rcases hd with rfl | rfl
    · exact ⟨k, Dict.mem_keys_of_mem hp, Or.inl rfl⟩
    · exact ⟨k, Dict.mem_keys_of_mem hp, Or.inr rfl⟩
  · exact List.Nodup.sublist (List.Sublist.map _ List.filter_sublist) hwf.timers
  · intro k
    rw [← hst k]
    constructor
    · intro h
      obtain ⟨⟨k', v⟩, hp, rfl⟩ := List.mem_map.1 h
      obtain ⟨hp, hv⟩ := List.mem_filter.1 hp
      rw [Dict.find_of_mem hwf.timers hp]
      simpa using hv
    · intro h
      cases hf : s.timers.find k with
      | none => simp [hf] at h
      | some v =>
        rw [hf] at h
        exact List.mem_map.2 ⟨(k, v), List.mem_filter.2 ⟨Dict.mem_of_find hf, by simpa using h⟩, rfl⟩
  · intro k hk qs hq h0 hsum
    have hne : qs ≠ [] := by
      rintro rfl
      obtain ⟨⟨k', v⟩, hp, rfl⟩ := List.mem_map.1 hk
      obtain ⟨hp, hv⟩ := List.mem_filter.1 hp
      have := hst k'
      rw [Dict.find_of_mem hwf.timers hp, hq] at this
      simp at this hv
      exact hv this
    have hdb : ∀ q ∈ qs, rnd q = .fin q := by
      have : ∀ (ms : List Str) (vs : List PyFloat), Collect (Reading c!"ms" k) ms vs → ∀ v ∈ vs, IsDouble v := by
        intro ms vs h
        induction h with
        | nil => simp
        | hit h1 _ ih =>
          intro v hv
          rcases List.mem_cons.1 hv with rfl | hv
          · exact reading_double h1
          · exact ih v hv
        | skip _ _ ih => exact ih
      intro q hqm
      exact this _ _ (hds k) (.fin q) (by rw [hq]; exact List.mem_map_of_mem hqm) q rfl
    have hl := hlen k
    rw [hq, List.length_map] at hl
    obtain ⟨g, hg, hs⟩ := timerGroup_doubles h50 h100 ts k qs hne hl (fun q hqm => ⟨h0 q hqm, hdb q hqm⟩) hsum
    have : group k = g := by simp only [group, hq, hg]
    rw [this]; exact hs

/-! ## C111 -/

/-- C111: in double arithmetic `histogram` never falls outside of its bins: when the sample holds two different values it
succeeds, and every held value is counted in exactly one bin. -/
theorem C111_bins (n : Nat) (ops : List (StreamOp PyFloat)) (held : List ℚ) (bins : Nat) (hb : 1 ≤ bins)
    (hb2 : bins ≤ 2 ^ 53) (hh : ((Histogram.init n).runOps ops).sample.getValues = held.map .fin)
    (hd : ∀ q ∈ held, 0 ≤ q ∧ rnd q = .fin q) (a b : ℚ) (ha : a ∈ held) (hb' : b ∈ held) (hab : a ≠ b) :
    ∃ scores, ((Histogram.init n).runOps ops).histogramWith bins = .ok scores ∧ scores.length = bins ∧
      scores.sum = held.length := by
  have hc : ((Histogram.init n).runOps ops).count > 0 := by
    rw [Histogram.count_runOps, ← UniformSample.Holds.cnt (UniformSample.holds_runOps (PyFloat.fin 0) n ops).choose_spec]
    rw [Histogram.sample_runOps] at hh
    rcases Nat.eq_zero_or_pos ((UniformSample.init (PyFloat.fin 0) n).runOps (PyFloat.fin 0) ops).count with h0 | h0
    · have : ((UniformSample.init (PyFloat.fin 0) n).runOps (PyFloat.fin 0) ops).getValues = [] := by
        unfold UniformSample.getValues UniformSample.size; simp [h0]
      rw [this] at hh
      have : held = [] := by simpa using hh.symm
      subst this; simp at ha
    · exact h0
  unfold Histogram.histogramWith
  rw [if_neg (not_not.2 hc), hh]
  cases held with
  | nil => simp at ha
  | cons q qs =>
    simp only [List.map_cons]
    obtain ⟨hi, e1, g1⟩ := Histogram.foldl_pyMax qs q
    obtain ⟨lo, e2, g2⟩ := Histogram.foldl_pyMin qs q
    rw [e1, e2]
    have hlh : lo < hi := by
      rcases lt_or_gt_of_ne hab with h | h
      · exact lt_of_le_of_lt (g2.2 a ha) (lt_of_lt_of_le h (g1.2 b hb'))
      · exact lt_of_le_of_lt (g2.2 b hb') (lt_of_lt_of_le h (g1.2 a ha))
    have hall : ∀ v ∈ q :: qs, lo ≤ v ∧ v ≤ hi := fun v hv => ⟨g2.2 v hv, g1.2 v hv⟩
    obtain ⟨range, hr, _⟩ := sub_fin (hd hi g1.1).2 (hd lo g2.1).1 hlh.le
    obtain ⟨out, k1, k2, k3⟩ := Histogram.binLoop_double (hd lo g2.1).2 (hd hi g1.1).2 (hd lo g2.1).1 hlh hr hb hb2
      (q :: qs) hall (List.replicate bins 0) (by simp)
    simp only [PyFloat.sub, hr]
    exact ⟨out, k1, k2, by rw [k3]; simp⟩

/-! ## C112 -/

/-- C112: the total of a counter in double arithmetic: if the contributions `value * (1 / rate)` are the doubles `cs`, the
total differs from their exact sum by at most one unit in the 52nd bit of the sum of their sizes for each addition but the
first. -/
theorem C112_total_partial (incs : List (PyFloat × PyFloat)) (cs : List ℚ)
    (h : incs.map (fun p => p.1.mul (inverse p.2)) = cs.map .fin) (hne : cs ≠ []) (hd : ∀ c ∈ cs, rnd c = .fin c)
    (hb : cs.length ≤ 2 ^ 52) (hs : (cs.map abs).sum ≤ 2 ^ (1000 : ℤ)) :
    ∃ s, total incs = .flt (.fin s) ∧ |s - cs.sum| ≤ ((cs.length - 1 : ℕ) : ℚ) / 2 ^ 52 * (cs.map abs).sum := by
  obtain ⟨s, h1, _, h3⟩ := sum_near' cs hne hd hb hs
  refine ⟨s, ?_, h3⟩
  rw [← h1, ← sumFloats_map, ← h, List.foldl_map]
  rfl

/-- C112: without sampling the contributions are the values themselves. -/
theorem C112_unsampled {q : ℚ} (h : rnd q = .fin q) : PyFloat.mul (.fin q) (inverse (rnd 1)) = .fin q := by
  have h1 : rnd (1 : ℚ) = .fin 1 := by have := rnd_int (z := 1) (by norm_num); simpa using this
  have : inverse (rnd 1) = .fin 1 := by
    unfold inverse; rw [h1]; simp [PyFloat.div, h1]
  rw [this]; simp [PyFloat.mul, h]

/-- C112: the count that a flush of the default processor reports. -/
theorem C112_count_partial (ops : PluginOps PF PM) (hq : Quiet ops c!"stats_counts.") (plugins : List PF)
    (w : World) (msgs : List Str) (interval percent : ℤ) (hi : 1000 ≤ interval) (key : Str)
    (incs : List (PyFloat × PyFloat)) (hincs : Increments key msgs incs) (cs : List ℚ)
    (h : incs.map (fun p => p.1.mul (inverse p.2)) = cs.map .fin) (hne : cs ≠ []) (hd : ∀ c ∈ cs, rnd c = .fin c)
    (hb : cs.length ≤ 2 ^ 52) (hs : (cs.map abs).sum ≤ 2 ^ (1000 : ℤ)) :
    let s := processAll (messageProcessor ops) w (MPState.init ops plugins) msgs
    ∃ x, named (c!"stats_counts." ++ key) (flush (messageProcessor ops) w interval percent s).2.1 =
      [⟨c!"stats_counts." ++ key, .flt (.fin x), truncQ (w.clk s.ticks)⟩] ∧
      |x - cs.sum| ≤ ((cs.length - 1 : ℕ) : ℚ) / 2 ^ 52 * (cs.map abs).sum := by
  intro s
  obtain ⟨x, h1, h2⟩ := C112_total_partial incs cs h hne hd hb hs
  have hin : incs ≠ [] := by
    rintro rfl
    exact hne (by simpa using h.symm)
  refine ⟨x, ?_, h2⟩
  rw [← h1]
  exact C07_count_unique ops hq plugins w msgs interval percent hi key incs hincs hin

end

/-! ## Computations with doubles -/

section
attribute [local instance] binary64

/-- The double nearest to a tenth. -/
def tenth : ℚ := 3602879701896397 / 36028797018963968

/-- C110: "the mean that a flush of the default processor reports does not exceed the greatest duration" is false in double
arithmetic: the mean of three times 0.1 is reported as 0.10000000000000002. -/
theorem C110_mean_at_most_upper_refuted : ¬ ∀ (ms : List Str) (a b : Datapoint),
    let s := processAll (messageProcessor noPlugins) exWorld (MPState.init noPlugins []) ms
    a ∈ (flush (messageProcessor noPlugins) exWorld 10000 90 s).2.1 →
    b ∈ (flush (messageProcessor noPlugins) exWorld 10000 90 s).2.1 →
    a.name = c!"stats.timers.t.mean" → b.name = c!"stats.timers.t.upper" → ∀ x y, a.value = .flt x → b.value = .flt y →
    PyFloat.lt y x = false := by
  intro h
  have h := h [c!"t:0.1|ms", c!"t:0.1|ms", c!"t:0.1|ms"]
  have hwf : MPWf noPlugins (processAll (messageProcessor noPlugins) exWorld (MPState.init noPlugins [])
    [c!"t:0.1|ms", c!"t:0.1|ms", c!"t:0.1|ms"]) := mpwf_processAll noPlugins exWorld _ (mpwf_init noPlugins [])
  have ht : (processAll (messageProcessor noPlugins) exWorld (MPState.init noPlugins [])
    [c!"t:0.1|ms", c!"t:0.1|ms", c!"t:0.1|ms"]).timers = [(c!"t", [.fin tenth, .fin tenth, .fin tenth])] := by decide +kernel
  have hc : (processAll (messageProcessor noPlugins) exWorld (MPState.init noPlugins [])
    [c!"t:0.1|ms", c!"t:0.1|ms", c!"t:0.1|ms"]).counters = [] := by decide +kernel
  have hk : (processAll (messageProcessor noPlugins) exWorld (MPState.init noPlugins [])
    [c!"t:0.1|ms", c!"t:0.1|ms", c!"t:0.1|ms"]).ticks = 6 := by decide +kernel
  generalize processAll (messageProcessor noPlugins) exWorld (MPState.init noPlugins [])
    [c!"t:0.1|ms", c!"t:0.1|ms", c!"t:0.1|ms"] = s at *
  dsimp only at h
  rw [flush_mp noPlugins exWorld 10000 90 hwf] at h
  obtain ⟨rest, hr⟩ := flushForm_prefix (messageProcessor noPlugins) exWorld (Int.fdiv 10000 1000) (truncQ (exWorld.clk s.ticks))
    (runElems (fun _ _ => Num.int 0) (counterGroup (Int.fdiv 10000 1000) (truncQ (exWorld.clk s.ticks))) s.counters)
    (runElems (fun _ _ => []) (timerGroup 90 (truncQ (exWorld.clk s.ticks))) s.timers)
    (s.gauges.map fun p => [⟨c!"stats.gauge." ++ p.2 ++ c!".value", Num.flt p.1, (truncQ (exWorld.clk s.ticks))⟩])
    (meterRes (truncQ (exWorld.clk s.ticks)) s.meters) s (by rw [hc]; rfl)
  rw [← hr, ht, hc] at h
  have hsort : sortFloats [.fin tenth, .fin tenth, .fin tenth] = [.fin tenth, .fin tenth, .fin tenth] := by
    have : ([.fin tenth, .fin tenth, .fin tenth] : List PyFloat) = [tenth, tenth, tenth].map .fin := rfl
    rw [this, sortFloats_fin]
    congr 1
    exact List.mergeSort_of_pairwise (by simp)
  have hg : timerGroup 90 (truncQ (exWorld.clk s.ticks)) c!"t" [.fin tenth, .fin tenth, .fin tenth] =
      .ok (some [⟨c!"stats.timers.t.count", .int 3, truncQ (exWorld.clk s.ticks)⟩,
        ⟨c!"stats.timers.t.lower", .flt (.fin tenth), truncQ (exWorld.clk s.ticks)⟩,
        ⟨c!"stats.timers.t.mean", .flt (.fin (7205759403792795 / 72057594037927936)), truncQ (exWorld.clk s.ticks)⟩,
        ⟨c!"stats.timers.t.upper", .flt (.fin tenth), truncQ (exWorld.clk s.ticks)⟩,
        ⟨c!"stats.timers.t.upper_90", .flt (.fin tenth), truncQ (exWorld.clk s.ticks)⟩]) := by
    rw [hk]
    unfold timerGroup
    rw [hsort]
    decide +kernel
  simp only [runElems, hg] at h
  have := h ⟨c!"stats.timers.t.mean", .flt (.fin (7205759403792795 / 72057594037927936)), truncQ (exWorld.clk s.ticks)⟩
    ⟨c!"stats.timers.t.upper", .flt (.fin tenth), truncQ (exWorld.clk s.ticks)⟩ (by simp) (by simp) rfl rfl _ _ rfl rfl
  revert this
  decide +kernel

/-- C112: "the total of a counter is the sum of its increments" is false in double arithmetic: ten increments of 0.1 add up
to 0.9999999999999999. -/
theorem C112_total_exact_refuted : ¬ ∀ cs : List ℚ, (∀ c ∈ cs, rnd c = .fin c) → cs ≠ [] →
    ∃ s, total (cs.map fun c => (.fin c, rnd 1)) = .flt (.fin s) ∧ rnd cs.sum = .fin s := by
  intro h
  obtain ⟨s, h1, h2⟩ := h (List.replicate 10 tenth) (by
    intro c hc; obtain ⟨_, rfl⟩ := List.mem_replicate.1 hc; decide +kernel) (by simp)
  have e1 : total ((List.replicate 10 tenth).map fun c => (.fin c, rnd 1)) =
    .flt (.fin (9007199254740991 / 9007199254740992)) := by decide +kernel
  have e2 : rnd (List.replicate 10 tenth).sum = .fin 1 := by decide +kernel
  rw [e1] at h1
  rw [e2] at h2
  simp only [Num.flt.injEq, PyFloat.fin.injEq] at h1 h2
  rw [← h1] at h2
  revert h2
  norm_num

/-- The hypotheses can be met: durations; a clock that reads doubles; readings of every kind, with a completed flush. -/
example : (∀ v ∈ streamValues [StreamOp.update 0 (.fin tenth), .update 0 (.inf false)], Duration v) := by
  intro v hv
  simp only [streamValues] at hv
  rcases (by simpa using hv : v = .fin tenth ∨ v = .inf false) with rfl | rfl
  · exact Or.inr ⟨tenth, rfl, by decide +kernel, by decide +kernel⟩
  · exact Or.inl rfl

/-- The clock of `exWorld` reads doubles as long as it is before 2^53; one that stands still always does. -/
def stillWorld : World := ⟨fun _ => 1000, fun _ => 0, fun _ _ _ => 0⟩

example : ∀ n, rnd (stillWorld.clk n) = .fin (stillWorld.clk n) := fun _ => by
  show rnd (1000 : ℚ) = .fin 1000
  decide +kernel

/-- Infinite, negative and undefined durations, and a flush that completes nevertheless. -/
example : (flush (configurable noPlugins c!"p" []) stillWorld 10000 90
    (runOps (configurable noPlugins c!"p" []) stillWorld (CPState.init noPlugins [])
      [.msg c!"t:inf|ms", .msg c!"t:nan|ms", .msg c!"t:-3|ms", .msg c!"t:0.1|ms", .msg c!"m:inf|m", .flush 10000 90,
       .msg c!"t:1e308|ms", .msg c!"t:1e308|ms"]).1).2.2 = none :=
  @C108_survives binary64 binary64_ieee _ _ noPlugins c!"p" [] stillWorld (fun _ => by
    show rnd (1000 : ℚ) = .fin 1000
    decide +kernel) _ 10000 90 (by
      intro k v hv
      obtain ⟨b, m, a, e, hr, _⟩ := hv
      have hm : m ∈ messages [Op.msg c!"t:inf|ms", .msg c!"t:nan|ms", .msg c!"t:-3|ms", .msg c!"t:0.1|ms", .msg c!"m:inf|m",
        .flush 10000 90, .msg c!"t:1e308|ms", .msg c!"t:1e308|ms"] := by rw [e]; simp
      simp only [messages, List.filterMap_cons, List.filterMap_nil, List.mem_cons, List.not_mem_nil, or_false] at hm
      exfalso
      obtain ⟨p, hp, h1, _⟩ := reading_iff.1 hr
      have : (parseMessage m).map (fun p => p.mtype) = some c!"c" := by rw [hp, Option.map_some, h1]
      rcases hm with rfl | rfl | rfl | rfl | rfl | rfl | rfl <;> revert this <;> decide +kernel)

/-- Percentiles, bins and sums of doubles. -/
example : ∀ q ∈ [tenth, 3], 0 ≤ q ∧ rnd q = .fin q := by
  intro q hq
  rcases (by simpa using hq : q = tenth ∨ q = 3) with rfl | rfl <;> exact ⟨by decide +kernel, by decide +kernel⟩

example : streamValues [.update 0 (.fin tenth), .update 0 (.fin 3)] = [tenth, 3].map PyFloat.fin ∧
    ((Histogram.init 5).runOps [.update 0 (.fin tenth), .update 0 (.fin 3)]).sample.getValues = [tenth, 3].map PyFloat.fin ∧
    ((Histogram.init 5).runOps [.update 0 (.fin tenth), .update 0 (.fin 3)]).histogramWith 4 = .ok [1, 0, 0, 1] := by
  decide +kernel

example : (([(PyFloat.fin tenth, rnd 1), (.fin 3, rnd 1)] : List (PyFloat × PyFloat)).map fun p => p.1.mul (inverse p.2)) =
    [tenth, 3].map PyFloat.fin ∧ [tenth, 3].length ≤ 2 ^ 52 ∧ ([tenth, 3].map abs).sum ≤ 2 ^ (1000 : ℤ) := by
  refine ⟨by decide +kernel, by norm_num, ?_⟩
  have h : (2 : ℚ) ^ (2 : ℤ) ≤ 2 ^ (1000 : ℤ) := zpow_le_zpow_right₀ (by norm_num) (by norm_num)
  refine le_trans ?_ h
  decide +kernel

/-- Durations since the last flush, in doubles. -/
example : Collect (Reading c!"ms" c!"a") (sinceFlush [.msg c!"a:9|ms", .flush 1000 90, .msg c!"a:0.1|ms", .msg c!"a:3|ms"])
    ([tenth, 3].map .fin) ∧ [tenth, 3].sum ≤ 2 ^ (1000 : ℤ) := by
  constructor
  · exact .hit (timerEffect_iff.1 (by decide +kernel)) (.hit (timerEffect_iff.1 (by decide +kernel)) .nil)
  · have h : (2 : ℚ) ^ (2 : ℤ) ≤ 2 ^ (1000 : ℤ) := zpow_le_zpow_right₀ (by norm_num) (by norm_num)
    exact le_trans (by decide +kernel) h

end
end Txstatsd
