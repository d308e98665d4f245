import Verif.Lemmas.ConfigurableMisc
import Verif.Props.Gauges

/-!
# The configurable and logging processors: C25–C30
-/

namespace Txstatsd
open Spec
section
variable [Rounding] {PF PM : Type}

/-! ## C25 -/

/-- C25: a completed flush consists of a counter section, timers, a gauge section and the rest. The counter section has, for
every counter ever received and once, the integer part of its last accepted value; the gauge section the last accepted value
of every gauge ever received, once. -/
theorem C25_latest (ops : PluginOps PF PM) (pre int : Str) (plugins : List PF) (w : World) (os : List Op)
    (interval percent : ℤ) :
    let s := (runOps (configurable ops pre int) w (CPState.init ops plugins) os).1
    let r := flush (configurable ops pre int) w interval percent s
    let ts := truncQ (w.clk s.ticks)
    r.2.2 = none →
    ∃ (cs : List (Str × ℤ)) (gs : List (Str × PyFloat)) (tt rest : List Datapoint),
      r.2.1 = cs.map (fun p => ⟨prefixed pre p.1 c!".count", .int p.2, ts⟩) ++ tt ++
        gs.map (fun p => ⟨prefixed pre p.1 c!".value", .flt p.2, ts⟩) ++ rest ∧
      (cs.map Prod.fst).Nodup ∧ (gs.map Prod.fst).Nodup ∧
      (∀ k z, (k, z) ∈ cs ↔ ∃ q, Latest c!"c" k (messages os) (.fin q) ∧ IntegerPart q z) ∧
      (∀ k v, (k, v) ∈ gs ↔ Latest c!"g" k (messages os) v) := by
  intro s r ts hok
  have hwf : CPWf ops pre s := cpwf_runOps ops pre int w (cpwf_init ops pre plugins) os
  have hst : StoredC pre s (messages os) := storedC ops pre int plugins w os
  obtain ⟨h1, _, _, rest, ns, rest', h4, _⟩ := flush_completeC ops pre int w interval percent hwf hok
  have hfin : ∀ p ∈ s.counters, ∃ q, p.2.count = .flt (.fin q) := by
    rintro ⟨k, c⟩ hp
    obtain ⟨v, _, rfl⟩ := (mem_counters hwf hst k c).1 hp
    cases v with
    | fin q => exact ⟨q, rfl⟩
    | nan =>
      rcases counter_phase_err ts s.counters ⟨_, hp, Or.inl rfl⟩ with h | h <;> rw [h] at h1 <;> cases h1
    | inf b =>
      rcases counter_phase_err ts s.counters ⟨_, hp, Or.inr ⟨b, rfl⟩⟩ with h | h <;> rw [h] at h1 <;> cases h1
  obtain ⟨_, h5⟩ := counter_phase_ok ts s.counters hfin
  refine ⟨s.counters.map fun p => (p.1, match truncNum p.2.count with | .ok z => z | .error _ => 0),
    s.gauges.map fun p => (p.1, p.2.value.toFloat), (timerResC ts s.timers).2.1.flatten, rest ++ ns :: rest', ?_, ?_, ?_, ?_, ?_⟩
  · rw [show r.2.1 = _ from h4]
    change (counterResC ts s.counters).2.1.flatten ++ _ ++ _ ++ _ = _
    rw [h5]
    congr 1
    congr 1
    · congr 1
      rw [← List.flatMap_def, List.map_map, List.map_eq_flatMap]
      refine List.flatMap_congr fun p hp => ?_
      obtain ⟨e1, e2⟩ := hwf.cName p hp
      simp only [Function.comp, e1, e2, dotted_eq]
      cases truncNum p.2.count <;> rfl
    · rw [← List.flatMap_def, List.map_map, List.map_eq_flatMap]
      refine List.flatMap_congr fun p hp => ?_
      obtain ⟨k, g⟩ := p
      obtain ⟨v, _, rfl⟩ := (mem_gauges hwf hst k g).1 hp
      simp only [Function.comp, GaugeRep.report, dotted_eq, Num.toFloat]
      rfl
  · rw [List.map_map]; exact hwf.counters
  · rw [List.map_map]; exact hwf.gauges
  · intro k z
    simp only [List.mem_map, Prod.mk.injEq, Prod.exists]
    constructor
    · rintro ⟨k', c, hm, rfl, rfl⟩
      obtain ⟨q, hq⟩ := hfin _ hm
      obtain ⟨v, hv, rfl⟩ := (mem_counters hwf hst k' c).1 hm
      simp only [Num.flt.injEq] at hq
      subst hq
      exact ⟨q, hv, integerPart_truncQ q⟩
    · rintro ⟨q, hq, hz⟩
      exact ⟨k, _, (mem_counters hwf hst k _).2 ⟨_, hq, rfl⟩, rfl, integerPart_unique (integerPart_truncQ q) hz⟩
  · intro k v
    simp only [List.mem_map, Prod.mk.injEq, Prod.exists]
    constructor
    · rintro ⟨k', c, hm, rfl, rfl⟩
      obtain ⟨v, hv, rfl⟩ := (mem_gauges hwf hst k' c).1 hm
      exact hv
    · intro hv
      exact ⟨k, _, (mem_gauges hwf hst k _).2 ⟨_, hv, rfl⟩, rfl, rfl⟩

/-! ## C26 -/

/-- C26: as long as the last accepted value of some counter is nan or infinite, every flush raises, and nothing but counter
values comes out of it. -/
theorem C26_poison (ops : PluginOps PF PM) (pre int : Str) (plugins : List PF) (w : World) (os : List Op)
    (interval percent : ℤ) (key : Str) (v : PyFloat) (hv : Latest c!"c" key (messages os) v) (hnf : ∀ q, v ≠ .fin q) :
    let s := (runOps (configurable ops pre int) w (CPState.init ops plugins) os).1
    let r := flush (configurable ops pre int) w interval percent s
    (r.2.2 = some .valueError ∨ r.2.2 = some .overflowError) ∧
    ∀ d ∈ r.2.1, ∃ k q z, Latest c!"c" k (messages os) (.fin q) ∧ IntegerPart q z ∧
      d = ⟨prefixed pre k c!".count", .int z, truncQ (w.clk s.ticks)⟩ := by
  intro s r
  have hwf : CPWf ops pre s := cpwf_runOps ops pre int w (cpwf_init ops pre plugins) os
  have hst : StoredC pre s (messages os) := storedC ops pre int plugins w os
  have hr : r = _ := flush_cp ops pre int w interval percent hwf
  have hmem := (mem_counters hwf hst key _).2 ⟨v, hv, rfl⟩
  have herr := counter_phase_err (truncQ (w.clk s.ticks)) s.counters ⟨_, hmem, by
    cases v with
    | nan => exact Or.inl rfl
    | inf b => exact Or.inr ⟨b, rfl⟩
    | fin q => exact absurd rfl (hnf q)⟩
  have hform : r.2 = ((counterResC (truncQ (w.clk s.ticks)) s.counters).2.1.flatten,
      (counterResC (truncQ (w.clk s.ticks)) s.counters).2.2) := by
    rw [hr]; unfold flushForm
    rcases herr with h | h <;> rw [h]
  rw [hform]
  refine ⟨herr, ?_⟩
  intro d hd
  obtain ⟨gr, hgr, hd⟩ := List.mem_flatten.1 hd
  obtain ⟨⟨k, c⟩, hp, hrep⟩ := counter_group_points hgr
  obtain ⟨v', hv', rfl⟩ := (mem_counters hwf hst k c).1 hp
  simp only [CounterRep.report] at hrep
  cases v' with
  | nan => simp [truncNum] at hrep
  | inf b => simp [truncNum] at hrep
  | fin q =>
    simp only [truncNum, Except.ok.injEq] at hrep
    subst hrep
    simp only [List.mem_singleton] at hd
    exact ⟨k, q, truncQ q, hv', integerPart_truncQ q, by rw [hd, dotted_eq]⟩

/-- C26: without plugins, and with finite last counter values and durations, a flush completes (in exact arithmetic). -/
theorem C26_survives [Exact] (ops : PluginOps PF PM) (pre int : Str) (w : World) (os : List Op) (interval percent : ℤ)
    (hc : ∀ k v, Latest c!"c" k (messages os) v → ∃ q, v = .fin q)
    (ht : ∀ m ∈ messages os, ∀ k v, Reading c!"ms" k m v → ∃ q, v = .fin q) :
    (flush (configurable ops pre int) w interval percent
      (runOps (configurable ops pre int) w (CPState.init ops []) os).1).2.2 = none := by
  have hwf := cpwf_runOps ops pre int w (cpwf_init ops pre []) os
  have hst := storedC ops pre int [] w os
  have hrun := timers_have_runs ops pre int [] w os ht
  have hnp := no_plugin_metrics ops pre int w os
  generalize (runOps (configurable ops pre int) w (CPState.init ops []) os).1 = s at *
  rw [flush_cp ops pre int w interval percent hwf]
  apply flushForm_survives
  · apply (counter_phase_ok _ _ _).1
    rintro ⟨k, c⟩ hp
    obtain ⟨v, hv, rfl⟩ := (mem_counters hwf hst k c).1 hp
    obtain ⟨q, rfl⟩ := hc k v hv
    exact ⟨q, rfl⟩
  · apply runElems_none
    rintro ⟨k, t⟩ hp
    obtain ⟨start, h, hr⟩ := hrun _ hp
    obtain ⟨pts, h1, _⟩ := timerInv_report_ok (timerInv_run hr) (truncQ (w.clk s.ticks))
    exact ⟨some pts, by simp only [h1]; rfl⟩
  · apply runElems_none
    rintro ⟨k, m⟩ hp
    obtain ⟨l, h1⟩ := meter_report_ok m (truncQ (w.clk s.ticks))
    exact ⟨some l, by simp only [h1]; rfl⟩
  · exact hwf.shared
  · exact runElems_keys _ _ _
  · exact hnp.2

/-! ## C27 -/

/-- C27: every datapoint of a flush of a configurable processor, complete or not, has the flush's timestamp and is named by
prefix, key and suffix for a key received with the suffix's type, or is a self statistic, whose name starts with the internal
prefix as given, or made of the message prefix; or a plugin's metric emitted it. -/
theorem C27_names (ops : PluginOps PF PM) (pre int : Str) (plugins : List PF) (w : World) (os : List Op)
    (interval percent : ℤ) :
    let s := (runOps (configurable ops pre int) w (CPState.init ops plugins) os).1
    let r := flush (configurable ops pre int) w interval percent s
    let ts := truncQ (w.clk s.ticks)
    let self := if int ≠ [] then int else if pre ≠ [] then pre ++ c!".statsd." else c!"statsd."
    (∀ d ∈ r.2.1,
      (d.ts = ts ∧ ∃ t k suffix, (t, suffix) ∈ suffixes ∧ Received t k (messages os) ∧ d.name = prefixed pre k suffix) ∨
      (d.ts = ts ∧ self <+: d.name) ∨
      PluginPoint ops w (fun _ => pre) (Int.fdiv interval 1000) ts d) ∧
    (r.2.2 = none → ∃ d ∈ r.2.1, d.name = self ++ c!"numStats" ∧ d.ts = ts) := by
  intro s r ts self
  have hwf : CPWf ops pre s := cpwf_runOps ops pre int w (cpwf_init ops pre plugins) os
  have hst : StoredC pre s (messages os) := storedC ops pre int plugins w os
  have hself : internalPrefixOf pre int = self := by
    unfold internalPrefixOf
    simp only [self]
    cases int <;> cases pre <;> simp
  obtain ⟨tt, gg, mm, pp, su, h0, h1, h2, h3, h4, _, h5⟩ := flush_sectionsC ops pre int w interval percent hwf
  refine ⟨?_, ?_⟩
  · intro d hd
    rw [show r.2.1 = _ from h0] at hd
    simp only [List.mem_append] at hd
    rcases hd with ((((hd | hd) | hd) | hd) | hd) | hd
    · left
      obtain ⟨gr, hgr, hd⟩ := List.mem_flatten.1 hd
      obtain ⟨⟨k, c⟩, hp, hrep⟩ := counter_group_points hgr
      obtain ⟨e1, e2⟩ := counter_report_points hrep d hd
      obtain ⟨v, hv, rfl⟩ := (mem_counters hwf hst k c).1 hp
      exact ⟨e1, c!"c", k, c!".count", by decide, latest_received hv, by rw [e2, dotted_eq]⟩
    · left
      rcases h1 with rfl | rfl
      · simp at hd
      · obtain ⟨gr, hgr, hd⟩ := List.mem_flatten.1 hd
        obtain ⟨⟨k, t⟩, hp, hrep⟩ := timer_group_points hgr
        obtain ⟨e1, suffix, e2, e3⟩ := timer_report_points hrep d hd
        obtain ⟨n1, n2⟩ := hwf.tName _ hp
        exact ⟨e1, c!"ms", k, suffix, e2, (hst.timers k).1 (Dict.mem_keys_of_mem hp), by rw [e3, n1, n2, dotted_eq]⟩
    · left
      rcases h2 with rfl | rfl
      · simp at hd
      · obtain ⟨gr, hgr, hd⟩ := List.mem_flatten.1 hd
        obtain ⟨⟨k, g⟩, hp, rfl⟩ := List.mem_map.1 hgr
        obtain ⟨v, hv, rfl⟩ := (mem_gauges hwf hst k g).1 hp
        simp only [GaugeRep.report, List.mem_singleton] at hd
        subst hd
        exact ⟨rfl, c!"g", k, c!".value", by decide, latest_received hv, by simp only [dotted_eq]⟩
    · left
      rcases h3 with rfl | rfl
      · simp at hd
      · obtain ⟨gr, hgr, hd⟩ := List.mem_flatten.1 hd
        obtain ⟨⟨k, m⟩, hp, hrep⟩ := meter_group_points hgr
        obtain ⟨e1, e2⟩ := meter_report_points hrep d hd
        obtain ⟨n1, n2⟩ := hwf.mName _ hp
        refine ⟨e1, c!"m", k, ?_⟩
        rcases e2 with e2 | e2
        · exact ⟨c!".count", by decide, (hst.meters k).1 (Dict.mem_keys_of_mem hp), by rw [e2, n1, n2, dotted_eq]⟩
        · exact ⟨c!".rate", by decide, (hst.meters k).1 (Dict.mem_keys_of_mem hp), by rw [e2, n1, n2, dotted_eq]⟩
    · exact Or.inr (Or.inr (h4 d hd))
    · right; left
      obtain ⟨e1, e2⟩ := h5 d hd
      rw [hself] at e2
      exact ⟨e1, e2⟩
  · intro hok
    obtain ⟨_, _, _, rest, ns, rest', e, e1, e2⟩ := flush_completeC ops pre int w interval percent hwf hok
    refine ⟨ns, ?_, by rw [e1, hself], e2⟩
    rw [show r.2.1 = _ from e]; simp

/-! ## C28 -/

/-- C28: the metric listing of a configurable processor raises ValueError if a gauge was received whose name does not have
exactly two characters. Otherwise it lists the timers, counters, meters and plugin metrics, and for each gauge the second
character of its name. -/
theorem C28_listing_partial (ops : PluginOps PF PM) (pre int : Str) (plugins : List PF) (w : World) (os : List Op) :
    let s := (runOps (configurable ops pre int) w (CPState.init ops plugins) os).1
    ((∃ k, Received c!"g" k (messages os) ∧ k.length ≠ 2) → getMetricNamesC s = .error .valueError) ∧
    ((∀ k, Received c!"g" k (messages os) → k.length = 2) → ∃ names, getMetricNamesC s = .ok names ∧ names.Nodup ∧
      ∀ n, n ∈ names ↔ Received c!"ms" n (messages os) ∨ Received c!"c" n (messages os) ∨ Received c!"m" n (messages os) ∨
        n ∈ s.pluginMetrics.keys ∨ ∃ a b, Received c!"g" [a, b] (messages os) ∧ n = [b]) := by
  intro s
  have hwf : CPWf ops pre s := cpwf_runOps ops pre int w (cpwf_init ops pre plugins) os
  have hst : StoredC pre s (messages os) := storedC ops pre int plugins w os
  have hg : ∀ k, k ∈ s.gauges.keys ↔ Received c!"g" k (messages os) := by
    intro k
    rw [← Dict.find_isSome_iff]
    rcases hst.gauges k with ⟨h1, h2⟩ | ⟨v, h1, h2⟩
    · rw [h1]; simp [h2]
    · rw [h2]; simp [latest_received h1]
  have hc : ∀ k, k ∈ s.counters.keys ↔ Received c!"c" k (messages os) := by
    intro k
    rw [← Dict.find_isSome_iff]
    rcases hst.counters k with ⟨h1, h2⟩ | ⟨v, h1, h2⟩
    · rw [h1]; simp [h2]
    · rw [h2]; simp [latest_received h1]
  refine ⟨?_, ?_⟩
  · rintro ⟨k, hk, hl⟩
    unfold getMetricNamesC
    rw [unpackKeys_err ⟨k, (hg k).2 hk, hl⟩]
  · intro h
    obtain ⟨l, h1, h2⟩ := unpackKeys_ok (ks := s.gauges.keys) (fun k hk => h k ((hg k).1 hk))
    unfold getMetricNamesC
    rw [h1]
    refine ⟨_, rfl, List.nodup_dedup _, ?_⟩
    intro n
    simp only [List.mem_dedup, List.mem_append, h2, hg, hc, hst.timers, hst.meters]
    constructor
    · rintro ((((h | h) | h) | h) | h)
      · exact Or.inl h
      · exact Or.inr (Or.inl h)
      · exact Or.inr (Or.inr (Or.inr (Or.inr h)))
      · exact Or.inr (Or.inr (Or.inl h))
      · exact Or.inr (Or.inr (Or.inr (Or.inl h)))
    · rintro (h | h | h | h | h)
      · exact Or.inl (Or.inl (Or.inl (Or.inl h)))
      · exact Or.inl (Or.inl (Or.inl (Or.inr h)))
      · exact Or.inl (Or.inr h)
      · exact Or.inr h
      · exact Or.inl (Or.inl (Or.inr h))

/-! ## C29 -/

/-- C29: the report of a timer after any updates and reports. -/
theorem C29_report [Exact] (name pre : Str) (start : ℚ) (h : List TimerOp) (t : TimerRep) (ts : ℤ)
    (hr : TimerRun (TimerRep.init name pre start) h t) :
    ∃ pts, (t.report ts).2 = .ok pts ∧
      TimerReport pre name (period h) (durations h).length ((ts : ℚ) - periodStart start h) ts pts :=
  timerInv_report_ok (timerInv_run hr) ts

/-- C29: in a processor. If the processor has received a duration for `key`, a completed flush contains the report of the
durations in its period; the period starts at the last flush, or when the first duration came. -/
theorem C29_flush [Exact] (ops : PluginOps PF PM) (pre int : Str) (plugins : List PF) (w : World) (os : List Op)
    (interval percent : ℤ) (key : Str) (h : List TimerOp)
    (hh : TimerHistory (configurable ops pre int) w key (CPState.init ops plugins) os h) (hd : durations h ≠ []) :
    let s := (runOps (configurable ops pre int) w (CPState.init ops plugins) os).1
    let r := flush (configurable ops pre int) w interval percent s
    let ts := truncQ (w.clk s.ticks)
    r.2.2 = none → ∃ a pts b, r.2.1 = a ++ pts ++ b ∧
      ∃ os1 h0 h1, FirstReading key os os1 ∧ h = h0 ++ h1 ∧ durations h0 = [] ∧ (∃ q h2, h1 = .add q :: h2) ∧
        TimerReport pre key (period h) (durations h).length
          ((ts : ℚ) - periodStart
            (w.clk ((runOps (configurable ops pre int) w (CPState.init ops plugins) os1).1.ticks + 1)) h1) ts pts := by
  intro s r ts hok
  have hwf : CPWf ops pre s := cpwf_runOps ops pre int w (cpwf_init ops pre plugins) os
  obtain ⟨_, hc, _, rest, ns, rest', e, _⟩ := flush_completeC ops pre int w interval percent hwf hok
  rcases stored_timer ops pre int plugins w key hh with ⟨h1, _⟩ | ⟨os1, h0, h1, t, i1, i2, i3, _, i5, i6, i7⟩
  · exact absurd h1 hd
  · obtain ⟨pts, p1, p2⟩ := timerInv_report_ok (timerInv_run i7) ts
    obtain ⟨a, b, hab⟩ := runElems_section (V := TimerRep) hc (Dict.mem_of_find i6) (pts := pts)
      (by change Except.map some (t.report ts).2 = _; rw [p1]; rfl)
    obtain ⟨j1, j2⟩ := period_append_noadd (h1 := h1) i3
    refine ⟨(counterResC ts s.counters).2.1.flatten ++ a, pts,
      b ++ ((s.gauges.map fun p => p.2.report ts).flatten ++ (rest ++ ns :: rest')), ?_, os1, h0, h1, i1, i2, i3, i5, ?_⟩
    · rw [show r.2.1 = _ from e]
      have : (timerResC ts s.timers).2.1.flatten = a ++ pts ++ b := hab
      change (counterResC ts s.counters).2.1.flatten ++ (timerResC ts s.timers).2.1.flatten ++ _ ++ _ = _
      rw [this]; simp only [List.append_assoc]; rfl
    · rw [i2, j1, j2]; exact p2

/-! ## C30 -/

/-- C30: a server around a logging processor goes through every schedule of arrivals and concurrent flushes exactly as one
around the configurable processor, and its log has an `In` line for every message that parsed and an `Out` line for every
datapoint, in order. -/
theorem C30_transparent (str : Num → Str) (ops : PluginOps PF PM) (pre int : Str) (w : World) (s : CPState PF PM)
    (es : List Event) :
    let l := LogServer.run str ops pre int w { lp := { ps := s } } es
    let v := Server.run (configurable ops pre int) w { ps := s } es
    l.lp.ps = v.ps ∧ l.gens = v.gens ∧ l.out = v.out ∧
    l.lp.log = expectedLog (configurable ops pre int) w str { ps := s } es := by
  exact logServer_sim str ops pre int w { lp := { ps := s } } es

/-- C30: per message, the outcome (the reports of bad messages and the exceptions) is the same too. -/
theorem C30_process (ops : PluginOps PF PM) (pre int : Str) (w : World) (l : Logging PF PM) (msg : Str) :
    (l.process ops pre int w msg).1.ps = (process (configurable ops pre int) w l.ps msg).1 ∧
    (l.process ops pre int w msg).2 = (process (configurable ops pre int) w l.ps msg).2 := by
  unfold Logging.process process
  cases parseMessage msg <;> exact ⟨rfl, rfl⟩

/-- C30: the `Out` lines are exactly the lines for the emitted datapoints, one each, in the order of emission. -/
theorem C30_out_lines (str : Num → Str) (ops : PluginOps PF PM) (pre int : Str) (w : World) (s : CPState PF PM)
    (es : List Event) :
    let l := LogServer.run str ops pre int w { lp := { ps := s } } es
    l.lp.log.filter (fun x => c!"Out: ".isPrefixOf x) =
      l.out.map fun d => c!"Out: " ++ d.name ++ c!" " ++ str d.value ++ c!" " ++ intStr d.ts := by
  intro l
  obtain ⟨new, h1, h2⟩ := logServer_out str ops pre int w { lp := { ps := s } } es
  rw [show l.out = _ from h1]
  exact h2

/-- C30: the constructor rejects a logger without a callable `info`. -/
theorem C30_logger (info : Option Bool) (s : CPState PF PM) :
    loggingInit info s = .error .typeError ∨ (info = some true ∧ loggingInit info s = .ok s) := by
  rcases info with _ | _ | _ <;> simp [loggingInit]

end

section
attribute [local instance] ratRounding

/-- C26, the expectation: a flush survives any accepted messages. False: `a:nan|c` is accepted (no bad message, no
exception), and the flush after it raises. -/
theorem C26_refuted :
    ¬ ∀ (os : List Op) (interval percent : ℤ),
      (flush (configurable noPlugins [] []) exWorld interval percent
        (runOps (configurable noPlugins [] []) exWorld (CPState.init noPlugins []) os).1).2.2 = none := by
  intro h
  have := h [.msg c!"a:nan|c"] 1000 90
  revert this
  decide +kernel

/-- The message is accepted. -/
example : (process (configurable noPlugins [] []) exWorld (CPState.init noPlugins []) c!"a:nan|c").2 = {} := by
  decide +kernel

/-- C28, the expectation: every received gauge is listed. False: after `load:1|g` the listing raises. -/
theorem C28_refuted :
    ¬ ∀ (os : List Op) (k : Str), Received c!"g" k (messages os) →
      ∃ names, getMetricNamesC (runOps (configurable noPlugins [] []) exWorld (CPState.init noPlugins []) os).1 = .ok names ∧
        k ∈ names := by
  intro h
  obtain ⟨names, h1, _⟩ := h [.msg c!"load:1|g"] c!"load" ⟨c!"load:1|g", by decide, .fin 1, reading_of (by decide +kernel)⟩
  have : getMetricNamesC (runOps (configurable noPlugins [] []) exWorld (CPState.init noPlugins []) [.msg c!"load:1|g"]).1 =
    .error .valueError := by decide +kernel
  rw [this] at h1
  cases h1

/-! ## The hypotheses can be met -/

/-- A history for C25: two values for the counter `a`, one for the gauge `b`. -/
def exConf : List Op := [.msg c!"a:2|c", .flush 1000 90, .msg c!"a:-3.5|c", .msg c!"b:7|g", .msg c!"b:8|g"]

example : (flush (configurable noPlugins c!"pfx" []) exWorld 1000 90
    (runOps (configurable noPlugins c!"pfx" []) exWorld (CPState.init noPlugins []) exConf).1).2.2 = none := by
  decide +kernel
example : ((flush (configurable noPlugins c!"pfx" []) exWorld 1000 90
    (runOps (configurable noPlugins c!"pfx" []) exWorld (CPState.init noPlugins []) exConf).1).2.1.take 2).map
      (fun d => (d.name, d.value)) = [(c!"pfx.a.count", .int (-3)), (c!"pfx.b.value", .flt (.fin 8))] := by
  decide +kernel
example : Latest c!"c" c!"a" (messages exConf) (.fin (-7 / 2)) :=
  ⟨[c!"a:2|c"], c!"a:-3.5|c", [c!"b:7|g", c!"b:8|g"], rfl, reading_of (by decide +kernel), by
    intro m hm
    simp only [List.mem_cons, List.not_mem_nil, or_false] at hm
    rcases hm with rfl | rfl <;> exact not_reading_of (by decide +kernel)⟩
example : IntegerPart (-7 / 2) (-3) := by
  refine ⟨?_, ?_, ?_⟩ <;> norm_num [abs_le, abs_lt]

/-- A poisoned counter. -/
example : Latest c!"c" c!"a" (messages [.msg c!"b:1|c", .msg c!"a:nan|c", .msg c!"b:2|c"]) .nan :=
  ⟨[c!"b:1|c"], c!"a:nan|c", [c!"b:2|c"], rfl, reading_of (by decide +kernel), by
    intro m hm
    simp only [List.mem_cons, List.not_mem_nil, or_false] at hm
    subst hm; exact not_reading_of (by decide +kernel)⟩

/-- Only the finite counters before it come out. -/
example : (flush (configurable noPlugins [] []) exWorld 1000 90 (runOps (configurable noPlugins [] []) exWorld
    (CPState.init noPlugins []) [.msg c!"b:1|c", .msg c!"a:nan|c", .msg c!"b:2|c"]).1).2 =
      ([⟨c!"b.count", .int 2, 6⟩], some .valueError) := by decide +kernel

/-- Self statistics with the three kinds of prefix. -/
example : ([(c!"", c!""), (c!"p", c!""), (c!"p", c!"int.")].map fun x =>
    ((flush (configurable noPlugins x.1 x.2) exWorld 1000 90 (CPState.init noPlugins [])).2.1.map Datapoint.name).head?) =
      [some c!"statsd.numStats", some c!"p.statsd.numStats", some c!"int.numStats"] := by decide +kernel

/-- Listing with a two-character gauge name. -/
example : getMetricNamesC (runOps (configurable noPlugins [] []) exWorld (CPState.init noPlugins [])
    [.msg c!"ab:1|g", .msg c!"x:1|c"]).1 = .ok [c!"x", c!"b"] := by decide +kernel

/-- A timer: a flush before it exists, two durations, a flush, a negative and a positive duration. -/
def exTimer : List Op := [.flush 1000 90, .msg c!"t:1|ms", .msg c!"t:3|ms", .flush 1000 90, .msg c!"t:-2|ms", .msg c!"x:1|c",
  .msg c!"t:8|ms"]

theorem exTimer_fin (os : List Op) (h : ∀ o ∈ os, o ∈ exTimer) :
    (flush (configurable noPlugins [] []) exWorld 1000 90
      (runOps (configurable noPlugins [] []) exWorld (CPState.init noPlugins []) os).1).2.2 = none := by
  have hread : ∀ m ∈ messages os, ∀ t k v, Reading t k m v → ∃ q, v = .fin q := by
    intro m hm t k v hr
    have hm' : m ∈ [c!"t:1|ms", c!"t:3|ms", c!"t:-2|ms", c!"x:1|c", c!"t:8|ms"] := by
      simp only [messages, List.mem_filterMap] at hm
      obtain ⟨o, ho, hm⟩ := hm
      have ho := h o ho
      simp only [exTimer, List.mem_cons, List.not_mem_nil, or_false] at ho
      rcases ho with rfl | rfl | rfl | rfl | rfl | rfl | rfl <;> simp at hm <;> subst hm <;> decide
    obtain ⟨p, h1, _, _, h4⟩ := reading_iff.1 hr
    have hall : ∀ m ∈ [c!"t:1|ms", c!"t:3|ms", c!"t:-2|ms", c!"x:1|c", c!"t:8|ms"],
        ((parseMessage m).bind fun p => parseFloat (p.fields.headD [])).all (fun v => match v with
          | .fin _ => true
          | _ => false) = true := by decide +kernel
    have := hall m hm'
    rw [h1] at this
    simp only [Option.bind_some, h4, Option.all_some] at this
    cases v with
    | fin q => exact ⟨q, rfl⟩
    | nan => simp at this
    | inf b => simp at this
  exact C26_survives noPlugins [] [] exWorld os 1000 90
    (fun k v hv => by obtain ⟨b, m, a, hm, hr, _⟩ := hv; exact hread m (by rw [hm]; simp) _ _ _ hr)
    (fun m hm k v hr => hread m hm _ _ _ hr)

example : ∃ ts ts', TimerHistory (configurable noPlugins [] []) exWorld c!"t" (CPState.init noPlugins []) exTimer
    [.report ts, .add 1, .add 3, .report ts', .add (-2), .add 8] :=
  ⟨_, _, .add (.skip (.add (.flush (.add (.add (.flush .nil (exTimer_fin [] (by simp)))
      (reading_of (by decide +kernel))) (reading_of (by decide +kernel)))
      (exTimer_fin [.flush 1000 90, .msg c!"t:1|ms", .msg c!"t:3|ms"] (by simp [exTimer])))
      (reading_of (by decide +kernel))) (not_reading_of (by decide +kernel))) (reading_of (by decide +kernel))⟩
example (ts ts' : ℤ) : period [.report ts, .add 1, .add 3, .report ts', .add (-2), .add 8] = [8] ∧
    durations [.report ts, .add 1, .add 3, .report ts', .add (-2), .add 8] = [1, 3, -2, 8] ∧
    periodStart 0 [.report ts, .add 1, .add 3, .report ts', .add (-2), .add 8] = ts' := ⟨rfl, rfl, rfl⟩

/-- The log of a schedule with a bad message, a good one and a flush. -/
example : (LogServer.run (fun _ => c!"v") noPlugins [] [] exWorld { lp := { ps := CPState.init noPlugins [] } }
    ([.arrive c!"bad", .arrive c!"a:1|c", .spawn 1000 90] ++ List.replicate 6 (.advance 0))).lp.log =
      [c!"In: a:1|c", c!"Out: a.count v 2"] := by decide +kernel

end
end Txstatsd
