import Verif.Lemmas.Configurable

set_option linter.unusedSectionVars false
set_option linter.unusedSimpArgs false
set_option linter.unusedVariables false

namespace Txstatsd
open Spec
section
variable [Rounding] {PF PM : Type}

theorem latest_collect {t k : Str} {msgs : List Str} {v : PyFloat} (h : Latest t k msgs v) :
    ∃ vs, Collect (Reading t k) msgs (vs ++ [v]) := by
  obtain ⟨before, m, after, rfl, hm, hafter⟩ := h
  obtain ⟨vs, hvs⟩ := collect_exists (Reading t k) before
  have hno : Collect (Reading t k) after [] := by
    induction after with
    | nil => exact .nil
    | cons a as ih =>
      exact .skip (fun v' => hafter a (by simp) v') (ih (fun m' h => hafter m' (by simp [h])))
  exact ⟨vs, collect_append hvs (.hit hm hno)⟩

theorem latest_unique {t k : Str} {msgs : List Str} {v v' : PyFloat} (h : Latest t k msgs v) (h' : Latest t k msgs v') :
    v = v' := by
  obtain ⟨vs, h1⟩ := latest_collect h
  obtain ⟨vs', h2⟩ := latest_collect h'
  have := collect_unique (P := Reading t k) (fun _ _ _ a b => reading_unique a b) h1 h2
  have := congrArg List.getLast? this
  simpa using this

theorem latest_hit {t k m : Str} {msgs : List Str} {v : PyFloat} (h : Reading t k m v) : Latest t k (msgs ++ [m]) v :=
  ⟨msgs, m, [], rfl, h, by simp⟩

theorem latest_skip {t k m : Str} {msgs : List Str} {v : PyFloat} (h : Latest t k msgs v) (hm : ∀ v, ¬ Reading t k m v) :
    Latest t k (msgs ++ [m]) v := by
  obtain ⟨before, m0, after, rfl, h1, h2⟩ := h
  refine ⟨before, m0, after ++ [m], by simp, h1, ?_⟩
  intro m' hm'
  rcases List.mem_append.1 hm' with h | h
  · exact h2 m' h
  · simp only [List.mem_singleton] at h; subst h; exact hm

theorem latest_received {t k : Str} {msgs : List Str} {v : PyFloat} (h : Latest t k msgs v) : Received t k msgs := by
  obtain ⟨b, m, a, rfl, hm, _⟩ := h
  exact ⟨m, by simp, v, hm⟩

theorem received_latest {t k : Str} {msgs : List Str} (h : Received t k msgs) : ∃ v, Latest t k msgs v := by
  induction msgs using List.reverseRecOn with
  | nil => obtain ⟨m, hm, _⟩ := h; simp at hm
  | append_singleton ms m ih =>
    by_cases hr : ∃ v, Reading t k m v
    · obtain ⟨v, hv⟩ := hr; exact ⟨v, latest_hit hv⟩
    · push Not at hr
      obtain ⟨m', hm', v, hv⟩ := h
      rcases List.mem_append.1 hm' with h1 | h1
      · obtain ⟨v, hv⟩ := ih ⟨m', h1, v, hv⟩
        exact ⟨v, latest_skip hv hr⟩
      · simp only [List.mem_singleton] at h1; subst h1; exact absurd hv (hr v)

theorem applyRead_find {V : Type} {new : Str → V} {mark : V → PyFloat → V} {d : Dict V} {t msg k : Str} :
    (∃ v, Reading t k msg v ∧
      (applyRead new mark d (readEffect t msg)).find k = some (mark ((d.find k).getD (new k)) v)) ∨
    ((∀ v, ¬ Reading t k msg v) ∧ (applyRead new mark d (readEffect t msg)).find k = d.find k) := by
  rcases he : readEffect t msg with _ | ⟨k', x⟩
  · right
    exact ⟨fun v => readEffect_none.1 he k v, rfl⟩
  · by_cases hk : k = k'
    · subst hk
      exact Or.inl ⟨x, readEffect_iff.1 he, Dict.find_put_self _ _ _⟩
    · right
      refine ⟨fun v hv => ?_, Dict.find_put_ne _ _ hk⟩
      rw [readEffect_iff.2 hv] at he; simp at he; exact hk he.1

/-- The counters and gauges hold the latest values; timers and meters exist for the keys received. -/
structure StoredC (pre : Str) (s : CPState PF PM) (msgs : List Str) : Prop where
  counters : ∀ k, (s.counters.find k = none ∧ ¬ Received c!"c" k msgs) ∨
    ∃ v, Latest c!"c" k msgs v ∧ s.counters.find k = some ⟨k, dotted pre, .flt v⟩
  gauges : ∀ k, (s.gauges.find k = none ∧ ¬ Received c!"g" k msgs) ∨
    ∃ v, Latest c!"g" k msgs v ∧ s.gauges.find k = some ⟨k, dotted pre, .flt v⟩
  timers : ∀ k, k ∈ s.timers.keys ↔ Received c!"ms" k msgs
  meters : ∀ k, k ∈ s.meters.keys ↔ Received c!"m" k msgs

theorem received_snoc {t k m : Str} {msgs : List Str} :
    Received t k (msgs ++ [m]) ↔ Received t k msgs ∨ ∃ v, Reading t k m v := by
  constructor
  · rintro ⟨m', hm', v, hv⟩
    rcases List.mem_append.1 hm' with h | h
    · exact Or.inl ⟨m', h, v, hv⟩
    · simp only [List.mem_singleton] at h; subst h; exact Or.inr ⟨v, hv⟩
  · rintro (⟨m', hm', v, hv⟩ | ⟨v, hv⟩)
    · exact ⟨m', by simp [hm'], v, hv⟩
    · exact ⟨m, by simp, v, hv⟩

theorem applyRead_keys {V : Type} {new : Str → V} {mark : V → PyFloat → V} {d : Dict V} {t msg k : Str} :
    k ∈ (applyRead new mark d (readEffect t msg)).keys ↔ k ∈ d.keys ∨ ∃ v, Reading t k msg v := by
  rw [← Dict.find_isSome_iff, ← Dict.find_isSome_iff]
  rcases applyRead_find (new := new) (mark := mark) (d := d) (t := t) (msg := msg) (k := k) with ⟨v, hv, he⟩ | ⟨hn, he⟩
  · rw [he]; simp only [Option.isSome_some, true_iff]; exact Or.inr ⟨v, hv⟩
  · rw [he]; simp only [iff_self_or]; rintro ⟨v, hv⟩; exact absurd hv (hn v)

theorem stored_value {V : Type} {new : Str → V} {mark : V → PyFloat → V} {val : Str → PyFloat → V} {d : Dict V} {t m : Str}
    {msgs : List Str} (hn : ∀ k v, mark (new k) v = val k v) (hm : ∀ k v v', mark (val k v) v' = val k v')
    (h : ∀ k, (d.find k = none ∧ ¬ Received t k msgs) ∨ ∃ v, Latest t k msgs v ∧ d.find k = some (val k v)) :
    ∀ k, ((applyRead new mark d (readEffect t m)).find k = none ∧ ¬ Received t k (msgs ++ [m])) ∨
      ∃ v, Latest t k (msgs ++ [m]) v ∧ (applyRead new mark d (readEffect t m)).find k = some (val k v) := by
  intro k
  rcases applyRead_find (new := new) (mark := mark) (d := d) (t := t) (msg := m) (k := k) with ⟨v, hv, he⟩ | ⟨hnr, he⟩
  · right
    refine ⟨v, latest_hit hv, ?_⟩
    rw [he]
    rcases h k with ⟨h1, _⟩ | ⟨v', _, h1⟩
    · rw [h1, Option.getD_none, hn]
    · rw [h1, Option.getD_some, hm]
  · rw [he]
    rcases h k with ⟨h1, h2⟩ | ⟨v', h1, h2⟩
    · left
      refine ⟨h1, fun hr => ?_⟩
      rcases received_snoc.1 hr with hr | ⟨v, hr⟩
      · exact h2 hr
      · exact hnr v hr
    · exact Or.inr ⟨v', latest_skip h1 hnr, h2⟩

theorem storedC (ops : PluginOps PF PM) (pre int : Str) (plugins : List PF) (w : World) (os : List Op) :
    StoredC pre (runOps (configurable ops pre int) w (CPState.init ops plugins) os).1 (messages os) := by
  induction os using List.reverseRecOn with
  | nil =>
    refine ⟨fun k => Or.inl ⟨rfl, ?_⟩, fun k => Or.inl ⟨rfl, ?_⟩, fun k => ?_, fun k => ?_⟩
    · rintro ⟨m, hm, _⟩; simp [messages] at hm
    · rintro ⟨m, hm, _⟩; simp [messages] at hm
    · constructor
      · intro h; simp [runOps, CPState.init] at h
      · rintro ⟨m, hm, _⟩; simp [messages] at hm
    · constructor
      · intro h; simp [runOps, CPState.init] at h
      · rintro ⟨m, hm, _⟩; simp [messages] at hm
  | append_singleton os o ih =>
    have hwf := cpwf_runOps ops pre int w (cpwf_init ops pre plugins) os
    rw [runOps_snoc]
    generalize runOps (configurable ops pre int) w (CPState.init ops plugins) os = c0 at ih hwf
    cases o with
    | msg m =>
      rw [messages_snoc_msg]
      simp only [Op.apply]
      obtain ⟨e1, e2, ⟨draw, e3⟩, e4⟩ := effect ops pre int w c0.1 m
      refine ⟨?_, ?_, ?_, ?_⟩
      · rw [e1]
        exact stored_value (val := fun k v => (⟨k, dotted pre, .flt v⟩ : CounterRep)) (fun k v => rfl) (fun k v v' => rfl) ih.counters
      · rw [e2]
        exact stored_value (val := fun k v => (⟨k, dotted pre, .flt v⟩ : GaugeRep)) (fun k v => rfl) (fun k v v' => rfl) ih.gauges
      · intro k; rw [e3, applyRead_keys, received_snoc, ih.timers]
      · intro k; rw [e4, applyRead_keys, received_snoc, ih.meters]
    | flush i p =>
      rw [messages_snoc_flush]
      simp only [Op.apply]
      obtain ⟨h1, h2, h3, h4, _⟩ := flush_keepsC ops pre int w i p hwf
      refine ⟨?_, ?_, ?_, ?_⟩
      · rw [h1]; exact ih.counters
      · rw [h2]; exact ih.gauges
      · rw [h3]; exact ih.timers
      · rw [h4]; exact ih.meters

theorem mem_counters {ops : PluginOps PF PM} {pre : Str} {s : CPState PF PM} {msgs : List Str} (hw : CPWf ops pre s) (hs : StoredC pre s msgs) (k : Str)
    (c : CounterRep) : (k, c) ∈ s.counters ↔ ∃ v, Latest c!"c" k msgs v ∧ c = ⟨k, dotted pre, .flt v⟩ := by
  rw [Dict.mem_iff_find hw.counters]
  rcases hs.counters k with ⟨h1, h2⟩ | ⟨v, h1, h2⟩
  · rw [h1]
    constructor
    · intro h; cases h
    · rintro ⟨v, hv, _⟩; exact absurd (latest_received hv) h2
  · rw [h2]
    constructor
    · intro h; exact ⟨v, h1, by simpa using h.symm⟩
    · rintro ⟨v', h3, rfl⟩; rw [latest_unique h1 h3]

theorem mem_gauges {ops : PluginOps PF PM} {pre : Str} {s : CPState PF PM} {msgs : List Str} (hw : CPWf ops pre s) (hs : StoredC pre s msgs) (k : Str)
    (c : GaugeRep) : (k, c) ∈ s.gauges ↔ ∃ v, Latest c!"g" k msgs v ∧ c = ⟨k, dotted pre, .flt v⟩ := by
  rw [Dict.mem_iff_find hw.gauges]
  rcases hs.gauges k with ⟨h1, h2⟩ | ⟨v, h1, h2⟩
  · rw [h1]
    constructor
    · intro h; cases h
    · rintro ⟨v, hv, _⟩; exact absurd (latest_received hv) h2
  · rw [h2]
    constructor
    · intro h; exact ⟨v, h1, by simpa using h.symm⟩
    · rintro ⟨v', h3, rfl⟩; rw [latest_unique h1 h3]

theorem dotted_eq (pre key suffix : Str) : dotted pre ++ key ++ suffix = prefixed pre key suffix := by
  unfold dotted prefixed
  cases pre <;> simp

theorem integerPart_truncQ (q : ℚ) : IntegerPart q (truncQ q) := by
  unfold truncQ IntegerPart
  split_ifs with h
  · have h1 := Int.floor_le q
    have h2 := Int.lt_floor_add_one q
    have h3 : (0 : ℚ) ≤ (⌊q⌋ : ℤ) := by exact_mod_cast Int.floor_nonneg.2 h
    refine ⟨by rw [abs_of_nonneg h3, abs_of_nonneg h]; exact h1, ?_, mul_nonneg h h3⟩
    rw [abs_lt]; constructor <;> linarith
  · have hn : 0 ≤ -q := by linarith
    have h1 := Int.floor_le (-q)
    have h2 := Int.lt_floor_add_one (-q)
    have h3 : (0 : ℚ) ≤ (⌊-q⌋ : ℤ) := by exact_mod_cast Int.floor_nonneg.2 hn
    push_cast
    refine ⟨?_, ?_, ?_⟩
    · rw [abs_neg, abs_of_nonneg h3, abs_of_neg (by linarith)]; exact h1
    · rw [abs_lt]; constructor <;> linarith
    · nlinarith

theorem integerPart_unique {q : ℚ} {z z' : ℤ} (h : IntegerPart q z) (h' : IntegerPart q z') : z = z' := by
  obtain ⟨a1, a2, a3⟩ := h
  obtain ⟨b1, b2, b3⟩ := h'
  have hz : |(z : ℚ) - z'| < 1 := by
    rcases le_total 0 q with hq | hq
    · rw [abs_of_nonneg hq] at a1 b1
      have := abs_le.1 a1; have := abs_le.1 b1
      have := abs_lt.1 a2; have := abs_lt.1 b2
      rw [abs_lt]; constructor <;> linarith
    · rw [abs_of_nonpos hq] at a1 b1
      have := abs_le.1 a1; have := abs_le.1 b1
      have := abs_lt.1 a2; have := abs_lt.1 b2
      rw [abs_lt]; constructor <;> linarith
  have : |z - z'| < 1 := by exact_mod_cast hz
  have := Int.abs_lt_one_iff.1 this
  omega

/-- The counter phase, when all values are finite. -/
theorem counter_phase_ok (ts : ℤ) (d : Dict CounterRep) (h : ∀ p ∈ d, ∃ q, p.2.count = .flt (.fin q)) :
    (counterResC ts d).2.2 = none ∧ (counterResC ts d).2.1 = d.map fun p =>
      [⟨p.2.pre ++ p.2.name ++ c!".count", .int (match truncNum p.2.count with | .ok z => z | .error _ => 0), ts⟩] := by
  unfold counterResC
  rw [runElems_ok (h := fun _ (c : CounterRep) => some [(⟨c.pre ++ c.name ++ c!".count",
      .int (match truncNum c.count with | .ok z => z | .error _ => 0), ts⟩ : Datapoint)])]
  · refine ⟨rfl, ?_⟩
    simp only
    rw [← List.filterMap_eq_map]; rfl
  · intro p hp
    obtain ⟨q, hq⟩ := h p hp
    simp only [CounterRep.report, hq, truncNum, Except.map]

/-- The counter phase raises as soon as a value is not finite. -/
theorem counter_phase_err (ts : ℤ) (d : Dict CounterRep) (h : ∃ p ∈ d, p.2.count = .flt .nan ∨ ∃ b, p.2.count = .flt (.inf b)) :
    (counterResC ts d).2.2 = some .valueError ∨ (counterResC ts d).2.2 = some .overflowError := by
  unfold counterResC
  induction d with
  | nil => obtain ⟨p, hp, _⟩ := h; simp at hp
  | cons q rest ih =>
    obtain ⟨k, c⟩ := q
    rw [runElems]
    cases hc : c.count with
    | int z =>
      simp only [CounterRep.report, hc, truncNum, Except.map]
      apply ih
      obtain ⟨p, hp, h⟩ := h
      rcases List.mem_cons.1 hp with rfl | hp
      · simp only [hc] at h; rcases h with h | ⟨b, h⟩ <;> cases h
      · exact ⟨p, hp, h⟩
    | flt x =>
      cases x with
      | nan => simp only [CounterRep.report, hc, truncNum, Except.map, true_or]
      | inf b => simp only [CounterRep.report, hc, truncNum, Except.map, or_true]
      | fin q =>
        simp only [CounterRep.report, hc, truncNum, Except.map]
        apply ih
        obtain ⟨p, hp, h⟩ := h
        rcases List.mem_cons.1 hp with rfl | hp
        · simp only [hc] at h; rcases h with h | ⟨b, h⟩ <;> cases h
        · exact ⟨p, hp, h⟩

theorem counter_report_points {c : CounterRep} {ts : ℤ} {l : List Datapoint} (h : c.report ts = .ok l) :
    ∀ d ∈ l, d.ts = ts ∧ d.name = c.pre ++ c.name ++ c!".count" := by
  unfold CounterRep.report at h
  cases ht : truncNum c.count with
  | error e => rw [ht] at h; cases h
  | ok z => rw [ht] at h; simp only [Except.ok.injEq] at h; subst h; simp

theorem counter_group_points {ts : ℤ} {d : Dict CounterRep} {gr : List Datapoint} (h : gr ∈ (counterResC ts d).2.1) :
    ∃ p ∈ d, p.2.report ts = .ok gr := by
  obtain ⟨p, hp, hg⟩ := runElems_groups _ _ _ gr h
  refine ⟨p, hp, ?_⟩
  cases hr : p.2.report ts with
  | error e => simp [hr, Except.map] at hg
  | ok l => simpa [hr, Except.map] using hg

theorem timer_group_points {ts : ℤ} {d : Dict TimerRep} {gr : List Datapoint} (h : gr ∈ (timerResC ts d).2.1) :
    ∃ p ∈ d, (p.2.report ts).2 = .ok gr := by
  obtain ⟨p, hp, hg⟩ := runElems_groups _ _ _ gr h
  refine ⟨p, hp, ?_⟩
  cases hr : (p.2.report ts).2 with
  | error e => simp [hr, Except.map] at hg
  | ok l => simpa [hr, Except.map] using hg

theorem meter_group_points {ts : ℤ} {d : Dict Meter} {gr : List Datapoint} (h : gr ∈ (meterRes ts d).2.1) :
    ∃ p ∈ d, (p.2.report ts).2 = .ok gr := by
  obtain ⟨p, hp, hg⟩ := runElems_groups _ _ _ gr h
  refine ⟨p, hp, ?_⟩
  cases hr : (p.2.report ts).2 with
  | error e => simp [hr, Except.map] at hg
  | ok l => simpa [hr, Except.map] using hg

theorem timer_report_points {t : TimerRep} {ts : ℤ} {l : List Datapoint} (h : (t.report ts).2 = .ok l) :
    ∀ d ∈ l, d.ts = ts ∧ ∃ suffix, (c!"ms", suffix) ∈ suffixes ∧ d.name = t.pre ++ t.name ++ suffix := by
  unfold TimerRep.report at h
  cases hi : t.reportItems ts with
  | error e => rw [hi] at h; cases h
  | ok items =>
    rw [hi] at h
    simp only [Except.ok.injEq] at h
    subst h
    intro d hd
    obtain ⟨p, hp, rfl⟩ := List.mem_map.1 hd
    refine ⟨rfl, p.1, ?_, rfl⟩
    unfold TimerRep.reportItems at hi
    cases h1 : t.hist.percentiles timerPercentiles with
    | error e => rw [h1] at hi; cases hi
    | ok ps =>
      cases h2 : t.hist.stdDev with
      | error e => rw [h1, h2] at hi; cases hi
      | ok sd =>
        cases h3 : t.rate ts with
        | error e => rw [h1, h2, h3] at hi; cases hi
        | ok r =>
          rw [h1, h2, h3] at hi
          have hi := Except.ok.inj hi
          rw [← hi] at hp
          simp only [List.mem_cons, List.not_mem_nil, or_false] at hp
          rcases hp with rfl | rfl | rfl | rfl | rfl | rfl | rfl | rfl <;> simp only [suffixes] <;> decide

/-- The flush of the configurable processor by sections, complete or not. -/
theorem flush_sectionsC (ops : PluginOps PF PM) (pre int : Str) (w : World) (interval percent : ℤ) {s : CPState PF PM}
    (hs : CPWf ops pre s) :
    let ts := truncQ (w.clk s.ticks)
    let r := flush (configurable ops pre int) w interval percent s
    ∃ tt gg mm pp su, r.2.1 = (counterResC ts s.counters).2.1.flatten ++ tt ++ gg ++ mm ++ pp ++ su ∧
      (tt = [] ∨ tt = (timerResC ts s.timers).2.1.flatten) ∧
      (gg = [] ∨ gg = (s.gauges.map fun p => p.2.report ts).flatten) ∧
      (mm = [] ∨ mm = (meterRes ts s.meters).2.1.flatten) ∧
      (∀ d ∈ pp, PluginPoint ops w (fun _ => pre) (Int.fdiv interval 1000) ts d) ∧
      (s.pluginMetrics = [] → pp = []) ∧
      (∀ d ∈ su, d.ts = ts ∧ internalPrefixOf pre int <+: d.name) := by
  intro ts r
  have hr : r = flush (configurable ops pre int) w interval percent s := rfl
  rw [hr, flush_cp ops pre int w interval percent hs]
  exact flushForm_sections (configurable ops pre int) w (Int.fdiv interval 1000) ts
    (counterResC ts s.counters) (timerResC ts s.timers) (s.gauges.map fun p => p.2.report ts)
    (meterRes ts s.meters) s hs.shared (runElems_keys _ _ _) hs.came

/-- The flush of the configurable processor when it completes. -/
theorem flush_completeC (ops : PluginOps PF PM) (pre int : Str) (w : World) (interval percent : ℤ) {s : CPState PF PM}
    (hs : CPWf ops pre s) (hok : (flush (configurable ops pre int) w interval percent s).2.2 = none) :
    let ts := truncQ (w.clk s.ticks)
    (counterResC ts s.counters).2.2 = none ∧ (timerResC ts s.timers).2.2 = none ∧ (meterRes ts s.meters).2.2 = none ∧
    ∃ rest numStats rest', (flush (configurable ops pre int) w interval percent s).2.1 =
      (counterResC ts s.counters).2.1.flatten ++ (timerResC ts s.timers).2.1.flatten ++
        (s.gauges.map fun p => p.2.report ts).flatten ++ (rest ++ numStats :: rest') ∧
      numStats.name = internalPrefixOf pre int ++ c!"numStats" ∧ numStats.ts = ts := by
  intro ts
  rw [flush_cp ops pre int w interval percent hs] at hok ⊢
  obtain ⟨h1, h2, h3, gs, acc, _, _, _, h⟩ := flushForm_complete (configurable ops pre int) w (Int.fdiv interval 1000) ts
    (counterResC ts s.counters) (timerResC ts s.timers) (s.gauges.map fun p => p.2.report ts)
    (meterRes ts s.meters) s hs.shared (runElems_keys _ _ _) hok hs.came
  refine ⟨h1, h2, h3, (meterRes ts s.meters).2.1.flatten ++ gs.flatten, numStatsPoint (configurable ops pre int) acc ts,
    acc.flatMap (perMetricPoints (configurable ops pre int) ts) ++
      s.processTimings.flatMap fun p =>
        receivePoints (configurable ops pre int) ts p.1 ((s.byType.find p.1).getD 0) p.2, ?_, rfl, rfl⟩
  rw [h]; simp only [List.append_assoc]

end
end Txstatsd
