import Verif.Lemmas.Complete

set_option linter.unusedSectionVars false
set_option linter.unusedSimpArgs false
set_option linter.unusedVariables false

namespace Txstatsd
open Spec
section
variable [Rounding] {PF PM : Type}

theorem mem_takeSign {s : Str} (h : ':' ∈ s) : ':' ∈ (takeSign s).2 := by
  unfold takeSign
  split
  · simpa using h
  · simpa using h
  · exact h

theorem parseExp_colon {s : Str} (h : ':' ∈ s) : parseExp s = none := by
  cases s with
  | nil => simp at h
  | cons c r =>
    rw [parseExp]
    split_ifs with h1
    · have hr : ':' ∈ r := by
        rcases List.mem_cons.1 h with h | h
        · rw [← h] at h1; simp at h1
        · exact h
      have := mem_takeSign hr
      simp only
      split_ifs with h2
      · rfl
      · simp only [Bool.or_eq_true, Bool.not_eq_true', not_or, Bool.not_eq_false, List.all_eq_true] at h2
        have := h2.2 _ this
        exact absurd this (by decide)
    · rfl

theorem colon_dropDigits {s : Str} (h : ':' ∈ s) : ':' ∈ s.dropWhile isDigit := by
  have h' : ':' ∈ s.takeWhile isDigit ++ s.dropWhile isDigit := by rw [List.takeWhile_append_dropWhile]; exact h
  rcases List.mem_append.1 h' with h | h
  · have := List.mem_takeWhile_imp h; exact absurd this (by decide)
  · exact h

theorem parseDecimal_colon {s : Str} (h : ':' ∈ s) : parseDecimal s = none := by
  have h1 := colon_dropDigits h
  unfold parseDecimal
  simp only
  generalize s.dropWhile isDigit = rest at h1
  split
  · rename_i r
    simp only
    rw [parseExp_colon (colon_dropDigits (by simpa using h1))]
    simp
  · simp only
    rw [parseExp_colon h1]
    simp

theorem parseFloat_colon {s : Str} (h : ':' ∈ s) : parseFloat s = none := by
  obtain ⟨a, b, hs, ha, hb, _⟩ := strip_spec s
  have hw : ¬ White ':' := by decide
  have h1 : ':' ∈ strip s := by
    rw [hs] at h
    simp only [List.mem_append] at h
    rcases h with (h | h) | h
    · exact absurd (ha _ h) hw
    · exact h
    · exact absurd (hb _ h) hw
  have h2 := mem_takeSign h1
  unfold parseFloat
  simp only
  generalize takeSign (strip s) = p at h2
  have hm : ':' ∈ p.2.map lowerChar := List.mem_map.2 ⟨':', h2, by decide⟩
  rw [if_neg, if_neg, parseDecimal_colon h2]
  · intro h; simp only [beq_iff_eq] at h; rw [h] at hm; revert hm; decide
  · intro h; simp only [Bool.or_eq_true, beq_iff_eq] at h
    rcases h with h | h <;> rw [h] at hm <;> revert hm <;> decide

theorem plain_value (f : Str) :
    (if (splitOn ':' f).length ≠ 1 then none else parseFloat ((splitOn ':' f).headD [])) = parseFloat f := by
  by_cases h : ':' ∈ f
  · rw [parseFloat_colon h]
    split_ifs with h1
    · rfl
    · exfalso
      push Not at h1
      obtain ⟨x, hx⟩ := List.length_eq_one_iff.1 h1
      have := join_splitOn ':' f
      have h3 := splitOn_parts ':' f
      rw [hx] at this h3
      simp only [joinWith] at this
      rw [this] at h3
      exact h3 f (by simp) h
  · rw [splitOn_of_not_mem h]; simp

theorem gaugeEffect_iff {msg k : Str} {d : PyFloat} :
    gaugeEffect msg = some (k, d) ↔ Reading c!"g" k msg d := by
  rw [reading_iff]
  unfold gaugeEffect gaugeEffectM
  cases hp : parseMessage msg with
  | none => simp
  | some m =>
    simp only
    have hpv := plain_value (m.fields.headD [])
    split_ifs with h h1
    · rw [if_pos h1] at hpv
      simp only [reduceCtorEq, false_iff, not_exists, not_and]
      intro m' hm _ _ hv; simp only [Option.some.injEq] at hm; subst hm; rw [← hpv] at hv; cases hv
    · rw [if_neg h1] at hpv
      rw [hpv]
      cases hv : parseFloat (m.fields.headD []) with
      | none =>
        simp only [Option.map_none, reduceCtorEq, false_iff, not_exists, not_and]
        intro m' hm _ _ hv'; simp only [Option.some.injEq] at hm; subst hm; rw [hv] at hv'; cases hv'
      | some v =>
        simp only [Option.map_some, Option.some.injEq, Prod.mk.injEq]
        constructor
        · rintro ⟨rfl, rfl⟩; exact ⟨m, rfl, h, rfl, hv⟩
        · rintro ⟨m', rfl, _, rfl, hv'⟩; rw [hv] at hv'; exact ⟨rfl, by simpa using hv'⟩
    · simp only [reduceCtorEq, false_iff, not_exists, not_and]
      intro m' hm ht; simp only [Option.some.injEq] at hm; subst hm; exact absurd ht h

theorem meterEffect_iff {msg k : Str} {d : PyFloat} :
    meterEffect msg = some (k, d) ↔ Reading c!"m" k msg d := by
  rw [reading_iff]
  unfold meterEffect meterEffectM
  cases hp : parseMessage msg with
  | none => simp
  | some m =>
    simp only
    have hpv := plain_value (m.fields.headD [])
    split_ifs with h h1
    · rw [if_pos h1] at hpv
      simp only [reduceCtorEq, false_iff, not_exists, not_and]
      intro m' hm _ _ hv; simp only [Option.some.injEq] at hm; subst hm; rw [← hpv] at hv; cases hv
    · rw [if_neg h1] at hpv
      rw [hpv]
      cases hv : parseFloat (m.fields.headD []) with
      | none =>
        simp only [Option.map_none, reduceCtorEq, false_iff, not_exists, not_and]
        intro m' hm _ _ hv'; simp only [Option.some.injEq] at hm; subst hm; rw [hv] at hv'; cases hv'
      | some v =>
        simp only [Option.map_some, Option.some.injEq, Prod.mk.injEq]
        constructor
        · rintro ⟨rfl, rfl⟩; exact ⟨m, rfl, h, rfl, hv⟩
        · rintro ⟨m', rfl, _, rfl, hv'⟩; rw [hv] at hv'; exact ⟨rfl, by simpa using hv'⟩
    · simp only [reduceCtorEq, false_iff, not_exists, not_and]
      intro m' hm ht; simp only [Option.some.injEq] at hm; subst hm; exact absurd ht h

theorem flush_gauges (ops : PluginOps PF PM) (w : World) (interval percent : ℤ) {s : MPState PF PM} (hs : MPWf ops s) :
    (flush (messageProcessor ops) w interval percent s).1.gauges = s.gauges := by
  rw [flush_mp ops w interval percent hs]
  obtain ⟨_, h2, _⟩ := flushForm_state (messageProcessor ops) w (Int.fdiv interval 1000)
    (truncQ (w.clk s.ticks))
    (runElems (fun _ _ => Num.int 0) (counterGroup (Int.fdiv interval 1000) (truncQ (w.clk s.ticks))) s.counters)
    (runElems (fun _ _ => []) (timerGroup percent (truncQ (w.clk s.ticks))) s.timers)
    (s.gauges.map fun p => [⟨c!"stats.gauge." ++ p.2 ++ c!".value", Num.flt p.1, truncQ (w.clk s.ticks)⟩])
    (meterRes (truncQ (w.clk s.ticks)) s.meters) s hs.shared (runElems_keys _ _ _)
  exact h2

/-- All gauge readings ever accepted are stored, in order. -/
theorem stored_gauges (ops : PluginOps PF PM) (plugins : List PF) (w : World) (os : List Op) :
    Collect (fun msg (p : PyFloat × Str) => Reading c!"g" p.2 msg p.1) (messages os)
      (runOps (messageProcessor ops) w (MPState.init ops plugins) os).1.gauges := by
  induction os using List.reverseRecOn with
  | nil => exact .nil
  | append_singleton os o ih =>
    have hwf := mpwf_runOps ops w (mpwf_init ops plugins) os
    rw [runOps_snoc]
    generalize runOps (messageProcessor ops) w (MPState.init ops plugins) os = c0 at ih hwf
    cases o with
    | msg m =>
      rw [messages_snoc_msg]
      simp only [Op.apply]
      rw [process_gauges]
      rcases he : gaugeEffect m with _ | ⟨k, x⟩
      · have := collect_append ih (.skip (P := fun msg (p : PyFloat × Str) => Reading c!"g" p.2 msg p.1) (msg := m) (fun v hv => by
          have := gaugeEffect_iff.2 hv; rw [he] at this; cases this) .nil)
        rw [List.append_nil] at this
        exact this
      · exact collect_append ih (.hit (gaugeEffect_iff.1 he) .nil)
    | flush i p =>
      rw [messages_snoc_flush]
      simp only [Op.apply]
      rw [flush_gauges ops w i p hwf]
      exact ih

theorem collect_split {α : Type} {P : Str → α → Prop} {a b : List Str} {vs : List α} (h : Collect P (a ++ b) vs) :
    ∃ x y, vs = x ++ y ∧ Collect P a x ∧ Collect P b y := by
  induction a generalizing vs with
  | nil => exact ⟨[], vs, rfl, .nil, h⟩
  | cons m ms ih =>
    cases h with
    | hit h1 h2 =>
      obtain ⟨x, y, rfl, hx, hy⟩ := ih h2
      exact ⟨_ :: x, y, rfl, .hit h1 hx, hy⟩
    | skip h1 h2 =>
      obtain ⟨x, y, rfl, hx, hy⟩ := ih h2
      exact ⟨x, y, rfl, .skip h1 hx, hy⟩

/-- A completed flush of the MessageProcessor, section by section. -/
theorem flush_complete (ops : PluginOps PF PM) (w : World) (interval percent : ℤ) {s : MPState PF PM} (hs : MPWf ops s)
    (hok : (flush (messageProcessor ops) w interval percent s).2.2 = none) :
    let ts := truncQ (w.clk s.ticks)
    let secs := Int.fdiv interval 1000
    let c := runElems (fun _ _ => Num.int 0) (counterGroup secs ts) s.counters
    let t := runElems (fun _ _ => []) (timerGroup percent ts) s.timers
    let m := meterRes ts s.meters
    c.2.2 = none ∧ t.2.2 = none ∧ m.2.2 = none ∧
    ∃ (gs : List (List Datapoint)) (acc : List PerMetric),
      gs.length = s.pluginMetrics.length ∧
      (∀ gr ∈ gs, ∀ d ∈ gr, PluginPoint ops w statsPrefix secs ts d) ∧
      (acc.map fun (p : PerMetric) => (p.1, p.2.1)) =
        [(c!"counter", c.2.1.length), (c!"timer", t.2.1.length), (c!"gauge", s.gauges.length), (c!"meter", m.2.1.length),
         (c!"plugin", gs.length)] ∧
      (flush (messageProcessor ops) w interval percent s).2.1 =
        c.2.1.flatten ++ t.2.1.flatten ++
        (s.gauges.map fun p => ⟨c!"stats.gauge." ++ p.2 ++ c!".value", Num.flt p.1, ts⟩) ++ m.2.1.flatten ++ gs.flatten ++
        (numStatsPoint (messageProcessor ops) acc ts :: (acc.flatMap (perMetricPoints (messageProcessor ops) ts) ++
         s.processTimings.flatMap fun p =>
          receivePoints (messageProcessor ops) ts p.1 ((s.byType.find p.1).getD 0) p.2)) := by
  intro ts secs c t m
  have hf := flush_mp ops w interval percent hs
  rw [hf] at hok ⊢
  obtain ⟨h1, h2, h3, gs, acc, h4, h5, h6, h7⟩ := flushForm_complete _ w secs ts c t _ m s hs.shared (runElems_keys _ _ _) hok hs.came
  refine ⟨h1, h2, h3, gs, acc, h4, h5, by simpa using h6, ?_⟩
  rw [h7]
  congr 4
  rw [← List.flatMap_def]
  clear * -
  induction s.gauges with
  | nil => rfl
  | cons p ps ih => rw [List.flatMap_cons, ih]; rfl


theorem timerGroup_prefix {percent ts : ℤ} {k : Str} {v : List PyFloat} {gr : List Datapoint}
    (h : timerGroup percent ts k v = .ok (some gr)) : ∀ d ∈ gr, c!"stats.timers." <+: d.name := by
  intro d hd
  simp only [timerGroup] at h
  by_cases hl : v.length > 0
  · rw [if_pos hl] at h
    cases hth : timerThreshold percent (sortFloats v) ((sortFloats v).headD (.fin 0))
      ((sortFloats v).getLastD (.fin 0)) with
    | error e => simp only [hth] at h; cases h
    | ok q =>
      obtain ⟨mean, tu⟩ := q
      simp only [hth, Except.ok.injEq, Option.some.injEq] at h
      subst h
      simp only [List.mem_cons, List.not_mem_nil, or_false] at hd
      rcases hd with rfl | rfl | rfl | rfl | rfl <;> simp only [List.append_assoc] <;> exact List.prefix_append _ _
  · rw [if_neg hl] at h; cases h

theorem meterGroup_prefix {ops : PluginOps PF PM} {ts : ℤ} {s : MPState PF PM} (hs : MPWf ops s) {gr : List Datapoint}
    (h : gr ∈ (meterRes ts s.meters).2.1) : ∀ d ∈ gr, c!"stats.meter." <+: d.name := by
  intro d hd
  obtain ⟨⟨k, m⟩, hp, hgr⟩ := runElems_groups _ _ _ gr h
  cases hr : (m.report ts).2 with
  | error e => simp [hr, Except.map] at hgr
  | ok l =>
    simp only [hr, Except.map, Except.ok.injEq, Option.some.injEq] at hgr
    subst hgr
    obtain ⟨h1, h2⟩ := meter_report_points hr d hd
    obtain ⟨e1, e2⟩ := hs.meterPre _ hp
    rcases h2 with h2 | h2 <;> rw [h2, e1, List.append_assoc] <;> exact List.prefix_append _ _

theorem summary_prefix (ops : PluginOps PF PM) (acc : List PerMetric) (ts : ℤ) (s : MPState PF PM) :
    ∀ d ∈ numStatsPoint (messageProcessor ops) acc ts ::
      (acc.flatMap (perMetricPoints (messageProcessor ops) ts) ++
         s.processTimings.flatMap fun p => receivePoints (messageProcessor ops) ts p.1
          ((s.byType.find p.1).getD 0) p.2), c!"statsd." <+: d.name := by
  intro d hd
  simp only [List.mem_cons, List.mem_append, List.mem_flatMap, perMetricPoints, receivePoints, numStatsPoint,
    List.not_mem_nil, or_false] at hd
  rcases hd with rfl | ⟨p, _, rfl | rfl⟩ | ⟨p, _, rfl | rfl⟩ <;>
    simp only [messageProcessor, List.append_assoc] <;> exact List.prefix_append _ _

/-- The name of a gauge datapoint. -/
def gaugeName (key : Str) : Str := c!"stats.gauge." ++ key ++ c!".value"

theorem named_gauge (ops : PluginOps PF PM) (hq : Quiet ops c!"stats.gauge.") (plugins : List PF) (w : World)
    (os : List Op) (interval percent : ℤ) (key : Str) (vs : List PyFloat)
    (hvs : Collect (Reading c!"g" key) (messages os) vs) :
    let s := (runOps (messageProcessor ops) w (MPState.init ops plugins) os).1
    let r := flush (messageProcessor ops) w interval percent s
    r.2.2 = none →
    ∃ pre, named (gaugeName key) r.2.1 = pre ++ vs.map (fun v => ⟨gaugeName key, .flt v, truncQ (w.clk s.ticks)⟩) ∧
      ((c!"gauge." ++ key ++ c!".value") ∉ s.counters.keys → pre = []) := by
  intro s r hok
  have hwf : MPWf ops s := mpwf_runOps ops w (mpwf_init ops plugins) os
  have hst : Collect (fun msg (p : PyFloat × Str) => Reading c!"g" p.2 msg p.1) (messages os) s.gauges :=
    stored_gauges ops plugins w os
  have hvs' : (s.gauges.filter fun p => decide (p.2 = key)).map Prod.fst = vs := by
    refine collect_unique (P := Reading c!"g" key) (fun _ _ _ h h' => reading_unique h h') (msgs := messages os) ?_ hvs
    clear * - hst
    revert hst
    generalize messages os = ms
    generalize s.gauges = gs
    intro hst
    induction hst with
    | nil => exact .nil
    | @hit msg msgs v vs h _ ih =>
      by_cases hk : v.2 = key
      · simp only [List.filter_cons, hk, decide_true, if_true, List.map_cons]
        exact .hit (by rw [← hk]; exact h) ih
      · simp only [List.filter_cons, hk, decide_false, Bool.false_eq_true, if_false]
        refine .skip (fun v' hv' => hk ?_) ih
        obtain ⟨m, hp, _, hk1, _⟩ := reading_iff.1 h
        obtain ⟨m', hp', _, hk2, _⟩ := reading_iff.1 hv'
        rw [hp] at hp'; simp only [Option.some.injEq] at hp'; subst hp'
        rw [← hk1, hk2]
    | @skip msg msgs vs h _ ih => exact .skip (fun v hv => h (v, key) hv) ih
  obtain ⟨_, _, _, gs, acc, _, hgs, _, hout⟩ := flush_complete ops w interval percent hwf hok
  obtain ⟨cc, tt, gg, mm, pp, su, he, hcc, hcn, ht, hg, hm, hpp, _, hsu⟩ := flush_sections ops w interval percent hwf
  have hname : ∀ a b : Str, c!"stats.gauge." ++ a ++ c!".value" = c!"stats.gauge." ++ b ++ c!".value" → a = b := by
    intro a b h
    have := List.append_cancel_right h
    exact List.append_cancel_left this
  have e0 : (c!"gauge." ++ key ++ c!".value") ∉ s.counters.keys →
      named (gaugeName key) (runElems (fun _ _ => Num.int 0) (counterGroup (Int.fdiv interval 1000)
      (truncQ (w.clk s.ticks))) s.counters).2.1.flatten = [] := by
    intro hnc
    rw [← hcc]
    unfold named; rw [List.filter_eq_nil_iff]
    intro d hd hn
    obtain ⟨_, k, hk, h⟩ := hcn d hd
    have hn : d.name = gaugeName key := by simpa using hn
    rw [hn] at h
    rcases h with h | h
    · have : c!"gauge." ++ key ++ c!".value" = k := by
        have : c!"stats." ++ (c!"gauge." ++ key ++ c!".value") = c!"stats." ++ k := by
          rw [← h]; simp [gaugeName]
        exact List.append_cancel_left this
      rw [this] at hnc; exact hnc hk
    · simp [gaugeName] at h
  have hpre : ∀ (l : List Datapoint) (p : Str), (∀ d ∈ l, p <+: d.name) → ¬ (p <+: gaugeName key) → named (gaugeName key) l = [] := by
    intro l p h hp
    unfold named; rw [List.filter_eq_nil_iff]
    intro d hd hn
    have hn : d.name = gaugeName key := by simpa using hn
    exact hp (hn ▸ h d hd)
  have e1 : named (gaugeName key) (runElems (fun _ _ => []) (timerGroup percent (truncQ (w.clk s.ticks))) s.timers).2.1.flatten = [] := by
    refine hpre _ c!"stats.timers." ?_ (by simp [gaugeName, List.cons_prefix_cons])
    intro d hd
    obtain ⟨gr, hgr, hd⟩ := List.mem_flatten.1 hd
    obtain ⟨⟨k, v⟩, hp, hgr⟩ := runElems_groups _ _ _ gr hgr
    exact timerGroup_prefix hgr d hd
  have e3 : named (gaugeName key) (meterRes (truncQ (w.clk s.ticks)) s.meters).2.1.flatten = [] := by
    refine hpre _ c!"stats.meter." ?_ (by simp [gaugeName, List.cons_prefix_cons])
    intro d hd
    obtain ⟨gr, hgr, hd⟩ := List.mem_flatten.1 hd
    exact meterGroup_prefix hwf hgr d hd
  have e4 : named (gaugeName key) gs.flatten = [] := by
    unfold named; rw [List.filter_eq_nil_iff]
    intro d hd hn
    have hn : d.name = gaugeName key := by simpa using hn
    obtain ⟨gr, hgr, hd⟩ := List.mem_flatten.1 hd
    obtain ⟨t, k, m, l, h0, h, hd⟩ := hgs gr hgr d hd
    apply hq _ _ h0 _ _ _ _ _ h d hd
    rw [hn]; exact ⟨key ++ c!".value", by simp [gaugeName]⟩
  have e5 : named (gaugeName key) (numStatsPoint (messageProcessor ops) acc (truncQ (w.clk s.ticks)) ::
      (acc.flatMap (perMetricPoints (messageProcessor ops) (truncQ (w.clk s.ticks))) ++
         s.processTimings.flatMap fun p => receivePoints (messageProcessor ops) (truncQ (w.clk s.ticks)) p.1
          ((s.byType.find p.1).getD 0) p.2)) = [] := by
    refine hpre _ c!"statsd." (summary_prefix ops _ _ _) (by simp [gaugeName, List.cons_prefix_cons])
  have hr : r = flush (messageProcessor ops) w interval percent s := rfl
  refine ⟨_, ?_, e0⟩
  rw [hr, hout]
  unfold named at e1 e3 e4 e5 ⊢
  simp only [List.filter_append, e1, e3, e4, e5, List.append_nil]
  congr 1
  rw [← hvs']
  clear * - hname
  induction s.gauges with
  | nil => rfl
  | cons p ps ih =>
    by_cases hk : p.2 = key
    · simp only [List.map_cons, List.filter_cons, hk, decide_true, if_true, gaugeName] at ih ⊢
      rw [ih]
    · have : ¬ (c!"stats.gauge." ++ p.2 ++ c!".value" = gaugeName key) := fun h => hk (hname _ _ h)
      simp only [List.map_cons, List.filter_cons, hk, decide_false, Bool.false_eq_true, if_false, this] at ih ⊢
      exact ih

end
end Txstatsd
