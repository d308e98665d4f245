import Verif.Lemmas.Wf

set_option linter.unusedSectionVars false
set_option linter.unusedSimpArgs false
set_option linter.unusedVariables false

namespace Txstatsd
section
variable [Rounding] {C T G PF PM : Type}

/-- The groups yielded by a visit of a dict come from its entries. -/
theorem runElems_groups {V : Type} (f : Str → V → V) (g : Str → V → VisitResult) (d : Dict V) :
    ∀ gr ∈ (runElems f g d).2.1, ∃ p ∈ d, g p.1 p.2 = .ok (some gr) := by
  induction d with
  | nil => simp [runElems]
  | cons q rest ih =>
    obtain ⟨k, v⟩ := q
    rw [runElems]
    cases hg : g k v with
    | error e => simp
    | ok o =>
      intro gr hgr
      simp only [List.mem_append, Option.mem_toList] at hgr
      rcases hgr with h | h
      · exact ⟨(k, v), by simp, by rw [hg]; simp_all⟩
      · obtain ⟨p, hp, e⟩ := ih gr h
        exact ⟨p, by simp [hp], e⟩

/-- The summary's datapoints. -/
theorem summary_points (I : Impl C T G PF PM) (ts : ℤ) (acc : List PerMetric) {s : PS C T G PF PM}
    (hs : Shared s) : ∀ d ∈ (runSummary I ts acc s).2.1, d.ts = ts ∧ I.internalPrefix <+: d.name := by
  rw [runSummary_ok I ts acc hs]
  intro d hd
  simp only [List.mem_cons, List.mem_append, List.mem_flatMap] at hd
  rcases hd with rfl | ⟨p, _, hd⟩ | ⟨p, _, hd⟩
  · exact ⟨rfl, by simp [numStatsPoint]⟩
  · simp only [perMetricPoints, List.mem_cons, List.not_mem_nil, or_false] at hd
    rcases hd with rfl | rfl
    · exact ⟨rfl, by simp [List.append_assoc]⟩
    · exact ⟨rfl, by simp [List.append_assoc]⟩
  · simp only [receivePoints, List.mem_cons, List.not_mem_nil, or_false] at hd
    rcases hd with rfl | rfl
    · exact ⟨rfl, by simp [List.append_assoc]⟩
    · exact ⟨rfl, by simp [List.append_assoc]⟩

/-- The output of a flush in sections; the later ones are cut short by an exception. -/
theorem flushForm_sections (I : Impl C T G PF PM) (w : World) (secs ts : ℤ) (c : PhaseRes C) (t : PhaseRes T)
    (g : List (List Datapoint)) (m : PhaseRes Meter) (s : PS C T G PF PM) (hs : Shared s)
    (hm : Dict.keys m.1 = s.meters.keys) (hc : ∀ p ∈ s.pluginMetrics, Came I.ops I.messagePrefix p.1 p.2) :
    ∃ tt gg mm pp su, (flushForm I w secs ts c t g m s).2.1 =
        c.2.1.flatten ++ tt ++ gg ++ mm ++ pp ++ su ∧
      (tt = [] ∨ tt = t.2.1.flatten) ∧ (gg = [] ∨ gg = g.flatten) ∧ (mm = [] ∨ mm = m.2.1.flatten) ∧
      (∀ d ∈ pp, PluginPoint I.ops w I.messagePrefix secs ts d) ∧
      (s.pluginMetrics = [] → pp = []) ∧
      (∀ d ∈ su, d.ts = ts ∧ I.internalPrefix <+: d.name) := by
  unfold flushForm
  cases h0 : c.2.2 with
  | some e => exact ⟨[], [], [], [], [], by simp⟩
  | none =>
    cases h1 : t.2.2 with
    | some e => exact ⟨t.2.1.flatten, [], [], [], [], by simp⟩
    | none =>
      cases h3 : m.2.2 with
      | some e => exact ⟨t.2.1.flatten, g.flatten, m.2.1.flatten, [], [], by simp⟩
      | none =>
        simp only
        obtain ⟨tk, pm, gs, e, he, hk, _, hgr, hcm⟩ := plugin_phase I w secs ts
          { s with ticks := s.ticks + 10, counters := c.1, timers := t.1, meters := m.1 } hs.pluginMetrics
        simp only at he hk
        have hp0 : s.pluginMetrics = [] → gs = [] := by
          intro h; rw [h] at he; simp [runVisits] at he; exact he.2.1
        have hgr' : ∀ d ∈ gs.flatten, PluginPoint I.ops w I.messagePrefix secs ts d := by
          intro d hd
          obtain ⟨gr, h1, h2⟩ := List.mem_flatten.1 hd
          obtain ⟨t, k, m, h4, h3⟩ := (hcm _ hc).2 gr h1
          exact ⟨t, k, m, gr, h4, h3, h2⟩
        rw [he]
        have hmw : Dict.Wf m.1 := by unfold Dict.Wf; rw [hm]; exact hs.meters
        have hpw : Dict.Wf pm := by unfold Dict.Wf; rw [hk]; exact hs.pluginMetrics
        cases e with
        | some e =>
          refine ⟨t.2.1.flatten, g.flatten, m.2.1.flatten, gs.flatten, [], by simp, by simp, by simp, by simp, hgr', ?_, by simp⟩
          intro h; rw [hp0 h]; rfl
        | none =>
          simp only
          have hs6 : Shared { s with ticks := tk + 1, counters := c.1, timers := t.1, meters := m.1, pluginMetrics := pm } :=
            ⟨hmw, hpw, hs.3, hs.4, hs.5⟩
          refine ⟨t.2.1.flatten, g.flatten, m.2.1.flatten, gs.flatten, _, rfl, by simp, by simp, by simp, hgr', ?_, ?_⟩
          · intro h; rw [hp0 h]; rfl
          · exact summary_points I ts _ hs6

end

section
variable [Rounding] {PF PM : Type}

theorem meter_report_points {m : Meter} {ts : ℤ} {l : List Datapoint} (h : (m.report ts).2 = .ok l) :
    ∀ d ∈ l, d.ts = ts ∧ (d.name = m.pre ++ m.name ++ c!".count" ∨ d.name = m.pre ++ m.name ++ c!".rate") := by
  unfold Meter.report at h
  simp only at h
  split_ifs at h with h1
  · simp only [Except.ok.injEq] at h; subst h; simp
  · cases hd : m.value.toFloat.div (rnd ((ts : ℚ) - m.pollTime)) with
    | error e => simp [hd] at h
    | ok r =>
      simp only [hd, Except.ok.injEq] at h; subst h
      intro d hd'
      simp only [List.mem_cons, List.not_mem_nil, or_false] at hd'
      rcases hd' with rfl | rfl <;> simp

/-- Sections of a flush of the MessageProcessor with the names in each. -/
theorem flush_sections (ops : PluginOps PF PM) (w : World) (interval percent : ℤ) {s : MPState PF PM}
    (hs : MPWf ops s) :
    let ts := truncQ (w.clk s.ticks)
    ∃ cc tt gg mm pp su, (flush (messageProcessor ops) w interval percent s).2.1 =
        cc ++ tt ++ gg ++ mm ++ pp ++ su ∧
      cc = (runElems (fun _ _ => Num.int 0) (counterGroup (Int.fdiv interval 1000) ts) s.counters).2.1.flatten ∧
      (∀ d ∈ cc, d.ts = ts ∧ ∃ k ∈ s.counters.keys, d.name = c!"stats." ++ k ∨ d.name = c!"stats_counts." ++ k) ∧
      (∀ d ∈ tt, d.ts = ts ∧ ∃ k ∈ s.timers.keys, c!"stats.timers." ++ k <+: d.name) ∧
      (∀ d ∈ gg, d.ts = ts ∧ ∃ p ∈ s.gauges, d.name = c!"stats.gauge." ++ p.2 ++ c!".value") ∧
      (∀ d ∈ mm, d.ts = ts ∧ ∃ k ∈ s.meters.keys, c!"stats.meter." ++ k <+: d.name) ∧
      (∀ d ∈ pp, PluginPoint ops w statsPrefix (Int.fdiv interval 1000) ts d) ∧
      (s.pluginMetrics = [] → pp = []) ∧
      (∀ d ∈ su, d.ts = ts ∧ c!"statsd." <+: d.name) := by
  intro ts
  rw [flush_mp ops w interval percent hs]
  obtain ⟨tt, gg, mm, pp, su, he, ht, hg, hm, hpp, hp, hsu⟩ := flushForm_sections (messageProcessor ops) w
    (Int.fdiv interval 1000) ts
    (runElems (fun _ _ => Num.int 0) (counterGroup (Int.fdiv interval 1000) ts) s.counters)
    (runElems (fun _ _ => []) (timerGroup percent ts) s.timers)
    (s.gauges.map fun p => [⟨c!"stats.gauge." ++ p.2 ++ c!".value", Num.flt p.1, ts⟩])
    (meterRes ts s.meters) s hs.shared (runElems_keys _ _ _) hs.came
  refine ⟨_, tt, gg, mm, pp, su, he, rfl, ?_, ?_, ?_, ?_, hpp, hp, hsu⟩
  · intro d hd
    obtain ⟨gr, hgr, hd⟩ := List.mem_flatten.1 hd
    obtain ⟨⟨k, v⟩, hp, hgr⟩ := runElems_groups _ _ _ gr hgr
    simp only [counterGroup] at hgr
    cases hdiv : v.divInt (Int.fdiv interval 1000) with
    | error e => simp [hdiv] at hgr
    | ok q =>
      simp only [hdiv, Except.ok.injEq, Option.some.injEq] at hgr
      subst hgr
      simp only [List.mem_cons, List.not_mem_nil, or_false] at hd
      rcases hd with rfl | rfl
      · exact ⟨rfl, k, Dict.mem_keys_of_mem hp, Or.inl rfl⟩
      · exact ⟨rfl, k, Dict.mem_keys_of_mem hp, Or.inr rfl⟩
  · rcases ht with rfl | rfl
    · simp
    · intro d hd
      obtain ⟨gr, hgr, hd⟩ := List.mem_flatten.1 hd
      obtain ⟨⟨k, v⟩, hp, hgr⟩ := runElems_groups _ _ _ gr hgr
      simp only [timerGroup] at hgr
      by_cases hl : v.length > 0
      · rw [if_pos hl] at hgr
        cases hth : timerThreshold percent (sortFloats v) ((sortFloats v).headD (.fin 0))
          ((sortFloats v).getLastD (.fin 0)) with
        | error e => simp only [hth] at hgr; cases hgr
        | ok q =>
          obtain ⟨mean, tu⟩ := q
          simp only [hth, Except.ok.injEq, Option.some.injEq] at hgr
          subst hgr
          refine ⟨?_, k, Dict.mem_keys_of_mem hp, ?_⟩
          · simp only [List.mem_cons, List.not_mem_nil, or_false] at hd
            rcases hd with rfl | rfl | rfl | rfl | rfl <;> rfl
          · simp only [List.mem_cons, List.not_mem_nil, or_false] at hd
            rcases hd with rfl | rfl | rfl | rfl | rfl <;> simp only [List.append_assoc] <;>
              exact ⟨_, List.append_assoc _ _ _⟩
      · rw [if_neg hl] at hgr; cases hgr
  · rcases hg with rfl | rfl
    · simp
    · intro d hd
      simp only [List.mem_flatten, List.mem_map] at hd
      obtain ⟨gr, ⟨p, hp, rfl⟩, hd⟩ := hd
      simp only [List.mem_singleton] at hd; subst hd
      exact ⟨rfl, p, hp, rfl⟩
  · rcases hm with rfl | rfl
    · simp
    · intro d hd
      obtain ⟨gr, hgr, hd⟩ := List.mem_flatten.1 hd
      obtain ⟨⟨k, m⟩, hp, hgr⟩ := runElems_groups _ _ _ gr hgr
      cases hr : (m.report ts).2 with
      | error e => simp [hr, Except.map] at hgr
      | ok l =>
        simp only [hr, Except.map, Except.ok.injEq, Option.some.injEq] at hgr
        subst hgr
        obtain ⟨h1, h2⟩ := meter_report_points hr d hd
        obtain ⟨e1, e2⟩ := hs.meterPre _ hp
        refine ⟨h1, k, Dict.mem_keys_of_mem hp, ?_⟩
        rcases h2 with h2 | h2 <;> rw [h2, e1, e2] <;> exact List.prefix_append _ _

end
end Txstatsd
