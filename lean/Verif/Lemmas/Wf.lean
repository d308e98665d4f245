import Verif.Lemmas.FlushShape

set_option linter.unusedSectionVars false
set_option linter.unusedSimpArgs false
set_option linter.unusedVariables false

namespace Txstatsd
section
variable [Rounding] {C T G PF PM : Type}

/-- Two states agree on everything the counter, timer and gauge handlers must not touch. -/
structure SameRest (s s' : PS C T G PF PM) : Prop where
  processTimings : s'.processTimings = s.processTimings
  byType : s'.byType = s.byType
  lastFlush : s'.lastFlush = s.lastFlush
  lastProcess : s'.lastProcess = s.lastProcess
  meters : s'.meters = s.meters
  plugins : s'.plugins = s.plugins
  pluginMetrics : s'.pluginMetrics = s.pluginMetrics

theorem SameRest.refl (s : PS C T G PF PM) : SameRest s s := ⟨rfl, rfl, rfl, rfl, rfl, rfl, rfl⟩

/-- The class-specific handlers only touch counters, timers and gauges. -/
structure Impl.Local (I : Impl C T G PF PM) : Prop where
  counter : ∀ w s k f m, SameRest s (I.processCounter w s k f m).1
  timer : ∀ w s k d, SameRest s (I.composeTimer w s k d)
  gauge : ∀ s k v, SameRest s (I.composeGauge s k v)

/-- Dict well-formedness of the parts shared by all processors, and the receive bookkeeping. -/
structure Shared (s : PS C T G PF PM) : Prop where
  meters : Dict.Wf s.meters
  pluginMetrics : Dict.Wf s.pluginMetrics
  processTimings : Dict.Wf s.processTimings
  byType : Dict.Wf s.byType
  recv : s.byType.keys = s.processTimings.keys

theorem Shared.of_same {s s' : PS C T G PF PM} (h : SameRest s s') (hs : Shared s) : Shared s' where
  meters := by rw [h.meters]; exact hs.meters
  pluginMetrics := by rw [h.pluginMetrics]; exact hs.pluginMetrics
  processTimings := by rw [h.processTimings]; exact hs.processTimings
  byType := by rw [h.byType]; exact hs.byType
  recv := by rw [h.byType, h.processTimings]; exact hs.recv

theorem shared_account (w : World) (t : Str) (st : ℚ) {s : PS C T G PF PM} (hs : Shared s) :
    Shared (account w s t st) where
  meters := hs.meters
  pluginMetrics := hs.pluginMetrics
  processTimings := Dict.wf_put hs.processTimings _ _
  byType := Dict.wf_put hs.byType _ _
  recv := by simp only [account, Dict.keys_put, hs.recv]

theorem shared_finish (w : World) (t : Str) (st : ℚ) {r : PS C T G PF PM × Outcome} (hs : Shared r.1) :
    Shared (finish w t st r).1 := by
  unfold finish; split
  · exact shared_account _ _ _ hs
  · exact hs

theorem dispatch_recv {I : Impl C T G PF PM} (hI : I.Local) (w : World) {s : PS C T G PF PM} {msg : Str}
    {m : Metric} {r : PS C T G PF PM × Outcome} (h : dispatch I w s msg m = some r) :
    r.1.processTimings = s.processTimings ∧ r.1.byType = s.byType ∧ r.1.plugins = s.plugins ∧
    r.1.lastFlush = s.lastFlush ∧ r.1.lastProcess = s.lastProcess := by
  unfold dispatch at h
  split_ifs at h
  · simp only [Option.some.injEq] at h; subst h
    have := hI.counter w s m.key m.fields msg
    exact ⟨this.processTimings, this.byType, this.plugins, this.lastFlush, this.lastProcess⟩
  · simp only [Option.some.injEq] at h; subst h
    unfold processTimer; split
    · exact ⟨rfl, rfl, rfl, rfl, rfl⟩
    · have := hI.timer w s m.key ‹_›
      exact ⟨this.processTimings, this.byType, this.plugins, this.lastFlush, this.lastProcess⟩
  · simp only [Option.some.injEq] at h; subst h
    unfold processGauge; simp only; split_ifs
    · exact ⟨rfl, rfl, rfl, rfl, rfl⟩
    · split
      · exact ⟨rfl, rfl, rfl, rfl, rfl⟩
      · have := hI.gauge s m.key ‹_›
        exact ⟨this.processTimings, this.byType, this.plugins, this.lastFlush, this.lastProcess⟩
  · simp only [Option.some.injEq] at h; subst h
    unfold processMeter composeMeter; simp only; split_ifs
    · exact ⟨rfl, rfl, rfl, rfl, rfl⟩
    · split
      · exact ⟨rfl, rfl, rfl, rfl, rfl⟩
      · split <;> exact ⟨rfl, rfl, rfl, rfl, rfl⟩
  · cases hf : s.plugins.find m.mtype with
    | none => simp [hf] at h
    | some f =>
      simp only [hf, Option.some.injEq] at h; subst h
      unfold processPlugin; simp only
      split <;> split <;> exact ⟨rfl, rfl, rfl, rfl, rfl⟩

theorem shared_dispatch {I : Impl C T G PF PM} (hI : I.Local) (w : World) {s : PS C T G PF PM} {msg : Str}
    {m : Metric} {r : PS C T G PF PM × Outcome} (h : dispatch I w s msg m = some r) (hs : Shared s) :
    Shared r.1 := by
  unfold dispatch at h
  split_ifs at h
  · simp only [Option.some.injEq] at h; subst h
    exact hs.of_same (hI.counter w s m.key m.fields msg)
  · simp only [Option.some.injEq] at h; subst h
    unfold processTimer; split
    · exact hs
    · exact hs.of_same (hI.timer w s m.key ‹_›)
  · simp only [Option.some.injEq] at h; subst h
    unfold processGauge; simp only; split_ifs
    · exact hs
    · split
      · exact hs
      · exact hs.of_same (hI.gauge s m.key ‹_›)
  · simp only [Option.some.injEq] at h; subst h
    unfold processMeter composeMeter; simp only; split_ifs
    · exact hs
    · split
      · exact hs
      · split <;>
        exact { meters := Dict.wf_put hs.meters _ _, pluginMetrics := hs.pluginMetrics,
                processTimings := hs.processTimings, byType := hs.byType, recv := hs.recv }
  · cases hf : s.plugins.find m.mtype with
    | none => simp [hf] at h
    | some f =>
      simp only [hf, Option.some.injEq] at h; subst h
      unfold processPlugin; simp only
      split <;> split <;>
      exact { meters := hs.meters,
              pluginMetrics := by first | exact hs.pluginMetrics | exact Dict.wf_put hs.pluginMetrics _ _ | exact Dict.wf_put (Dict.wf_put hs.pluginMetrics _ _) _ _,
              processTimings := hs.processTimings, byType := hs.byType, recv := hs.recv }

theorem shared_process {I : Impl C T G PF PM} (hI : I.Local) (w : World) {s : PS C T G PF PM} (msg : Str)
    (hs : Shared s) : Shared (process I w s msg).1 := by
  have hs' : Shared { s with ticks := s.ticks + 1 } := ⟨hs.1, hs.2, hs.3, hs.4, hs.5⟩
  unfold process processMessage
  cases parseMessage msg with
  | none => exact hs
  | some m =>
    simp only
    cases hd : dispatch I w { s with ticks := s.ticks + 1 } msg m with
    | none => exact hs'
    | some r => exact shared_finish _ _ _ (shared_dispatch hI w hd hs')

theorem came_dispatch {I : Impl C T G PF PM} (hI : I.Local) (w : World) {s : PS C T G PF PM} {msg : Str}
    {m : Metric} {r : PS C T G PF PM × Outcome} (h : dispatch I w s msg m = some r)
    (hs : ∀ p ∈ s.pluginMetrics, Came I.ops I.messagePrefix p.1 p.2) :
    ∀ p ∈ r.1.pluginMetrics, Came I.ops I.messagePrefix p.1 p.2 := by
  unfold dispatch at h
  split_ifs at h
  · simp only [Option.some.injEq] at h; subst h
    rw [(hI.counter w s m.key m.fields msg).pluginMetrics]; exact hs
  · simp only [Option.some.injEq] at h; subst h
    unfold processTimer; split
    · exact hs
    · show ∀ p ∈ (I.composeTimer w s m.key _).pluginMetrics, _
      rw [(hI.timer w s m.key _).pluginMetrics]; exact hs
  · simp only [Option.some.injEq] at h; subst h
    unfold processGauge; simp only; split_ifs
    · exact hs
    · split
      · exact hs
      · show ∀ p ∈ (I.composeGauge s m.key _).pluginMetrics, _
        rw [(hI.gauge s m.key _).pluginMetrics]; exact hs
  · simp only [Option.some.injEq] at h; subst h
    unfold processMeter composeMeter; simp only; split_ifs
    · exact hs
    · split
      · exact hs
      · split <;> exact hs
  · cases hf : s.plugins.find m.mtype with
    | none => simp [hf] at h
    | some f =>
      simp only [hf, Option.some.injEq] at h; subst h
      unfold processPlugin; simp only
      cases hk : s.pluginMetrics.find m.key with
      | some q =>
        simp only [hk]
        intro p hp
        rcases Dict.mem_put hp with rfl | hp
        · exact .processed _ _ _ (hs _ (Dict.mem_of_find hk))
        · exact hs p hp
      | none =>
        simp only [Dict.find_put_self]
        intro p hp
        rcases Dict.mem_put hp with rfl | hp
        · exact .processed _ _ _ (.built _ _ _)
        · rcases Dict.mem_put hp with rfl | hp
          · exact .built _ _ _
          · exact hs p hp

theorem came_process {I : Impl C T G PF PM} (hI : I.Local) (w : World) {s : PS C T G PF PM} (msg : Str)
    (hs : ∀ p ∈ s.pluginMetrics, Came I.ops I.messagePrefix p.1 p.2) :
    ∀ p ∈ (process I w s msg).1.pluginMetrics, Came I.ops I.messagePrefix p.1 p.2 := by
  unfold process processMessage
  cases parseMessage msg with
  | none => exact hs
  | some m =>
    simp only
    cases hd : dispatch I w { s with ticks := s.ticks + 1 } msg m with
    | none => exact hs
    | some r =>
      have h := came_dispatch hI w hd hs
      simp only [finish]
      split
      · exact h
      · exact h

/-! ## The summary -/

theorem runReceive_ok (I : Impl C T G PF PM) (ts : ℤ) (bt : Dict Nat) (d : Dict Num) (lp : Num)
    (h : ∀ k ∈ Dict.keys d, k ∈ bt.keys) :
    runReceive I ts bt d lp =
      (d.flatMap fun p => receivePoints I ts p.1 ((bt.find p.1).getD 0) p.2,
       d.foldl (fun (a : Num) p => a.add p.2) lp, none) := by
  induction d generalizing lp with
  | nil => rfl
  | cons p rest ih =>
    obtain ⟨t, x⟩ := p
    have h1 : t ∈ bt.keys := h t (by simp)
    rw [← Dict.find_isSome_iff, Option.isSome_iff_exists] at h1
    obtain ⟨n, hn⟩ := h1
    simp only [runReceive, hn]
    rw [ih _ (fun k hk => h k (by simp [hk]))]
    simp [hn]

/-- The summary never fails in a well-formed state. -/
theorem runSummary_ok (I : Impl C T G PF PM) (ts : ℤ) (acc : List PerMetric) {s : PS C T G PF PM}
    (hs : Shared s) :
    runSummary I ts acc s =
      ({ s with lastFlush := acc.foldl (fun (a : Num) (p : PerMetric) => a.add p.2.2) (.int 0),
                lastProcess := s.processTimings.foldl (fun (a : Num) p => a.add p.2) (.int 0),
                processTimings := [], byType := [] },
       numStatsPoint I acc ts :: (acc.flatMap (perMetricPoints I ts) ++
         s.processTimings.flatMap fun p => receivePoints I ts p.1 ((s.byType.find p.1).getD 0) p.2),
       none) := by
  unfold runSummary
  simp only
  rw [runReceive_ok I ts s.byType s.processTimings (.int 0) (by rw [hs.recv]; exact fun k hk => hk)]
  simp

theorem plugin_phase (I : Impl C T G PF PM) (w : World) (secs ts : ℤ) (s : PS C T G PF PM)
    (hd : Dict.Wf s.pluginMetrics) :
    ∃ tk pm gs e, runVisits (pluginVisit I w secs ts) (List.range s.pluginMetrics.length) s =
      ({ s with ticks := tk, pluginMetrics := pm }, gs, e) ∧ Dict.keys pm = s.pluginMetrics.keys ∧
      (e = none → gs.length = s.pluginMetrics.length) ∧
      (∀ gr ∈ gs, ∃ t m, (I.ops.flush w t m secs ts).2.2 = .ok gr) ∧
      ∀ pre : Str → Str, (∀ p ∈ s.pluginMetrics, Came I.ops pre p.1 p.2) → (∀ p ∈ pm, Came I.ops pre p.1 p.2) ∧
        ∀ gr ∈ gs, ∃ t k m, Came I.ops pre k m ∧ (I.ops.flush w t m secs ts).2.2 = .ok gr := by
  have := run_plugins_aux I w secs ts s.pluginMetrics.length 0 s hd (by simp)
  simpa [List.range_eq_range'] using this

/-- What a flush does to the shared parts, whatever happens. -/
theorem flushForm_state (I : Impl C T G PF PM) (w : World) (secs ts : ℤ) (c : PhaseRes C) (t : PhaseRes T)
    (g : List (List Datapoint)) (m : PhaseRes Meter) (s : PS C T G PF PM) (hs : Shared s)
    (hm : Dict.keys m.1 = s.meters.keys) :
    let r := flushForm I w secs ts c t g m s
    Shared r.1 ∧ r.1.gauges = s.gauges ∧ r.1.counters = c.1 ∧
      (r.1.timers = if c.2.2 = none then t.1 else s.timers) ∧ r.1.plugins = s.plugins ∧
      Dict.keys r.1.pluginMetrics = s.pluginMetrics.keys ∧
      (r.2.2 = none → c.2.2 = none ∧ t.2.2 = none ∧ m.2.2 = none ∧ r.1.meters = m.1 ∧
        r.1.processTimings = [] ∧ r.1.byType = []) := by
  have hmw : Dict.Wf m.1 := by unfold Dict.Wf; rw [hm]; exact hs.meters
  unfold flushForm
  cases h0 : c.2.2 with
  | some e => exact ⟨⟨hs.1, hs.2, hs.3, hs.4, hs.5⟩, rfl, rfl, by simp, rfl, rfl, by simp⟩
  | none =>
    cases h1 : t.2.2 with
    | some e => exact ⟨⟨hs.1, hs.2, hs.3, hs.4, hs.5⟩, rfl, rfl, by simp, rfl, rfl, by simp⟩
    | none =>
      cases h3 : m.2.2 with
      | some e => exact ⟨⟨hmw, hs.2, hs.3, hs.4, hs.5⟩, rfl, rfl, by simp, rfl, rfl, by simp⟩
      | none =>
        simp only
        obtain ⟨tk, pm, gs, e, he, hk, _⟩ := plugin_phase I w secs ts
          { s with ticks := s.ticks + 10, counters := c.1, timers := t.1, meters := m.1 } hs.pluginMetrics
        simp only at he hk
        rw [he]
        have hpw : Dict.Wf pm := by unfold Dict.Wf; rw [hk]; exact hs.pluginMetrics
        cases e with
        | some e => exact ⟨⟨hmw, hpw, hs.3, hs.4, hs.5⟩, rfl, rfl, by simp, rfl, hk, by simp⟩
        | none =>
          simp only
          have hs6 : Shared { s with ticks := tk + 1, counters := c.1, timers := t.1, meters := m.1, pluginMetrics := pm } :=
            ⟨hmw, hpw, hs.3, hs.4, hs.5⟩
          rw [runSummary_ok I ts _ hs6]
          exact ⟨⟨hmw, hpw, Dict.wf_nil, Dict.wf_nil, rfl⟩, rfl, rfl, by simp, rfl, hk, by simp⟩

theorem came_flushForm (I : Impl C T G PF PM) (w : World) (secs ts : ℤ) (c : PhaseRes C) (t : PhaseRes T)
    (g : List (List Datapoint)) (m : PhaseRes Meter) (s : PS C T G PF PM) (hs : Dict.Wf s.pluginMetrics) (pre : Str → Str)
    (hc : ∀ p ∈ s.pluginMetrics, Came I.ops pre p.1 p.2) :
    ∀ p ∈ (flushForm I w secs ts c t g m s).1.pluginMetrics, Came I.ops pre p.1 p.2 := by
  unfold flushForm
  split
  · exact hc
  · split
    · exact hc
    · split
      · exact hc
      · simp only
        obtain ⟨tk, pm, gs, e, he, hk, _, _, hcm⟩ := plugin_phase I w secs ts
          { s with ticks := s.ticks + 10, counters := c.1, timers := t.1, meters := m.1 } hs
        simp only at he hk
        rw [he]
        have h := (hcm pre hc).1
        cases e with
        | some e => exact h
        | none =>
          simp only [runSummary]
          split <;> exact h

end

section
variable [Rounding] {PF PM : Type}

theorem mp_local (ops : PluginOps PF PM) : (messageProcessor ops).Local where
  counter := by
    intro w s k f m
    simp only [messageProcessor, processCounter, composeCounter]
    repeat' (first | exact SameRest.refl _ | exact ⟨rfl, rfl, rfl, rfl, rfl, rfl, rfl⟩ | split)
  timer := fun _ _ _ _ => ⟨rfl, rfl, rfl, rfl, rfl, rfl, rfl⟩
  gauge := fun _ _ _ => ⟨rfl, rfl, rfl, rfl, rfl, rfl, rfl⟩

/-- The well-formed states of a MessageProcessor. -/
structure MPWf (ops : PluginOps PF PM) (s : MPState PF PM) : Prop where
  shared : Shared s
  counters : Dict.Wf s.counters
  timers : Dict.Wf s.timers
  meterPre : ∀ p ∈ s.meters, p.2.pre = c!"stats.meter." ∧ p.2.name = p.1
  came : ∀ p ∈ s.pluginMetrics, Came ops statsPrefix p.1 p.2

theorem mpwf_init (ops : PluginOps PF PM) (plugins : List PF) : MPWf ops (MPState.init ops plugins) where
  shared := ⟨Dict.wf_nil, Dict.wf_nil, Dict.wf_nil, Dict.wf_nil, rfl⟩
  counters := Dict.wf_nil
  timers := Dict.wf_nil
  meterPre := by simp [MPState.init]
  came := by simp [MPState.init]

theorem applyMeter_pre {now : ℚ} {d : Dict Meter} {e : Option (Str × PyFloat)}
    (h : ∀ p ∈ d, p.2.pre = c!"stats.meter." ∧ p.2.name = p.1) :
    ∀ p ∈ applyMeter c!"stats.meter" now d e, p.2.pre = c!"stats.meter." ∧ p.2.name = p.1 := by
  intro p hp
  cases e with
  | none => exact h p hp
  | some q =>
    obtain ⟨k, x⟩ := q
    simp only [applyMeter] at hp
    rcases Dict.mem_put hp with rfl | hp
    · cases hf : Dict.find d k with
      | none => simp [Meter.mark, Meter.init, dotted]
      | some m0 => simpa [Meter.mark] using h (k, m0) (Dict.mem_of_find hf)
    · exact h p hp

theorem applyCounter_wf {d : Dict Num} (h : Dict.Wf d) (e) : Dict.Wf (applyCounter d e) := by
  unfold applyCounter; split
  · exact h
  · split_ifs
    · exact h
    · exact Dict.wf_put h _ _
  · exact Dict.wf_put h _ _

theorem applyTimer_wf {d : Dict (List PyFloat)} (h : Dict.Wf d) (e) : Dict.Wf (applyTimer d e) := by
  unfold applyTimer; split
  · exact h
  · exact Dict.wf_put h _ _

theorem mpwf_process (ops : PluginOps PF PM) (w : World) {s : MPState PF PM} (hs : MPWf ops s) (msg : Str) :
    MPWf ops (process (messageProcessor ops) w s msg).1 where
  shared := shared_process (mp_local ops) w msg hs.shared
  counters := by rw [process_counters]; exact applyCounter_wf hs.counters _
  timers := by rw [process_timers]; exact applyTimer_wf hs.timers _
  meterPre := by rw [process_meters]; exact applyMeter_pre hs.meterPre
  came := came_process (mp_local ops) w msg hs.came

theorem mpwf_processAll (ops : PluginOps PF PM) (w : World) (msgs : List Str) {s : MPState PF PM}
    (hs : MPWf ops s) : MPWf ops (processAll (messageProcessor ops) w s msgs) := by
  induction msgs generalizing s with
  | nil => exact hs
  | cons m ms ih => exact ih (mpwf_process ops w hs m)

theorem meter_report_pre (m : Meter) (ts : ℤ) : (m.report ts).1.pre = m.pre ∧ (m.report ts).1.name = m.name := by
  unfold Meter.report; simp only; split_ifs
  · exact ⟨rfl, rfl⟩
  · split <;> exact ⟨rfl, rfl⟩

theorem runElems_forall {V : Type} (f : Str → V → V) (g : Str → V → VisitResult) (P : Str × V → Prop)
    (hf : ∀ k v, P (k, v) → P (k, f k v)) (d : Dict V) (h : ∀ p ∈ d, P p) :
    ∀ p ∈ (runElems f g d).1, P p := by
  induction d with
  | nil => simp [runElems]
  | cons q rest ih =>
    obtain ⟨k, v⟩ := q
    have hk := hf k v (h (k, v) (by simp))
    rw [runElems]
    cases g k v with
    | error e =>
      intro p hp; simp only [List.mem_cons] at hp
      rcases hp with rfl | hp
      · exact hk
      · exact h p (by simp [hp])
    | ok o =>
      intro p hp; simp only [List.mem_cons] at hp
      rcases hp with rfl | hp
      · exact hk
      · exact ih (fun q hq => h q (by simp [hq])) p hp

theorem flush_mp (ops : PluginOps PF PM) (w : World) (interval percent : ℤ) {s : MPState PF PM}
    (hs : MPWf ops s) :
    flush (messageProcessor ops) w interval percent s =
      flushForm (messageProcessor ops) w (Int.fdiv interval 1000) (truncQ (w.clk s.ticks))
        (runElems (fun _ _ => Num.int 0) (counterGroup (Int.fdiv interval 1000) (truncQ (w.clk s.ticks))) s.counters)
        (runElems (fun _ _ => []) (timerGroup percent (truncQ (w.clk s.ticks))) s.timers)
        (s.gauges.map fun p => [⟨c!"stats.gauge." ++ p.2 ++ c!".value", Num.flt p.1, truncQ (w.clk s.ticks)⟩])
        (meterRes (truncQ (w.clk s.ticks)) s.meters) s :=
  flush_eq_form _ w interval percent s hs.counters hs.timers hs.shared.meters (mpShape ops _ _ _)

end
end Txstatsd
