import Verif.Lemmas.Stamp
import Verif.Lemmas.Abort
import Verif.Lemmas.WatchTimerC
import Verif.Props.Schedules
import Verif.Props.Configurable

/-!
# Interleaved flushes: timers, freshness, timestamps, aborts: C102–C107
-/

namespace Txstatsd
open Spec
section
variable [Rounding] {PF PM : Type}

/-- C102: in every schedule, the accepted durations of a timer can be cut into consecutive blocks such that what was
emitted or is under way for the timer is exactly one summary of each block, made by one of the flushes, and the rest is
stored. -/
theorem C102_timers [Exact] (ops : PluginOps PF PM) (hq : Quiet ops c!"stats.timers.") (plugins : List PF) (w : World)
    (es : List Event) (hp : ∀ i p, Event.spawn i p ∈ es → 50 ≤ p ∧ p ≤ 100) (hn : NoCounter c!"timers." (arrivals es))
    (key : Str) :
    let v := (startUp (MPState.init ops plugins)).run (messageProcessor ops) w es
    ∃ (blocks : List (List PyFloat)) (last : List PyFloat) (groups : List (List Datapoint)),
      Collect (Reading c!"ms" key) (arrivals es) (blocks.flatten ++ last) ∧ (∀ b ∈ blocks, b ≠ []) ∧
      List.Forall₂ (fun b g => ∃ i p ts, Event.spawn i p ∈ es ∧ Summarises p ts key b g) blocks groups ∧
      ((v.out ++ underWay v.gens).filter (ofTimer key)).Perm groups.flatten ∧
      (v.ps.timers.find key).getD [] = last := by
  intro v
  have h0 : TimerWatch ops Summarises (fun _ => True) (fun i p => (50 ≤ p ∧ p ≤ 100) ∧ Event.spawn i p ∈ es) key
      (MPState.init ops plugins) [] [] :=
    ⟨mpwf_init ops plugins, fun _ _ => ⟨by intro k hk; simp [MPState.init] at hk,
      [], [], [], .nil, by simp, rfl, .nil, .refl _⟩⟩
  obtain ⟨_, h⟩ := watch_run (timer_watch (fun _ _ _ _ => trivial) ops hq w _ key
    (fun i p ts ds h _ _ => summary_exact h.1.1 h.1.2 ts key ds)) h0 es (fun i p h => ⟨hp i p h, h⟩)
  obtain ⟨_, b, l, gs, h1, h2, h3, h4, h5⟩ := h.2 hn trivial
  refine ⟨b, l, gs, h1, h2, ?_, h5, h3⟩
  exact h4.imp fun b g ⟨i, p, ts, ⟨_, hs⟩, hsum⟩ => ⟨i, p, ts, hs, hsum⟩

/-- C102: the reported counts, emitted or under way, and the number of stored durations add up to the number of accepted
durations, at every moment of every schedule. -/
theorem C102_counts [Exact] (ops : PluginOps PF PM) (hq : Quiet ops c!"stats.timers.") (plugins : List PF) (w : World)
    (es : List Event) (hp : ∀ i p, Event.spawn i p ∈ es → 50 ≤ p ∧ p ≤ 100) (hn : NoCounter c!"timers." (arrivals es))
    (key : Str) (vs : List PyFloat) (hv : Collect (Reading c!"ms" key) (arrivals es) vs) :
    let v := (startUp (MPState.init ops plugins)).run (messageProcessor ops) w es
    ((named (c!"stats.timers." ++ key ++ c!".count") v.out).map fun d => d.value.rat).sum +
      ((named (c!"stats.timers." ++ key ++ c!".count") (underWay v.gens)).map fun d => d.value.rat).sum +
      ((v.ps.timers.find key).getD []).length = vs.length := by
  intro v
  obtain ⟨b, l, gs, h1, hne, h2, h3, h4⟩ := C102_timers ops hq plugins w es hp hn key
  have e1 : vs = b.flatten ++ l := collect_unique (P := Reading c!"ms" key) (fun m a b h h' => reading_unique h h') hv h1
  have hs := counts_of_groups (h2.imp fun b g ⟨_, _, _, _, hs⟩ => shape_named hs.1 hs.2.2.1) h3
  unfold named at hs ⊢
  rw [List.filter_append, List.map_append, List.sum_append] at hs
  have h4' : (v.ps.timers.find key).getD [] = l := h4
  rw [e1, h4', List.length_append]
  push_cast
  rw [hs]

/-- C103: everything a flush of the configurable processor emits, in any schedule, is about the messages received up to
some moment between its start and now: the value of a counter or gauge is the latest one at that moment, and the total of
a meter is the total at that moment. -/
theorem C103_configurable (ops : PluginOps PF PM) (pre int : Str) (plugins : List PF) (w : World) (es es' : List Event)
    (i : Nat) (interval percent : ℤ) :
    let v := (startUp (CPState.init ops plugins)).run (configurable ops pre int) w es
    v.gens[i]? = some ⟨interval, percent, .fresh⟩ →
    ∀ d ∈ emits (configurable ops pre int) w i v es', ∃ es1 es2, es' = es1 ++ es2 ∧
      AboutC (ByPlugin ops w (CPState.init ops plugins).plugins (fun _ => pre) (arrivals es ++ arrivals es1)) pre
        (internalPrefixOf pre int) (arrivals es ++ arrivals es1) d := by
  intro v hg d hd
  have hinv := fresh_inv (fresh_conf ops pre int w (CPState.init ops plugins).plugins) (v := startUp (CPState.init ops plugins)) (ms := [])
    ⟨cpwf_init ops pre plugins, storedC_init ops pre plugins, meterStore_nil, lives_init ops w _ rfl⟩ es
  rw [List.nil_append] at hinv
  rcases fresh_emits (fresh_conf ops pre int w (CPState.init ops plugins).plugins) i es' v _ _ hinv hg d hd with h | h
  · simp [inFlight] at h
  · exact h

/-- C103: everything a flush of the default processor emits, in any schedule, is about the messages received up to some
moment between its start and now. -/
theorem C103_default (ops : PluginOps PF PM) (plugins : List PF) (w : World) (es es' : List Event)
    (i : Nat) (interval percent : ℤ) :
    let v := (startUp (MPState.init ops plugins)).run (messageProcessor ops) w es
    v.gens[i]? = some ⟨interval, percent, .fresh⟩ →
    ∀ d ∈ emits (messageProcessor ops) w i v es', ∃ es1 es2, es' = es1 ++ es2 ∧
      AboutD (ByPlugin ops w (MPState.init ops plugins).plugins statsPrefix (arrivals es ++ arrivals es1))
        (arrivals es ++ arrivals es1) d := by
  intro v hg d hd
  have hinv := fresh_inv (fresh_default ops w (MPState.init ops plugins).plugins) (v := startUp (MPState.init ops plugins)) (ms := [])
    ⟨mpwf_init ops plugins, originD_init ops plugins, meterStore_nil, lives_init ops w _ rfl⟩ es
  rw [List.nil_append] at hinv
  rcases fresh_emits (fresh_default ops w (MPState.init ops plugins).plugins) i es' v _ _ hinv hg d hd with h | h
  · simp [inFlight] at h
  · exact h

/-- C104: in every schedule, the accepted durations of a timer of the configurable processor and the reports asked of it
by the flushes make up one history; what was emitted or is under way for the timer is exactly the reports of that
history, and the stored timer is what the history leads to. (The key is not used for a counter or a meter as well, and
its durations are finite.) -/
theorem C104_timers [Exact] (ops : PluginOps PF PM) (pre int : Str) (plugins : List PF) (w : World) (key : Str)
    (hq : OthersQuiet ops w (CPState.init ops plugins).plugins (fun _ => pre) key (ofTimerC pre key))
    (hself : ∀ s, (c!"ms", s) ∈ suffixes → ¬ internalPrefixOf pre int <+: prefixed pre key s)
    (es : List Event) (hc : ¬ Received c!"c" key (arrivals es)) (hm : ¬ Received c!"m" key (arrivals es))
    (hnp : pluginMsgs (CPState.init ops plugins).plugins key (arrivals es) = [])
    (hf : ∀ m ∈ arrivals es, ∀ v, Reading c!"ms" key m v → ∃ q, v = .fin q) :
    let v := (startUp (CPState.init ops plugins)).run (configurable ops pre int) w es
    let pts := (v.out ++ underWay v.gens).filter (ofTimerC pre key)
    (v.ps.timers.find key = none ∧ ¬ Received c!"ms" key (arrivals es) ∧ pts = []) ∨
    ∃ start h t gs, v.ps.timers.find key = some t ∧ TimerRun (TimerRep.init key pre start) h t ∧
      Collect (Reading c!"ms" key) (arrivals es) ((durations h).map PyFloat.fin) ∧
      TimerReports pre key start h gs ∧ pts.Perm gs.flatten := by
  intro v pts
  have h0 : TimerWatchC ops w (CPState.init ops plugins).plugins (fun start h ts g => TimerReport pre key (period h) (durations h).length (ts - periodStart start h) ts g)
      pre key (CPState.init ops plugins) [] [] :=
    ⟨cpwf_init ops pre plugins, storedC_init ops pre plugins, lives_init ops w _ rfl, fun _ _ _ _ => Or.inl ⟨rfl, by rintro ⟨m, hm, _⟩; simp at hm, rfl⟩⟩
  obtain ⟨_, h⟩ := watch_run (timer_watchC ops pre int w hq hself (fun _ _ => True)
    fun start h t ts hr _ => timerInv_report_ok (timerInv_run hr) ts) h0 es (fun _ _ _ => trivial)
  rcases h.2.2.2 hc hm hnp hf with h | ⟨st, hh, t, gs, h1, h2, h3, h4, h5⟩
  · exact Or.inl h
  · exact Or.inr ⟨st, hh, t, gs, h1, h2, h4, h3, h5⟩

/-- C105: in any schedule, all datapoints of one flush of the default processor (but for those of plugins) carry the same
timestamp: the whole seconds of the time at which the flush was first advanced. -/
theorem C105_default (ops : PluginOps PF PM) (plugins : List PF) (w : World) (es es' : List Event)
    (i : Nat) (interval percent : ℤ) :
    let v := (startUp (MPState.init ops plugins)).run (messageProcessor ops) w es
    v.gens[i]? = some ⟨interval, percent, .fresh⟩ →
    emits (messageProcessor ops) w i v es' = [] ∨ ∃ es1 es2, es' = es1 ++ .advance i :: es2 ∧ Event.advance i ∉ es1 ∧
      ∀ d ∈ emits (messageProcessor ops) w i v es',
        d.ts = truncQ (w.clk (v.run (messageProcessor ops) w es1).ps.ticks) ∨
        ∃ secs ts, PluginPoint ops w statsPrefix secs ts d := by
  intro v hg
  exact stamp_fresh (mp_stamping ops w) (fun v e h => (robust_step (mp_robust ops w) h e).1) i es' v
    (robust_run (mp_robust ops w) (mpwf_init ops plugins) es) hg

/-- C105: the same for the configurable processor. -/
theorem C105_configurable (ops : PluginOps PF PM) (pre int : Str) (plugins : List PF) (w : World) (es es' : List Event)
    (i : Nat) (interval percent : ℤ) :
    let v := (startUp (CPState.init ops plugins)).run (configurable ops pre int) w es
    v.gens[i]? = some ⟨interval, percent, .fresh⟩ →
    emits (configurable ops pre int) w i v es' = [] ∨ ∃ es1 es2, es' = es1 ++ .advance i :: es2 ∧ Event.advance i ∉ es1 ∧
      ∀ d ∈ emits (configurable ops pre int) w i v es',
        d.ts = truncQ (w.clk (v.run (configurable ops pre int) w es1).ps.ticks) ∨
        ∃ secs ts, PluginPoint ops w (fun _ => pre) secs ts d := by
  intro v hg
  exact stamp_fresh (cp_stamping ops pre int w) (fun v e h => (robust_step (cp_robust ops pre int w) h e).1) i es' v
    (robust_run (cp_robust ops pre int w) (cpwf_init ops pre plugins) es) hg

/-- C106: an uninterrupted flush of the configurable processor does exactly what the atomic `flush` does. -/
theorem C106_uninterrupted (ops : PluginOps PF PM) (pre int : Str) (plugins : List PF) (w : World) (es : List Event)
    (i : Nat) (interval percent : ℤ) :
    let v := (startUp (CPState.init ops plugins)).run (configurable ops pre int) w es
    let r := flush (configurable ops pre int) w interval percent v.ps
    v.gens[i]? = some ⟨interval, percent, .fresh⟩ →
    ∃ n, v.run (configurable ops pre int) w (List.replicate n (.advance i)) =
      { ps := r.1, gens := v.gens.set i ⟨interval, percent, match r.2.2 with
                                                          | none => .done
                                                          | some e => .crashed e⟩, out := v.out ++ r.2.1 } := by
  intro v r hg
  have hwf : CPWf ops pre v.ps := robust_run (cp_robust ops pre int w) (cpwf_init ops pre plugins) es
  obtain ⟨m, h⟩ := flush_reach (cp_steady ops pre int w) interval percent v.ps hwf
  exact ⟨m, advance_run w v hg h⟩

/-- C106: whatever else happens, a flush of the configurable processor that is advanced again and again ends. -/
theorem C106_terminates (ops : PluginOps PF PM) (pre int : Str) (w : World)
    (v : Server CounterRep TimerRep (Dict GaugeRep) PF PM) (i : Nat) (g : Gen) (hg : v.gens[i]? = some g)
    (f : ℕ → Event) (hf : ∀ n, ∃ m, n ≤ m ∧ f m = .advance i) :
    ∃ n g', (after (configurable ops pre int) w v f n).gens[i]? = some g' ∧ (g'.pc = .done ∨ ∃ e, g'.pc = .crashed e) := by
  obtain ⟨m, g', _, h1, h2⟩ := eventually_ended (configurable ops pre int) w v f i hf _ 0 g rfl hg
  exact ⟨m, g', h1, h2⟩

/-- C106: if no arrival adds a name or a type of message while the flush is running (and it is the only flush running),
it never fails with `RuntimeError` or `KeyError`, unless a plugin raises that itself. Gauges that change do not matter. -/
theorem C106_no_abort (ops : PluginOps PF PM) (pre int : Str) (plugins : List PF) (w : World) (es : List Event) (i : Nat)
    (interval percent : ℤ) (es' : List Event) (hj : ∀ j, Event.advance j ∈ es' → j = i) :
    let v := (startUp (CPState.init ops plugins)).run (configurable ops pre int) w es
    v.gens[i]? = some ⟨interval, percent, .fresh⟩ → SettledC (configurable ops pre int) w v es' →
    ∀ g e, (v.run (configurable ops pre int) w es').gens[i]? = some g → g.pc = .crashed e →
      (e ≠ .runtimeError ∧ e ≠ .keyError) ∨ PluginRaises ops w (fun _ => pre) (Int.fdiv interval 1000) e := by
  intro v hg hst g e hge hpc
  have hwf : CPWf ops pre v.ps := robust_run (cp_robust ops pre int w) (cpwf_init ops pre plugins) es
  obtain ⟨pc', h1, h2⟩ := sized_run (cp_robust ops pre int w) i interval percent es' v .fresh hwf hg trivial
    (fun e h => by cases h) hj (settledC_sized ops pre int w es' v hst)
  rw [h1] at hge
  simp only [Option.some.injEq] at hge
  subst hge
  obtain ⟨k, ts, c, s0, h4, h3⟩ := h2 e hpc
  exact visit_errorC ops pre int w _ percent ts k h4 c h3

/-- C106: if the first reading of a counter, timer, gauge or meter arrives while a flush is going through the counters,
timers, gauges or meters, that flush emits at most the rest of the group it is handing out, in every continuation, and
ends with `RuntimeError` as soon as it is advanced once more. -/
theorem C106_new_name_aborts (ops : PluginOps PF PM) (pre int : Str) (plugins : List PF) (w : World) (es : List Event)
    (i : Nat) (interval percent ts : ℤ) (acc : List PerMetric) (start : ℚ) (size cursor events : Nat)
    (pend : List Datapoint) (k : Nat) (t : Str) (hk : (k, t) ∈ [(0, c!"c"), (1, c!"ms"), (2, c!"g"), (3, c!"m")])
    (m key : Str) (x : PyFloat) (hm : Reading t key m x) (hnew : ¬ Received t key (arrivals es)) (es' : List Event) :
    let v := (startUp (CPState.init ops plugins)).run (configurable ops pre int) w es
    let v' := v.step (configurable ops pre int) w (.arrive m)
    v.gens[i]? = some ⟨interval, percent, .inPhase k ts acc start size cursor events pend⟩ →
    emits (configurable ops pre int) w i v' es' <+: pend ∧
    ((es'.filter fun e => match e with | .advance j => decide (j = i) | _ => false).length > pend.length →
      emits (configurable ops pre int) w i v' es' = pend ∧
      (v'.run (configurable ops pre int) w es').gens[i]? = some ⟨interval, percent, .crashed .runtimeError⟩) := by
  intro v v' hg
  refine growth_aborts (cp_robust ops pre int w) (cpwf_init ops pre plugins) es i interval percent ts k acc start size cursor
    events pend m es' hg ?_
  have hinv := fresh_inv (fresh_conf ops pre int w (CPState.init ops plugins).plugins) (v := startUp (CPState.init ops plugins)) (ms := [])
    ⟨cpwf_init ops pre plugins, storedC_init ops pre plugins, meterStore_nil, lives_init ops w _ rfl⟩ es
  rw [List.nil_append] at hinv
  obtain ⟨hw, hst, _⟩ := hinv
  obtain ⟨e1, e2, ⟨draw, e3⟩, e4⟩ := effect ops pre int w v.ps m
  have hlat : ∀ t' v', Latest t' key (arrivals es) v' → Received t' key (arrivals es) := by
    rintro t' v' ⟨a, mm, b, h1, h2, _⟩
    exact ⟨mm, by rw [h1]; simp, v', h2⟩
  simp only [List.mem_cons, List.not_mem_nil, or_false, Prod.mk.injEq] at hk
  rcases hk with ⟨rfl, rfl⟩ | ⟨rfl, rfl⟩ | ⟨rfl, rfl⟩ | ⟨rfl, rfl⟩
  · show v.ps.counters.length < (process (configurable ops pre int) w v.ps m).1.counters.length
    rw [e1]
    refine applyRead_lt hw.counters hm fun hkey => ?_
    rcases hst.counters key with ⟨h, _⟩ | ⟨v', h, _⟩
    · rw [← Dict.find_isSome_iff] at hkey
      have h' : v.ps.counters.find key = none := h
      rw [h'] at hkey; cases hkey
    · exact hnew (hlat _ _ h)
  · show v.ps.timers.length < (process (configurable ops pre int) w v.ps m).1.timers.length
    rw [e3]
    exact applyRead_lt hw.timers hm fun hkey => hnew ((hst.timers key).1 hkey)
  · show v.ps.gauges.length < (process (configurable ops pre int) w v.ps m).1.gauges.length
    rw [e2]
    refine applyRead_lt hw.gauges hm fun hkey => ?_
    rcases hst.gauges key with ⟨h, _⟩ | ⟨v', h, _⟩
    · rw [← Dict.find_isSome_iff] at hkey
      have h' : v.ps.gauges.find key = none := h
      rw [h'] at hkey; cases hkey
    · exact hnew (hlat _ _ h)
  · show v.ps.meters.length < (process (configurable ops pre int) w v.ps m).1.meters.length
    rw [e4]
    exact applyRead_lt hw.shared.1 hm fun hkey => hnew ((hst.meters key).1 hkey)

/-- C107: in the default processor any gauge reading at all that arrives while a flush is handing out the gauges, and the
first reading of a timer or meter that arrives while a flush is going through the timers or meters, aborts that flush. -/
theorem C107_reading_aborts (ops : PluginOps PF PM) (plugins : List PF) (w : World) (es : List Event)
    (i : Nat) (interval percent ts : ℤ) (acc : List PerMetric) (start : ℚ) (size cursor events : Nat)
    (pend : List Datapoint) (k : Nat) (t : Str) (hk : (k, t) ∈ [(1, c!"ms"), (2, c!"g"), (3, c!"m")])
    (m key : Str) (x : PyFloat) (hm : Reading t key m x) (hnew : t ≠ c!"g" → ¬ Received t key (arrivals es))
    (es' : List Event) :
    let v := (startUp (MPState.init ops plugins)).run (messageProcessor ops) w es
    let v' := v.step (messageProcessor ops) w (.arrive m)
    v.gens[i]? = some ⟨interval, percent, .inPhase k ts acc start size cursor events pend⟩ →
    emits (messageProcessor ops) w i v' es' <+: pend ∧
    ((es'.filter fun e => match e with | .advance j => decide (j = i) | _ => false).length > pend.length →
      emits (messageProcessor ops) w i v' es' = pend ∧
      (v'.run (messageProcessor ops) w es').gens[i]? = some ⟨interval, percent, .crashed .runtimeError⟩) := by
  intro v v' hg
  refine growth_aborts (mp_robust ops w) (mpwf_init ops plugins) es i interval percent ts k acc start size cursor
    events pend m es' hg ?_
  have hinv := fresh_inv (fresh_default ops w (MPState.init ops plugins).plugins) (v := startUp (MPState.init ops plugins)) (ms := [])
    ⟨mpwf_init ops plugins, originD_init ops plugins, meterStore_nil, lives_init ops w _ rfl⟩ es
  rw [List.nil_append] at hinv
  obtain ⟨hw, hst, _⟩ := hinv
  simp only [List.mem_cons, List.not_mem_nil, or_false, Prod.mk.injEq] at hk
  rcases hk with ⟨rfl, rfl⟩ | ⟨rfl, rfl⟩ | ⟨rfl, rfl⟩
  · show v.ps.timers.length < (process (messageProcessor ops) w v.ps m).1.timers.length
    rw [process_timers, applyTimer_read, timerEffect_eq]
    exact applyRead_lt hw.timers hm fun hkey => hnew (by decide) (hst.timers key hkey)
  · show v.ps.gauges.length < (process (messageProcessor ops) w v.ps m).1.gauges.length
    rw [process_gauges, gaugeEffect_iff.2 hm]
    simp [applyGauge]
  · show v.ps.meters.length < (process (messageProcessor ops) w v.ps m).1.meters.length
    rw [process_meters, applyMeter_read, meterEffect_eq]
    exact applyRead_lt hw.shared.1 hm fun hkey => hnew (by decide) (hst.meters key hkey)

end

/-! ## The hypotheses can be met -/

section
attribute [local instance] ratRounding

/-- Durations before, during and after two overlapping flushes. -/
def exTimers : List Event :=
  [.arrive c!"t:1|ms", .arrive c!"t:3|ms", .spawn 1000 90, .advance 0, .arrive c!"t:2|ms", .spawn 2000 95, .advance 1,
   .arrive c!"x:7|c", .arrive c!"t:8|ms"]

example : ∀ i p, Event.spawn i p ∈ exTimers → 50 ≤ p ∧ p ≤ 100 := by
  intro i p h; simp [exTimers] at h; rcases h with ⟨_, rfl⟩ | ⟨_, rfl⟩ <;> norm_num
example : NoCounter c!"timers." (arrivals exTimers) := by
  intro m hm k fs hp hk
  have h1 := parsed_iff.1 hp
  have : ∀ m ∈ arrivals exTimers, (parseMessage m).all (fun p => decide (p.mtype ≠ c!"c") || !(c!"timers.").isPrefixOf p.key) := by
    decide +kernel
  have := this m hm
  rw [h1] at this
  simp only [Option.all_some, Bool.or_eq_true, decide_eq_true_eq, Bool.not_eq_true'] at this
  rcases this with h | h
  · exact h rfl
  · rw [List.isPrefixOf_iff_prefix.2 hk] at h; cases h
example : Collect (Reading c!"ms" c!"t") (arrivals exTimers) ([1, 3, 2, 8].map PyFloat.fin) :=
  .hit (reading_of (by decide +kernel)) (.hit (reading_of (by decide +kernel)) (.hit (reading_of (by decide +kernel))
    (.skip (not_reading_of (by decide +kernel)) (.hit (reading_of (by decide +kernel)) .nil))))
/-- One flush has taken everything, the other finds the timer empty, and one more duration has arrived. -/
example :
    let v := (startUp (MPState.init noPlugins [])).run (messageProcessor noPlugins) exWorld
      [.arrive c!"t:1|ms", .spawn 1000 90, .advance 0, .spawn 2000 95, .advance 1, .arrive c!"t:8|ms"]
    v.gens.length = 2 ∧ (v.ps.timers.find c!"t").map List.length = some 2 := by decide +kernel
example : Summarises 90 7 c!"t" [.nan] [⟨c!"stats.timers.t.count", .int 1, 7⟩, ⟨c!"stats.timers.t.lower", .flt .nan, 7⟩,
    ⟨c!"stats.timers.t.mean", .flt .nan, 7⟩, ⟨c!"stats.timers.t.upper", .flt .nan, 7⟩,
    ⟨c!"stats.timers.t.upper_90", .flt .nan, 7⟩] := by
  refine ⟨by decide +kernel, by decide, rfl, ?_⟩
  intro qs h
  cases qs with
  | nil => cases h
  | cons a b => simp at h

/-- A flush of the configurable processor that is overtaken by a new value of a counter and of a gauge. -/
example :
    let v := (startUp (CPState.init noPlugins [])).run (configurable noPlugins c!"p" []) exWorld
      [.arrive c!"a:1|c", .arrive c!"b:1|g", .spawn 1000 90]
    (v.gens[0]?.map fun g => (g.interval, g.percent, match g.pc with
      | .fresh => true
      | _ => false)) = some (1000, 90, true) ∧
    (emits (configurable noPlugins c!"p" []) exWorld 0 v ([.advance 0, .arrive c!"a:5|c"] ++ List.replicate 4 (.advance 0) ++
      [.arrive c!"b:9|g"] ++ List.replicate 9 (.advance 0))).map (fun d => (d.name, d.value)) =
      [(c!"p.a.count", .int 5), (c!"p.b.value", .flt (.fin 9))] := by decide +kernel
example : Latest c!"c" c!"a" [c!"a:1|c", c!"b:1|g", c!"a:5|c"] (.fin 5) :=
  ⟨[c!"a:1|c", c!"b:1|g"], c!"a:5|c", [], rfl, reading_of (by decide +kernel), by simp⟩
/-- The total of a meter at some moment. -/
example : TotalOf c!"m" [c!"m:1|m", c!"m:2|m"] (.flt (.fin 3)) := by
  intro qs h
  have h' : Collect (Reading c!"m" c!"m") [c!"m:1|m", c!"m:2|m"] ([1, 2].map PyFloat.fin) :=
    .hit (reading_of (by decide +kernel)) (.hit (reading_of (by decide +kernel)) .nil)
  have e := collect_unique (P := Reading c!"m" c!"m") (fun m a b h h' => reading_unique h h') h h'
  have hqs : qs = [1, 2] := List.map_injective_iff.2 (fun a b h => by simpa using h) e
  subst hqs
  exact ⟨3, by norm_num [Near6]; exact ⟨3000000, by norm_num⟩, rfl⟩

/-- A timer of the configurable processor with a negative duration, a flush, and a positive duration. -/
def exTimersC : List Event := [.arrive c!"t:-2|ms", .spawn 1000 90] ++ List.replicate 13 (.advance 0) ++ [.arrive c!"t:5|ms"]

example : ∀ s, (c!"ms", s) ∈ suffixes → ¬ internalPrefixOf c!"p" [] <+: prefixed c!"p" c!"t" s := by
  intro s hs h
  have h := List.isPrefixOf_iff_prefix.2 h
  have hall : ∀ x ∈ suffixes, x.1 = c!"ms" → (internalPrefixOf c!"p" []).isPrefixOf (prefixed c!"p" c!"t" x.2) = false := by
    decide
  have := hall _ hs rfl
  simp only at this
  rw [h] at this; cases this
/-- (For the shipped plugins see Props/PluginLife.lean.) -/
example : OthersQuiet noPlugins exWorld (CPState.init noPlugins []).plugins (fun _ => c!"p") c!"t" (ofTimerC c!"p" c!"t") := by
  intro k m _ _ n secs ts d hd
  simp [noPlugins, madeBy] at hd
example : pluginMsgs (CPState.init noPlugins []).plugins c!"t" (arrivals exTimersC) = [] := by decide +kernel
example : ¬ Received c!"c" c!"t" (arrivals exTimersC) ∧ ¬ Received c!"m" c!"t" (arrivals exTimersC) := by
  have e : arrivals exTimersC = [c!"t:-2|ms", c!"t:5|ms"] := by decide +kernel
  rw [e]
  constructor
  · rintro ⟨m, hm, v, hv⟩
    simp only [List.mem_cons, List.not_mem_nil, or_false] at hm
    rcases hm with rfl | rfl <;> exact not_reading_of (by decide +kernel) v hv
  · rintro ⟨m, hm, v, hv⟩
    simp only [List.mem_cons, List.not_mem_nil, or_false] at hm
    rcases hm with rfl | rfl <;> exact not_reading_of (by decide +kernel) v hv
/-- One duration was counted in the report; the second is stored. -/
example :
    let v := (startUp (CPState.init noPlugins [])).run (configurable noPlugins c!"p" []) exWorld exTimersC
    (named c!"p.t.count" v.out).map Datapoint.value = [.flt (.fin 1)] ∧
    (v.ps.timers.find c!"t").map (fun t => (t.count, t.hist.count)) = some (2, 1) := by decide +kernel
example : durations [.add (-2), .report 4, .add 5] = [-2, 5] ∧ period [.add (-2), .report 4, .add 5] = [5] := ⟨rfl, rfl⟩

/-- A flush of the configurable processor in its gauge phase, with a group handed out. -/
def exGauges : List Event := [.arrive c!"a:1|g", .arrive c!"b:1|g", .spawn 1000 90] ++ List.replicate 7 (.advance 0)

example :
    let v := (startUp (CPState.init noPlugins [])).run (configurable noPlugins [] []) exWorld exGauges
    (v.gens[0]?.map fun g => (g.interval, g.percent, match g.pc with
      | .inPhase k _ _ _ size _ _ pend => some (k, size, pend.length)
      | _ => none)) = some (1000, 90, some (2, 2, 1)) := by decide +kernel
example : Reading c!"g" c!"c" c!"c:4|g" (.fin 4) := reading_of (by decide +kernel)
example : ¬ Received c!"g" c!"c" (arrivals exGauges) := by
  have e : arrivals exGauges = [c!"a:1|g", c!"b:1|g"] := by decide +kernel
  rw [e]
  rintro ⟨m, hm, v, hv⟩
  simp only [List.mem_cons, List.not_mem_nil, or_false] at hm
  rcases hm with rfl | rfl <;> exact not_reading_of (by decide +kernel) v hv
/-- The same for the default processor; here a reading of `a` is enough to abort the flush. -/
example :
    let v := (startUp (MPState.init noPlugins [])).run (messageProcessor noPlugins) exWorld exGauges
    (v.gens[0]?.map fun g => (g.interval, g.percent, match g.pc with
      | .inPhase k _ _ _ size _ _ pend => some (k, size, pend.length)
      | _ => none)) = some (1000, 90, some (2, 2, 1)) := by decide +kernel
/-- Changed gauges do not abort a flush of the configurable processor. -/
example :
    let v := (startUp (CPState.init noPlugins [])).run (configurable noPlugins [] []) exWorld
      [.arrive c!"a:1|g", .arrive c!"b:1|g", .spawn 1000 90]
    SettledC (configurable noPlugins [] []) exWorld v [.advance 0, .arrive c!"a:2|g", .advance 0] := by
  refine ⟨trivial, ?_, trivial, trivial⟩
  unfold SameNamesC; decide +kernel

end
end Txstatsd
