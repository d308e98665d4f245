import Verif.Spec.Configurable
import Verif.Lemmas.Gauge
import Verif.Lemmas.Meter

set_option linter.unusedSectionVars false
set_option linter.unusedSimpArgs false
set_option linter.unusedVariables false

namespace Txstatsd
open Spec

theorem Dict.put_put {V : Type} (d : Dict V) (k : Str) (a b : V) : (d.put k a).put k b = d.put k b := by
  induction d with
  | nil => simp [Dict.put]
  | cons p rest ih =>
    obtain ⟨k', v'⟩ := p
    by_cases h : k' = k
    · subst h; simp [Dict.put]
    · simp [Dict.put, h, ih]

section
variable [Rounding] {PF PM : Type}

/-- The reading of a message of type `t`. -/
def readEffect (t msg : Str) : Option (Str × PyFloat) :=
  match parseMessage msg with
  | none => none
  | some m => if m.mtype = t then (parseFloat (m.fields.headD [])).map fun d => (m.key, d) else none

theorem readEffect_iff {t msg k : Str} {d : PyFloat} : readEffect t msg = some (k, d) ↔ Reading t k msg d := by
  rw [reading_iff]
  unfold readEffect
  cases hp : parseMessage msg with
  | none => simp
  | some m =>
    simp only
    split_ifs with h
    · cases hv : parseFloat (m.fields.headD []) with
      | none =>
        simp only [Option.map_none, reduceCtorEq, false_iff, not_exists, not_and]
        intro m' hm _ _ hv'; simp only [Option.some.injEq] at hm; subst hm; rw [hv] at hv'; cases hv'
      | some v =>
        simp only [Option.map_some, Option.some.injEq, Prod.mk.injEq]
        constructor
        · rintro ⟨rfl, rfl⟩; exact ⟨m, rfl, h, rfl, hv⟩
        · rintro ⟨m', rfl, _, rfl, hv'⟩; rw [hv] at hv'; exact ⟨rfl, by simpa using hv'⟩
    · simp only [reduceCtorEq, false_iff, not_exists, not_and]
      intro m' hm ht; simp only [Option.some.injEq] at hm; subst hm; exact absurd ht h

theorem readEffect_none {t msg : Str} : readEffect t msg = none ↔ ∀ k v, ¬ Reading t k msg v := by
  constructor
  · intro h k v hr; rw [readEffect_iff.2 hr] at h; cases h
  · intro h
    rcases he : readEffect t msg with _ | ⟨k, v⟩
    · rfl
    · exact absurd (readEffect_iff.1 he) (h k v)

theorem gaugeEffect_eq (msg : Str) : gaugeEffect msg = readEffect c!"g" msg := by
  rcases he : readEffect c!"g" msg with _ | ⟨k, v⟩
  · rcases hg : gaugeEffect msg with _ | ⟨k, v⟩
    · rfl
    · exact absurd (gaugeEffect_iff.1 hg) (readEffect_none.1 he k v)
  · exact gaugeEffect_iff.2 (readEffect_iff.1 he)

theorem meterEffect_eq (msg : Str) : meterEffect msg = readEffect c!"m" msg := by
  rcases he : readEffect c!"m" msg with _ | ⟨k, v⟩
  · rcases hg : meterEffect msg with _ | ⟨k, v⟩
    · rfl
    · exact absurd (meterEffect_iff.1 hg) (readEffect_none.1 he k v)
  · exact meterEffect_iff.2 (readEffect_iff.1 he)

theorem timerEffect_eq (msg : Str) : timerEffect msg = readEffect c!"ms" msg := rfl

/-- A reading updates (or creates) the reporter stored under its key. -/
def applyRead {V : Type} (new : Str → V) (mark : V → PyFloat → V) (d : Dict V) : Option (Str × PyFloat) → Dict V
  | none => d
  | some (k, v) => d.put k (mark ((d.find k).getD (new k)) v)

theorem composeCounterC_eq (pre : Str) (s : CPState PF PM) (k : Str) (v : PyFloat) :
    composeCounterC pre s k v =
      { s with counters := applyRead (CounterRep.init · pre) CounterRep.mark s.counters (some (k, v)) } := by
  unfold composeCounterC applyRead
  by_cases h : s.counters.has k = true
  · obtain ⟨c, hc⟩ := Option.isSome_iff_exists.1 ((Dict.find_isSome_iff _ _).2 ((Dict.has_iff _ _).1 h))
    simp only [h, if_true, hc, Option.getD_some]
  · have hf : s.counters.find k = none := (Dict.find_eq_none _ _).2 (fun hk => h ((Dict.has_iff _ _).2 hk))
    simp only [h, if_false, Dict.find_put_self, hf, Option.getD_none, Dict.put_put, Bool.false_eq_true]

theorem composeGaugeC_eq (pre : Str) (s : CPState PF PM) (k : Str) (v : PyFloat) :
    composeGaugeC pre s k v =
      { s with gauges := applyRead (GaugeRep.init · pre) GaugeRep.mark s.gauges (some (k, v)) } := by
  unfold composeGaugeC applyRead
  by_cases h : s.gauges.has k = true
  · obtain ⟨c, hc⟩ := Option.isSome_iff_exists.1 ((Dict.find_isSome_iff _ _).2 ((Dict.has_iff _ _).1 h))
    simp only [h, if_true, hc, Option.getD_some]
  · have hf : s.gauges.find k = none := (Dict.find_eq_none _ _).2 (fun hk => h ((Dict.has_iff _ _).2 hk))
    simp only [h, if_false, Dict.find_put_self, hf, Option.getD_none, Dict.put_put, Bool.false_eq_true]

theorem composeTimerC_eq (pre : Str) (w : World) (s : CPState PF PM) (k : Str) (v : PyFloat) :
    ∃ tk n, composeTimerC pre w s k v =
      { s with
        ticks := tk
        timers := applyRead (TimerRep.init · pre (w.clk s.ticks)) (fun t d => t.update (w.rand n) d) s.timers (some (k, v)) } := by
  unfold composeTimerC applyRead
  by_cases h : s.timers.has k = true
  · obtain ⟨c, hc⟩ := Option.isSome_iff_exists.1 ((Dict.find_isSome_iff _ _).2 ((Dict.has_iff _ _).1 h))
    refine ⟨s.ticks, s.ticks, ?_⟩
    simp only [h, if_true, hc, Option.getD_some]
  · have hf : s.timers.find k = none := (Dict.find_eq_none _ _).2 (fun hk => h ((Dict.has_iff _ _).2 hk))
    refine ⟨s.ticks + 1, s.ticks + 1, ?_⟩
    simp only [h, if_false, Dict.find_put_self, hf, Option.getD_none, Dict.put_put, Bool.false_eq_true]

theorem cp_local (ops : PluginOps PF PM) (pre int : Str) : (configurable ops pre int).Local where
  counter := by
    intro w s k f m
    simp only [configurable, processCounterC]
    split
    · exact SameRest.refl _
    · rw [composeCounterC_eq]; exact ⟨rfl, rfl, rfl, rfl, rfl, rfl, rfl⟩
  timer := by
    intro w s k d
    obtain ⟨tk, draw, h⟩ := composeTimerC_eq pre w s k d
    simp only [configurable]; rw [h]; exact ⟨rfl, rfl, rfl, rfl, rfl, rfl, rfl⟩
  gauge := by
    intro s k v
    simp only [configurable]; rw [composeGaugeC_eq]; exact ⟨rfl, rfl, rfl, rfl, rfl, rfl, rfl⟩

/-- What a message does to the four collections. -/
structure Effect (ops : PluginOps PF PM) (pre int : Str) (w : World) (s : CPState PF PM) (msg : Str) : Prop where
  counters : (process (configurable ops pre int) w s msg).1.counters =
    applyRead (CounterRep.init · pre) CounterRep.mark s.counters (readEffect c!"c" msg)
  gauges : (process (configurable ops pre int) w s msg).1.gauges =
    applyRead (GaugeRep.init · pre) GaugeRep.mark s.gauges (readEffect c!"g" msg)
  timers : ∃ n, (process (configurable ops pre int) w s msg).1.timers =
    applyRead (TimerRep.init · pre (w.clk (s.ticks + 1))) (fun t d => t.update (w.rand n) d) s.timers (readEffect c!"ms" msg)
  meters : (process (configurable ops pre int) w s msg).1.meters =
    applyRead (Meter.init · pre (w.clk (s.ticks + 1))) Meter.mark s.meters (readEffect c!"m" msg)

/-- The four collections of the result of `process`, as one observation. -/
def four (s : CPState PF PM) : Dict CounterRep × Dict GaugeRep × Dict TimerRep × Dict Meter :=
  (s.counters, s.gauges, s.timers, s.meters)

theorem obs_four : Obs (four (PF := PF) (PM := PM)) := ⟨fun _ _ => rfl, fun _ _ _ _ => rfl⟩

theorem process_four (ops : PluginOps PF PM) (pre int : Str) (w : World) (s : CPState PF PM) (msg : Str) :
    ∃ n, four (process (configurable ops pre int) w s msg).1 =
      (applyRead (CounterRep.init · pre) CounterRep.mark s.counters (readEffect c!"c" msg),
       applyRead (GaugeRep.init · pre) GaugeRep.mark s.gauges (readEffect c!"g" msg),
       applyRead (TimerRep.init · pre (w.clk (s.ticks + 1))) (fun t d => t.update (w.rand n) d) s.timers (readEffect c!"ms" msg),
       applyRead (Meter.init · pre (w.clk (s.ticks + 1))) Meter.mark s.meters (readEffect c!"m" msg)) := by
  rw [process_obs obs_four, ← gaugeEffect_eq, ← meterEffect_eq]
  unfold readEffect gaugeEffect meterEffect
  cases hp : parseMessage msg with
  | none => exact ⟨0, rfl⟩
  | some m =>
    simp only
    unfold dispatch gaugeEffectM meterEffectM
    have n1 : ¬ c!"c" = c!"ms" := by decide
    have n2 : ¬ c!"c" = c!"g" := by decide
    have n3 : ¬ c!"c" = c!"m" := by decide
    have n4 : ¬ c!"ms" = c!"g" := by decide
    have n5 : ¬ c!"ms" = c!"m" := by decide
    have n6 : ¬ c!"g" = c!"m" := by decide
    by_cases h1 : m.mtype = c!"c"
    · simp only [h1, if_true, n1, n2, n3, if_false, configurable, processCounterC]
      cases parseFloat (m.fields.headD []) with
      | none => exact ⟨0, rfl⟩
      | some v => simp only [composeCounterC_eq]; exact ⟨0, rfl⟩
    · by_cases h2 : m.mtype = c!"ms"
      · simp only [h2, if_true, Ne.symm n1, n4, n5, if_false, configurable, processTimer]
        cases parseFloat (m.fields.headD []) with
        | none => exact ⟨0, rfl⟩
        | some v =>
          obtain ⟨tk, draw, h⟩ := composeTimerC_eq pre w { s with ticks := s.ticks + 1 } m.key v
          simp only [h]; exact ⟨draw, rfl⟩
      · by_cases h3 : m.mtype = c!"g"
        · simp only [h3, if_true, Ne.symm n2, Ne.symm n4, n6, if_false, configurable, processGauge]
          split_ifs
          · exact ⟨0, rfl⟩
          · cases parseFloat ((splitOn ':' (m.fields.headD [])).headD []) with
            | none => exact ⟨0, rfl⟩
            | some v => simp only [composeGaugeC_eq]; exact ⟨0, rfl⟩
        · by_cases h4 : m.mtype = c!"m"
          · simp only [h4, if_true, Ne.symm n3, Ne.symm n5, Ne.symm n6, if_false, configurable, processMeter, composeMeter]
            split_ifs
            · exact ⟨0, rfl⟩
            · cases parseFloat ((splitOn ':' (m.fields.headD [])).headD []) with
              | none => exact ⟨0, rfl⟩
              | some v =>
                simp only [Option.map_some, applyRead]
                cases s.meters.find m.key <;> exact ⟨0, rfl⟩
          · simp only [h1, h2, h3, h4, if_false]
            cases s.plugins.find m.mtype with
            | none => exact ⟨0, rfl⟩
            | some f => simp only [processPlugin]; split <;> split <;> exact ⟨0, rfl⟩

theorem effect (ops : PluginOps PF PM) (pre int : Str) (w : World) (s : CPState PF PM) (msg : Str) :
    Effect ops pre int w s msg := by
  obtain ⟨draw, h⟩ := process_four ops pre int w s msg
  simp only [four, Prod.mk.injEq] at h
  exact ⟨h.1, h.2.1, ⟨draw, h.2.2.1⟩, h.2.2.2⟩

/-! ## Well-formed states -/

theorem applyRead_wf {V : Type} {new : Str → V} {mark : V → PyFloat → V} {d : Dict V} (h : Dict.Wf d) (e) :
    Dict.Wf (applyRead new mark d e) := by
  cases e with
  | none => exact h
  | some p => exact Dict.wf_put h _ _

theorem applyRead_forall {V : Type} {new : Str → V} {mark : V → PyFloat → V} {d : Dict V} (P : Str × V → Prop)
    (hn : ∀ k, P (k, new k)) (hm : ∀ k x v, P (k, x) → P (k, mark x v)) (h : ∀ p ∈ d, P p) (e) :
    ∀ p ∈ applyRead new mark d e, P p := by
  intro p hp
  cases e with
  | none => exact h p hp
  | some q =>
    obtain ⟨k, v⟩ := q
    rcases Dict.mem_put hp with rfl | hp
    · apply hm
      cases hf : Dict.find d k with
      | none => exact hn k
      | some x => exact h _ (Dict.mem_of_find hf)
    · exact h p hp

/-- The well-formed states of a configurable processor with message prefix `pre`. -/
structure CPWf (ops : PluginOps PF PM) (pre : Str) (s : CPState PF PM) : Prop where
  shared : Shared s
  counters : Dict.Wf s.counters
  timers : Dict.Wf s.timers
  gauges : Dict.Wf s.gauges
  cName : ∀ p ∈ s.counters, p.2.pre = dotted pre ∧ p.2.name = p.1
  gName : ∀ p ∈ s.gauges, p.2.pre = dotted pre ∧ p.2.name = p.1
  tName : ∀ p ∈ s.timers, p.2.pre = dotted pre ∧ p.2.name = p.1
  mName : ∀ p ∈ s.meters, p.2.pre = dotted pre ∧ p.2.name = p.1
  came : ∀ p ∈ s.pluginMetrics, Came ops (fun _ => pre) p.1 p.2

theorem cpwf_init (ops : PluginOps PF PM) (pre : Str) (plugins : List PF) : CPWf ops pre (CPState.init ops plugins) where
  shared := ⟨Dict.wf_nil, Dict.wf_nil, Dict.wf_nil, Dict.wf_nil, rfl⟩
  counters := Dict.wf_nil
  timers := Dict.wf_nil
  gauges := Dict.wf_nil
  cName := by simp [CPState.init]
  gName := by simp [CPState.init]
  tName := by simp [CPState.init]
  mName := by simp [CPState.init]
  came := by simp [CPState.init]

theorem timer_update_name (t : TimerRep) (draw : Nat) (d : PyFloat) :
    (t.update draw d).pre = t.pre ∧ (t.update draw d).name = t.name := by
  unfold TimerRep.update; simp only; split_ifs <;> exact ⟨rfl, rfl⟩

theorem timer_report_name (t : TimerRep) (ts : ℤ) : (t.report ts).1.pre = t.pre ∧ (t.report ts).1.name = t.name := by
  unfold TimerRep.report; split <;> exact ⟨rfl, rfl⟩

theorem cpwf_process (ops : PluginOps PF PM) (pre int : Str) (w : World) {s : CPState PF PM} (hs : CPWf ops pre s) (msg : Str) :
    CPWf ops pre (process (configurable ops pre int) w s msg).1 := by
  obtain ⟨e1, e2, ⟨draw, e3⟩, e4⟩ := effect ops pre int w s msg
  refine ⟨shared_process (cp_local ops pre int) w msg hs.shared, ?_, ?_, ?_, ?_, ?_, ?_, ?_,
    came_process (cp_local ops pre int) w msg hs.came⟩
  · rw [e1]; exact applyRead_wf hs.counters _
  · rw [e3]; exact applyRead_wf hs.timers _
  · rw [e2]; exact applyRead_wf hs.gauges _
  · rw [e1]; refine applyRead_forall (fun p : Str × CounterRep => p.2.pre = dotted pre ∧ p.2.name = p.1) ?_ ?_ hs.cName _; exacts [fun k => ⟨rfl, rfl⟩, fun k x v h => h]
  · rw [e2]; refine applyRead_forall (fun p : Str × GaugeRep => p.2.pre = dotted pre ∧ p.2.name = p.1) ?_ ?_ hs.gName _; exacts [fun k => ⟨rfl, rfl⟩, fun k x v h => h]
  · rw [e3]; exact applyRead_forall (fun p : Str × TimerRep => p.2.pre = dotted pre ∧ p.2.name = p.1) (fun k => ⟨rfl, rfl⟩) (fun k x v h => by
      have := timer_update_name x (w.rand draw) v; exact ⟨this.1.trans h.1, this.2.trans h.2⟩) hs.tName _
  · rw [e4]; refine applyRead_forall (fun p : Str × Meter => p.2.pre = dotted pre ∧ p.2.name = p.1) ?_ ?_ hs.mName _; exacts [fun k => ⟨rfl, rfl⟩, fun k x v h => h]

/-! ## Flushes -/

/-- The dict of gauges as a lens. -/
def lensGauges : Lens (CPState PF PM) GaugeRep :=
  ⟨fun s => s.gauges, fun s d => { s with gauges := d }, fun _ _ => rfl, fun _ _ _ => rfl, fun _ => rfl⟩

/-- The counter phase of the configurable processor. -/
def counterResC (ts : ℤ) (d : Dict CounterRep) : PhaseRes CounterRep :=
  runElems (fun _ c => c) (fun _ c => (c.report ts).map some) d

/-- The timer phase. -/
def timerResC (ts : ℤ) (d : Dict TimerRep) : PhaseRes TimerRep :=
  runElems (fun _ t => (t.report ts).1) (fun _ t => (t.report ts).2.map some) d

theorem counterRes_same (ts : ℤ) (d : Dict CounterRep) : (counterResC ts d).1 = d := by
  unfold counterResC
  induction d with
  | nil => rfl
  | cons p rest ih =>
    obtain ⟨k, c⟩ := p
    rw [runElems]
    cases (c.report ts).map some with
    | error e => rfl
    | ok o => simp only [ih]

theorem runVisits_const {S : Type} {visit : S → Nat → S × VisitResult} {s : S} {n : Nat} (f : Nat → List Datapoint)
    (h : ∀ i, i < n → visit s i = (s, .ok (some (f i)))) (is : List Nat) (his : ∀ i ∈ is, i < n) :
    runVisits visit is s = (s, is.map f, none) := by
  induction is with
  | nil => rfl
  | cons i is ih =>
    rw [runVisits, h i (his i (by simp))]
    simp only [ih (fun j hj => his j (by simp [hj])), Option.toList_some, List.singleton_append, List.map_cons]

theorem map_range_getElem {α β : Type} (l : List α) (f : α → β) (g : Nat → β) (h : ∀ i a, l[i]? = some a → g i = f a) :
    (List.range l.length).map g = l.map f := by
  apply List.ext_getElem (by simp)
  intro i h1 h2
  simp only [List.getElem_map, List.getElem_range]
  exact h i _ (List.getElem?_eq_getElem (by simpa using h1))

/-- The phases of the configurable processor. -/
def cpShape (ops : PluginOps PF PM) (pre int : Str) (secs percent ts : ℤ) :
    Shape (configurable ops pre int) secs percent ts where
  rc := counterResC ts
  rt := timerResC ts
  gg := fun (g : Dict GaugeRep) => g.map fun p => p.2.report ts
  hc := by
    intro s h
    have := runVisits_lens_range (lensCounters (C := CounterRep) (T := TimerRep) (G := Dict GaugeRep) (PF := PF) (PM := PM))
      (fun s i => match s.counters[i]? with
        | none => (s, .ok none)
        | some (k, c) => ({ s with counters := s.counters.put k c }, (c.report ts).map some))
      (fun _ c => c) (fun _ c => (c.report ts).map some)
      (by
        intro s i k v h
        have h' : s.counters[i]? = some (k, v) := h
        simp only [h']; rfl) s h
    have e : ∀ (is : List Nat) (s : CPState PF PM), Dict.Wf s.counters →
        runVisits (counterVisitC secs ts) is s = runVisits (fun (s : CPState PF PM) i => match s.counters[i]? with
        | none => (s, .ok none)
        | some (k, c) => ({ s with counters := s.counters.put k c }, (c.report ts).map some)) is s := by
      intro is
      induction is with
      | nil => intros; rfl
      | cons i is ih =>
        intro s hw
        cases hi : s.counters[i]? with
        | none => simp only [runVisits, counterVisitC, hi, ih s hw]
        | some p =>
          obtain ⟨k, c⟩ := p
          have hp : s.counters.put k c = s.counters := Dict.put_same (Dict.find_of_mem hw (List.mem_of_getElem? hi))
          simp only [runVisits, counterVisitC, hi, hp]
          cases (c.report ts).map some with
          | error e => rfl
          | ok o => simp only [ih s hw]
    exact (e _ s h).trans this
  ht := by
    intro s h
    exact runVisits_lens_range (lensTimers (C := CounterRep) (T := TimerRep) (G := Dict GaugeRep) (PF := PF) (PM := PM))
      (timerVisitC percent ts) (fun _ t => (t.report ts).1) (fun _ t => (t.report ts).2.map some)
      (by
        intro s i k v h
        have h' : s.timers[i]? = some (k, v) := h
        simp only [timerVisitC, h']; rfl) s h
  hg := by
    intro s
    have h : ∀ i, i < s.gauges.length → gaugeVisitC ts s i =
        (s, .ok (some (match s.gauges[i]? with | none => [] | some p => p.2.report ts))) := by
      intro i hi
      simp only [gaugeVisitC, List.getElem?_eq_getElem hi]
    have h2 := runVisits_const (visit := gaugeVisitC ts) (s := s) (n := s.gauges.length)
      (fun i => match s.gauges[i]? with | none => [] | some p => p.2.report ts) h
      (List.range s.gauges.length) (by simp)
    refine Eq.trans h2 ?_
    rw [map_range_getElem s.gauges (fun p => p.2.report ts)]
    intro i a hi; simp only [hi]

theorem flush_cp (ops : PluginOps PF PM) (pre int : Str) (w : World) (interval percent : ℤ) {s : CPState PF PM}
    (hs : CPWf ops pre s) :
    flush (configurable ops pre int) w interval percent s =
      flushForm (configurable ops pre int) w (Int.fdiv interval 1000) (truncQ (w.clk s.ticks))
        (counterResC (truncQ (w.clk s.ticks)) s.counters) (timerResC (truncQ (w.clk s.ticks)) s.timers)
        (s.gauges.map fun p => p.2.report (truncQ (w.clk s.ticks)))
        (meterRes (truncQ (w.clk s.ticks)) s.meters) s :=
  flush_eq_form _ w interval percent s hs.counters hs.timers hs.shared.meters (cpShape ops pre int _ _ _)

theorem runElems_wf {V : Type} {f : Str → V → V} {g : Str → V → VisitResult} {d : Dict V} (h : Dict.Wf d) :
    Dict.Wf (runElems f g d).1 := by unfold Dict.Wf; rw [runElems_keys]; exact h

/-- The meters after a flush are among the old ones and the reported ones. -/
theorem flushForm_meters {C T G : Type} (I : Impl C T G PF PM) (w : World) (secs ts : ℤ) (c : PhaseRes C) (t : PhaseRes T)
    (g : List (List Datapoint)) (m : PhaseRes Meter) (s : PS C T G PF PM) (hs : Shared s)
    (hm : Dict.keys m.1 = s.meters.keys) :
    (flushForm I w secs ts c t g m s).1.meters = s.meters ∨ (flushForm I w secs ts c t g m s).1.meters = m.1 := by
  have hmw : Dict.Wf m.1 := by unfold Dict.Wf; rw [hm]; exact hs.meters
  unfold flushForm
  cases h0 : c.2.2 with
  | some e => exact Or.inl rfl
  | none =>
    cases h1 : t.2.2 with
    | some e => exact Or.inl rfl
    | none =>
      cases h3 : m.2.2 with
      | some e => exact Or.inr rfl
      | none =>
        simp only
        obtain ⟨tk, pm, gs, e, he, hk, _⟩ := plugin_phase I w secs ts
          { s with ticks := s.ticks + 10, counters := c.1, timers := t.1, meters := m.1 } hs.pluginMetrics
        simp only at he hk
        rw [he]
        have hpw : Dict.Wf pm := by unfold Dict.Wf; rw [hk]; exact hs.pluginMetrics
        cases e with
        | some e => exact Or.inr rfl
        | none =>
          simp only
          have hs6 : Shared { s with ticks := tk + 1, counters := c.1, timers := t.1, meters := m.1, pluginMetrics := pm } :=
            ⟨hmw, hpw, hs.3, hs.4, hs.5⟩
          rw [runSummary_ok I ts _ hs6]
          exact Or.inr rfl

theorem cpwf_flush (ops : PluginOps PF PM) (pre int : Str) (w : World) (interval percent : ℤ) {s : CPState PF PM}
    (hs : CPWf ops pre s) : CPWf ops pre (flush (configurable ops pre int) w interval percent s).1 := by
  rw [flush_cp ops pre int w interval percent hs]
  generalize truncQ (w.clk s.ticks) = ts
  have hm : Dict.keys (meterRes ts s.meters).1 = s.meters.keys := runElems_keys _ _ _
  obtain ⟨h1, h2, h3, h4, _⟩ := flushForm_state (configurable ops pre int) w (Int.fdiv interval 1000) ts
    (counterResC ts s.counters) (timerResC ts s.timers) (s.gauges.map fun p => p.2.report ts)
    (meterRes ts s.meters) s hs.shared hm
  have h5 := flushForm_meters (configurable ops pre int) w (Int.fdiv interval 1000) ts
    (counterResC ts s.counters) (timerResC ts s.timers) (s.gauges.map fun p => p.2.report ts)
    (meterRes ts s.meters) s hs.shared hm
  rw [counterRes_same] at h3
  refine ⟨h1, ?_, ?_, ?_, ?_, ?_, ?_, ?_, came_flushForm _ _ _ _ _ _ _ _ _ hs.shared.pluginMetrics _ hs.came⟩
  · rw [h3]; exact hs.counters
  · rw [h4]; split_ifs
    · exact runElems_wf hs.timers
    · exact hs.timers
  · rw [h2]; exact hs.gauges
  · rw [h3]; exact hs.cName
  · rw [h2]; exact hs.gName
  · rw [h4]; split_ifs
    · refine runElems_forall _ _ (fun p : Str × TimerRep => p.2.pre = dotted pre ∧ p.2.name = p.1) ?_ _ hs.tName
      intro k v h
      have := timer_report_name v ts
      exact ⟨this.1.trans h.1, this.2.trans h.2⟩
    · exact hs.tName
  · rcases h5 with h5 | h5 <;> rw [h5]
    · exact hs.mName
    · refine runElems_forall _ _ (fun p : Str × Meter => p.2.pre = dotted pre ∧ p.2.name = p.1) ?_ _ hs.mName
      intro k v h
      have := meter_report_pre v ts
      exact ⟨this.1.trans h.1, this.2.trans h.2⟩

theorem cpwf_runOps (ops : PluginOps PF PM) (pre int : Str) (w : World) {s : CPState PF PM} (hs : CPWf ops pre s) (os : List Op) :
    CPWf ops pre (runOps (configurable ops pre int) w s os).1 := by
  induction os using List.reverseRecOn with
  | nil => exact hs
  | append_singleton os o ih =>
    rw [runOps_snoc]
    cases o with
    | msg m => exact cpwf_process ops pre int w ih m
    | flush i p => exact cpwf_flush ops pre int w i p ih

/-- What a flush keeps. -/
theorem flush_keepsC (ops : PluginOps PF PM) (pre int : Str) (w : World) (interval percent : ℤ) {s : CPState PF PM}
    (hs : CPWf ops pre s) :
    let s' := (flush (configurable ops pre int) w interval percent s).1
    s'.counters = s.counters ∧ s'.gauges = s.gauges ∧ s'.timers.keys = s.timers.keys ∧ s'.meters.keys = s.meters.keys ∧
    s'.plugins = s.plugins ∧ s'.pluginMetrics.keys = s.pluginMetrics.keys ∧
    ((flush (configurable ops pre int) w interval percent s).2.2 = none →
      s'.timers = (timerResC (truncQ (w.clk s.ticks)) s.timers).1) := by
  intro s'
  have hf := flush_cp ops pre int w interval percent hs
  have hs' : s' = (flush (configurable ops pre int) w interval percent s).1 := rfl
  rw [hs', hf]
  generalize truncQ (w.clk s.ticks) = ts
  have hm : Dict.keys (meterRes ts s.meters).1 = s.meters.keys := runElems_keys _ _ _
  obtain ⟨h1, h2, h3, h4, h6, h7, h8⟩ := flushForm_state (configurable ops pre int) w (Int.fdiv interval 1000) ts
    (counterResC ts s.counters) (timerResC ts s.timers) (s.gauges.map fun p => p.2.report ts)
    (meterRes ts s.meters) s hs.shared hm
  have h5 := flushForm_meters (configurable ops pre int) w (Int.fdiv interval 1000) ts
    (counterResC ts s.counters) (timerResC ts s.timers) (s.gauges.map fun p => p.2.report ts)
    (meterRes ts s.meters) s hs.shared hm
  rw [counterRes_same] at h3
  refine ⟨h3, h2, ?_, ?_, h6, h7, ?_⟩
  · rw [h4]; split_ifs
    · exact runElems_keys _ _ _
    · rfl
  · rcases h5 with h5 | h5 <;> rw [h5]; exact hm
  · intro h; rw [h4, if_pos (h8 h).1]

end
end Txstatsd
