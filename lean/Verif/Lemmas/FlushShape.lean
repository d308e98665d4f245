import Verif.Lemmas.Flush

set_option linter.unusedSectionVars false
set_option linter.unusedSimpArgs false
set_option linter.unusedVariables false

namespace Txstatsd
section
variable [Rounding] {C T G PF PM : Type}

/-- What a phase leaves in its dict, the groups it yields, the exception that ended it. -/
abbrev PhaseRes (V : Type) := Dict V × List (List Datapoint) × Option PyErr

/-- The first three phases of a processor class as functions of the collections. -/
structure Shape (I : Impl C T G PF PM) (secs percent ts : ℤ) where
  rc : Dict C → PhaseRes C
  rt : Dict T → PhaseRes T
  gg : G → List (List Datapoint)
  hc : ∀ s : PS C T G PF PM, Dict.Wf s.counters →
    runVisits (I.counterVisit secs ts) (List.range s.counters.length) s =
      ({ s with counters := (rc s.counters).1 }, (rc s.counters).2.1, (rc s.counters).2.2)
  ht : ∀ s : PS C T G PF PM, Dict.Wf s.timers →
    runVisits (I.timerVisit percent ts) (List.range s.timers.length) s =
      ({ s with timers := (rt s.timers).1 }, (rt s.timers).2.1, (rt s.timers).2.2)
  hg : ∀ s : PS C T G PF PM,
    runVisits (I.gaugeVisit ts) (List.range (I.gaugeLen s.gauges)) s = (s, gg s.gauges, none)

/-- The meter phase. -/
def meterRes (ts : ℤ) (d : Dict Meter) : PhaseRes Meter :=
  runElems (fun _ m => (m.report ts).1) (fun _ m => (m.report ts).2.map some) d

/-- The duration of a phase between two clock readings. -/
def dur (w : World) (a b : Nat) : Num := .flt (rnd (w.clk b - w.clk a))

/-- The uninterrupted flush, phase by phase. -/
def flushForm (I : Impl C T G PF PM) (w : World) (secs ts : ℤ) (c : PhaseRes C) (t : PhaseRes T)
    (g : List (List Datapoint)) (m : PhaseRes Meter) (s : PS C T G PF PM) :
    PS C T G PF PM × List Datapoint × Option PyErr :=
  match c.2.2 with
  | some e => ({ s with ticks := s.ticks + 2, counters := c.1 }, c.2.1.flatten, some e)
  | none =>
    match t.2.2 with
    | some e => ({ s with ticks := s.ticks + 4, counters := c.1, timers := t.1 },
        c.2.1.flatten ++ t.2.1.flatten, some e)
    | none =>
      match m.2.2 with
      | some e => ({ s with ticks := s.ticks + 8, counters := c.1, timers := t.1, meters := m.1 },
          c.2.1.flatten ++ t.2.1.flatten ++ g.flatten ++ m.2.1.flatten, some e)
      | none =>
        let s4 := { s with ticks := s.ticks + 10, counters := c.1, timers := t.1, meters := m.1 }
        let p := runVisits (pluginVisit I w secs ts) (List.range s.pluginMetrics.length) s4
        let pts := c.2.1.flatten ++ t.2.1.flatten ++ g.flatten ++ m.2.1.flatten ++ p.2.1.flatten
        match p.2.2 with
        | some e => (p.1, pts, some e)
        | none =>
          let acc := [(c!"counter", c.2.1.length, dur w (s.ticks + 1) (s.ticks + 2)),
                      (c!"timer", t.2.1.length, dur w (s.ticks + 3) (s.ticks + 4)),
                      (c!"gauge", g.length, dur w (s.ticks + 5) (s.ticks + 6)),
                      (c!"meter", m.2.1.length, dur w (s.ticks + 7) (s.ticks + 8)),
                      (c!"plugin", p.2.1.length, dur w (s.ticks + 9) p.1.ticks)]
          let r := runSummary I ts acc { p.1 with ticks := p.1.ticks + 1 }
          (r.1, pts ++ r.2.1, r.2.2)

theorem runPhases_err {I : Impl C T G PF PM} {w : World} {secs percent ts : ℤ} {k : Nat} {ks : List Nat}
    {acc : List PerMetric} {s s' : PS C T G PF PM} {gs : List (List Datapoint)} {e : PyErr}
    (h : runVisits (phaseVisit I w secs percent ts k) (List.range (phaseLen I s k))
      { s with ticks := s.ticks + 1 } = (s', gs, some e)) :
    runPhases I w secs percent ts (k :: ks) acc s = (s', gs.flatten, .error e) := by
  have hl : phaseLen I { s with ticks := s.ticks + 1 } k = phaseLen I s k := by
    unfold phaseLen; split <;> rfl
  simp only [runPhases, hl, h]

theorem runPhases_ok {I : Impl C T G PF PM} {w : World} {secs percent ts : ℤ} {k : Nat} {ks : List Nat}
    {acc : List PerMetric} {s s' : PS C T G PF PM} {gs : List (List Datapoint)}
    (h : runVisits (phaseVisit I w secs percent ts k) (List.range (phaseLen I s k))
      { s with ticks := s.ticks + 1 } = (s', gs, none)) :
    runPhases I w secs percent ts (k :: ks) acc s =
      let r := runPhases I w secs percent ts ks
        (acc ++ [(phaseName k, gs.length, dur w s.ticks s'.ticks)]) { s' with ticks := s'.ticks + 1 }
      (r.1, gs.flatten ++ r.2.1, r.2.2) := by
  have hl : phaseLen I { s with ticks := s.ticks + 1 } k = phaseLen I s k := by
    unfold phaseLen; split <;> rfl
  simp only [runPhases, hl, h, dur]

theorem flush_eq_form (I : Impl C T G PF PM) (w : World) (interval percent : ℤ) (s : PS C T G PF PM)
    (hc : Dict.Wf s.counters) (ht : Dict.Wf s.timers) (hm : Dict.Wf s.meters)
    (sh : Shape I (Int.fdiv interval 1000) percent (truncQ (w.clk s.ticks))) :
    flush I w interval percent s =
      flushForm I w (Int.fdiv interval 1000) (truncQ (w.clk s.ticks)) (sh.rc s.counters)
        (sh.rt s.timers) (sh.gg s.gauges) (meterRes (truncQ (w.clk s.ticks)) s.meters) s := by
  unfold flush
  revert sh
  generalize Int.fdiv interval 1000 = secs
  generalize truncQ (w.clk s.ticks) = ts
  intro sh
  simp only
  unfold flushForm
  have e0 := sh.hc { s with ticks := s.ticks + 1 + 1 } hc
  rcases hr0 : sh.rc s.counters with ⟨c1, cg, ce⟩
  simp only [hr0] at e0
  cases ce with
  | some e => rw [runPhases_err (I := I) (w := w) (secs := secs) (percent := percent) (ts := ts) (k := 0)
      (s := { s with ticks := s.ticks + 1 }) e0]
  | none =>
    rw [runPhases_ok (I := I) (w := w) (secs := secs) (percent := percent) (ts := ts) (k := 0)
      (s := { s with ticks := s.ticks + 1 }) e0]
    have e1 := sh.ht { s with ticks := s.ticks + 1 + 1 + 1 + 1, counters := c1 } ht
    rcases hr1 : sh.rt s.timers with ⟨t1, tg, te⟩
    simp only [hr1] at e1
    cases te with
    | some e => rw [runPhases_err (I := I) (w := w) (secs := secs) (percent := percent) (ts := ts) (k := 1)
      (s := { s with ticks := s.ticks + 1 + 1 + 1, counters := c1 }) e1]
    | none =>
      rw [runPhases_ok (I := I) (w := w) (secs := secs) (percent := percent) (ts := ts) (k := 1)
      (s := { s with ticks := s.ticks + 1 + 1 + 1, counters := c1 }) e1]
      have e2 := sh.hg { s with ticks := s.ticks + 1 + 1 + 1 + 1 + 1 + 1, counters := c1, timers := t1 }
      rw [runPhases_ok (I := I) (w := w) (secs := secs) (percent := percent) (ts := ts) (k := 2)
      (s := { s with ticks := s.ticks + 1 + 1 + 1 + 1 + 1, counters := c1, timers := t1 }) e2]
      have e3 := run_meters ts { s with ticks := s.ticks + 1 + 1 + 1 + 1 + 1 + 1 + 1 + 1, counters := c1, timers := t1 } hm
      rcases hr3 : meterRes ts s.meters with ⟨m1, mg, me⟩
      simp only [meterRes] at hr3
      simp only [hr3] at e3
      cases me with
      | some e => rw [runPhases_err (I := I) (w := w) (secs := secs) (percent := percent) (ts := ts) (k := 3)
      (s := { s with ticks := s.ticks + 1 + 1 + 1 + 1 + 1 + 1 + 1, counters := c1, timers := t1 }) e3]; simp only [List.append_assoc]
      | none =>
        rw [runPhases_ok (I := I) (w := w) (secs := secs) (percent := percent) (ts := ts) (k := 3)
      (s := { s with ticks := s.ticks + 1 + 1 + 1 + 1 + 1 + 1 + 1, counters := c1, timers := t1 }) e3]
        rcases hr4 : runVisits (pluginVisit I w secs ts) (List.range s.pluginMetrics.length)
          { s with ticks := s.ticks + 1 + 1 + 1 + 1 + 1 + 1 + 1 + 1 + 1 + 1, counters := c1, timers := t1, meters := m1 }
          with ⟨s5, pg, pe⟩
        have hr4' : runVisits (pluginVisit I w secs ts) (List.range s.pluginMetrics.length)
          { s with ticks := s.ticks + 10, counters := c1, timers := t1, meters := m1 } = (s5, pg, pe) := hr4
        cases pe with
        | some e =>
          rw [runPhases_err (I := I) (w := w) (secs := secs) (percent := percent) (ts := ts) (k := 4)
      (s := { s with ticks := s.ticks + 1 + 1 + 1 + 1 + 1 + 1 + 1 + 1 + 1, counters := c1, timers := t1, meters := m1 }) hr4]
          simp only [hr4', List.append_assoc]
        | none =>
          rw [runPhases_ok (I := I) (w := w) (secs := secs) (percent := percent) (ts := ts) (k := 4)
      (s := { s with ticks := s.ticks + 1 + 1 + 1 + 1 + 1 + 1 + 1 + 1 + 1, counters := c1, timers := t1, meters := m1 }) hr4]
          simp only [hr4', List.append_assoc, runPhases, phaseName, List.nil_append, List.cons_append,
            List.append_nil]

end

section
variable [Rounding] {PF PM : Type}

/-- The shape of the MessageProcessor. -/
def mpShape (ops : PluginOps PF PM) (secs percent ts : ℤ) : Shape (messageProcessor ops) secs percent ts where
  rc := runElems (fun _ _ => Num.int 0) (counterGroup secs ts)
  rt := runElems (fun _ _ => []) (timerGroup percent ts)
  gg := fun (g : List (PyFloat × Str)) => g.map fun (p : PyFloat × Str) => [⟨c!"stats.gauge." ++ p.2 ++ c!".value", Num.flt p.1, ts⟩]
  hc := fun s h => run_counters secs ts s h
  ht := fun s h => run_timers percent ts s h
  hg := fun s => run_gauges ts s

end
end Txstatsd
