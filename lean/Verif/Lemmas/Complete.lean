import Verif.Lemmas.Timer

set_option linter.unusedSectionVars false
set_option linter.unusedSimpArgs false
set_option linter.unusedVariables false

namespace Txstatsd
open Spec
section
variable [Rounding] {C T G PF PM : Type}

/-- A flush that raises nothing has gone through all sections. -/
theorem flushForm_complete (I : Impl C T G PF PM) (w : World) (secs ts : ℤ) (c : PhaseRes C) (t : PhaseRes T)
    (g : List (List Datapoint)) (m : PhaseRes Meter) (s : PS C T G PF PM) (hs : Shared s)
    (hm : Dict.keys m.1 = s.meters.keys) (hok : (flushForm I w secs ts c t g m s).2.2 = none)
    (hc : ∀ p ∈ s.pluginMetrics, Came I.ops I.messagePrefix p.1 p.2) :
    c.2.2 = none ∧ t.2.2 = none ∧ m.2.2 = none ∧
    ∃ (gs : List (List Datapoint)) (acc : List PerMetric),
      gs.length = s.pluginMetrics.length ∧
      (∀ gr ∈ gs, ∀ d ∈ gr, PluginPoint I.ops w I.messagePrefix secs ts d) ∧
      (acc.map fun (p : PerMetric) => (p.1, p.2.1)) =
        [(c!"counter", c.2.1.length), (c!"timer", t.2.1.length), (c!"gauge", g.length), (c!"meter", m.2.1.length),
         (c!"plugin", gs.length)] ∧
      (flushForm I w secs ts c t g m s).2.1 =
        c.2.1.flatten ++ t.2.1.flatten ++ g.flatten ++ m.2.1.flatten ++ gs.flatten ++
        (numStatsPoint I acc ts :: (acc.flatMap (perMetricPoints I ts) ++
         s.processTimings.flatMap fun p => receivePoints I ts p.1 ((s.byType.find p.1).getD 0) p.2)) := by
  have hmw : Dict.Wf m.1 := by unfold Dict.Wf; rw [hm]; exact hs.meters
  unfold flushForm at hok ⊢
  cases h0 : c.2.2 with
  | some e => simp [h0] at hok
  | none =>
    cases h1 : t.2.2 with
    | some e => simp [h0, h1] at hok
    | none =>
      cases h3 : m.2.2 with
      | some e => simp [h0, h1, h3] at hok
      | none =>
        simp only [h0, h1, h3] at hok ⊢
        obtain ⟨tk, pm, gs, e, he, hk, hlen, _, hcm⟩ := plugin_phase I w secs ts
          { s with ticks := s.ticks + 10, counters := c.1, timers := t.1, meters := m.1 } hs.pluginMetrics
        simp only at he hk hlen
        rw [he] at hok ⊢
        have hpw : Dict.Wf pm := by unfold Dict.Wf; rw [hk]; exact hs.pluginMetrics
        cases e with
        | some e => simp at hok
        | none =>
          refine ⟨trivial, trivial, trivial, gs,
            [(c!"counter", c.2.1.length, dur w (s.ticks + 1) (s.ticks + 2)),
             (c!"timer", t.2.1.length, dur w (s.ticks + 3) (s.ticks + 4)),
             (c!"gauge", g.length, dur w (s.ticks + 5) (s.ticks + 6)),
             (c!"meter", m.2.1.length, dur w (s.ticks + 7) (s.ticks + 8)),
             (c!"plugin", gs.length, dur w (s.ticks + 9) tk)], hlen rfl, (fun gr h1 d h2 => by
               obtain ⟨t, k, m, h4, h3⟩ := (hcm _ hc).2 gr h1
               exact ⟨t, k, m, gr, h4, h3, h2⟩), rfl, ?_⟩
          have hs6 : Shared { s with ticks := tk + 1, counters := c.1, timers := t.1, meters := m.1, pluginMetrics := pm } :=
            ⟨hmw, hpw, hs.3, hs.4, hs.5⟩
          simp only
          rw [runSummary_ok I ts _ hs6]

end
end Txstatsd
