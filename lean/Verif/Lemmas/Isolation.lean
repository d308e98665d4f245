import Verif.Lemmas.CounterFlush

set_option linter.unusedSectionVars false
set_option linter.unusedSimpArgs false
set_option linter.unusedVariables false

namespace Txstatsd
open Spec
section
variable [Rounding] {PF PM : Type}

theorem process_pluginMetrics_builtin (ops : PluginOps PF PM) (w : World) (s : MPState PF PM) {msg : Str} {m : Metric}
    (hp : parseMessage msg = some m) (ht : m.mtype ∈ [c!"c", c!"ms", c!"g", c!"m"]) :
    (process (messageProcessor ops) w s msg).1.pluginMetrics = s.pluginMetrics := by
  rw [process_obs obs_pluginMetrics, hp]
  simp only
  unfold dispatch
  simp only [List.mem_cons, List.not_mem_nil, or_false] at ht
  split_ifs with h1 h2 h3 h4
  · exact ((mp_local ops).counter w { s with ticks := s.ticks + 1 } m.key m.fields msg).pluginMetrics
  · simp only [processTimer]; split
    · rfl
    · exact ((mp_local ops).timer w { s with ticks := s.ticks + 1 } m.key _).pluginMetrics
  · simp only [processGauge]; split
    · rfl
    · split
      · rfl
      · exact ((mp_local ops).gauge { s with ticks := s.ticks + 1 } m.key _).pluginMetrics
  · simp only [processMeter, composeMeter]; split
    · rfl
    · split
      · rfl
      · split <;> rfl
  · simp_all

theorem process_pluginMetrics_ne (ops : PluginOps PF PM) (w : World) (s : MPState PF PM) {msg : Str} {m : Metric}
    (hp : parseMessage msg = some m) {k : Str} (hk : k ≠ m.key) :
    (process (messageProcessor ops) w s msg).1.pluginMetrics.find k = s.pluginMetrics.find k := by
  by_cases ht : m.mtype ∈ [c!"c", c!"ms", c!"g", c!"m"]
  · rw [process_pluginMetrics_builtin ops w s hp ht]
  · rw [process_obs obs_pluginMetrics, hp]
    simp only
    unfold dispatch
    simp only [List.mem_cons, List.not_mem_nil, or_false, not_or] at ht
    obtain ⟨h1, h2, h3, h4⟩ := ht
    simp only [h1, h2, h3, h4, if_false]
    cases s.plugins.find m.mtype with
    | none => rfl
    | some f =>
      simp only [processPlugin]
      cases hf : s.pluginMetrics.find m.key with
      | some pm => simp only [hf]; exact Dict.find_put_ne _ _ hk
      | none =>
        simp only [Dict.find_put_self]
        rw [Dict.find_put_ne _ _ hk, Dict.find_put_ne _ _ hk]

/-- What `process` does with a grammatical message of a built-in type. -/
theorem process_parsed (ops : PluginOps PF PM) (w : World) (s : MPState PF PM) {msg t k : Str} {fs : List Str}
    (h : Parsed msg t k fs) :
    process (messageProcessor ops) w s msg = processMessage (messageProcessor ops) w s msg ⟨t, k, fs⟩ := by
  simp [process, parsed_iff.1 h]

theorem counterEffect_parsed {msg t k k' : Str} {fs : List Str} {o : Option PyFloat} (h : Parsed msg t k fs)
    (he : counterEffect msg = some (k', o)) : k' = k := by
  obtain ⟨fs', h'⟩ := counterEffect_key he
  have h1 := parsed_iff.1 h
  rw [parsed_iff.1 h'] at h1
  simp only [Option.some.injEq, Metric.mk.injEq] at h1
  exact h1.2.1

end
end Txstatsd
