import Verif.Spec.Plugins
import Verif.Lemmas.Names
import Verif.Lemmas.Isolation
import Verif.Lemmas.Sli

set_option linter.unusedSectionVars false
set_option linter.unusedSimpArgs false
set_option linter.unusedVariables false

namespace Txstatsd
open Spec
section
variable [Rounding] {PF PM : Type}

/-- What a message of a registered plugin type does to the metric of its name. -/
theorem process_plugin (ops : PluginOps PF PM) (w : World) (s : MPState PF PM) {msg : Str} {m : Metric}
    (hp : parseMessage msg = some m) (ht : m.mtype ∉ [c!"c", c!"ms", c!"g", c!"m"]) {f : PF}
    (hf : s.plugins.find m.mtype = some f) :
    (process (messageProcessor ops) w s msg).1.pluginMetrics.find m.key =
      some (ops.process w (s.ticks + 1) ((s.pluginMetrics.find m.key).getD
        (ops.build w (s.ticks + 1) f (c!"stats." ++ ops.name f) m.key)) m.fields).1 := by
  rw [process_obs obs_pluginMetrics, hp]
  simp only
  unfold dispatch
  simp only [List.mem_cons, List.not_mem_nil, or_false, not_or] at ht
  obtain ⟨h1, h2, h3, h4⟩ := ht
  simp only [h1, h2, h3, h4, if_false, hf]
  simp only [processPlugin]
  cases hk : s.pluginMetrics.find m.key with
  | some pm => simp only [hk, Dict.find_put_self]; rfl
  | none => simp only [Dict.find_put_self]; rfl

theorem process_plugin_none (ops : PluginOps PF PM) (w : World) (s : MPState PF PM) {msg : Str} {m : Metric}
    (hp : parseMessage msg = some m) (hf : s.plugins.find m.mtype = none) :
    (process (messageProcessor ops) w s msg).1.pluginMetrics = s.pluginMetrics := by
  by_cases ht : m.mtype ∈ [c!"c", c!"ms", c!"g", c!"m"]
  · exact process_pluginMetrics_builtin ops w s hp ht
  · rw [process_obs obs_pluginMetrics, hp]
    simp only
    unfold dispatch
    simp only [List.mem_cons, List.not_mem_nil, or_false, not_or] at ht
    obtain ⟨h1, h2, h3, h4⟩ := ht
    simp only [h1, h2, h3, h4, if_false, hf]

theorem process_unparsed (ops : PluginOps PF PM) (w : World) (s : MPState PF PM) {msg : Str}
    (hp : parseMessage msg = none) : (process (messageProcessor ops) w s msg).1 = s := by
  simp [process, hp]

end

section
variable [Rounding] [Power]

/-- An SLI metric that may not exist yet, after some operations. -/
def sliMetric (cfg : SliConfig) (key : Str) : Option SliReporter → List SliOp → Option SliReporter
  | some r, ops => some (runSli r ops)
  | none, [] => none
  | none, op :: ops => some (runSli (buildSli cfg c!"stats.SLI" key) (op :: ops))

/-- The SLI metric of a name after a sequence of messages. -/
theorem sli_after (w : World) (cfg : SliConfig) (key : Str) (ms : List Str) (s : MPState Factory PluginMetric)
    (hs : s.plugins.find c!"sli" = some (.sli cfg))
    (hd : ∀ t f, s.plugins.find t = some f → t = c!"sli" ∨ t = c!"pd") (hn : NoDistinct key ms) (o : Option SliReporter)
    (ho : s.pluginMetrics.find key = o.map .sli) :
    (processAll (messageProcessor shippedOps) w s ms).pluginMetrics.find key =
      (sliMetric cfg key o (sliOps key ms)).map .sli := by
  induction ms generalizing s o with
  | nil =>
    simp only [sliOps, List.filterMap_nil, processAll, List.foldl_nil, ho]
    cases o <;> rfl
  | cons msg ms ih =>
    have hn' : NoDistinct key ms := fun x hx => hn x (by simp [hx])
    have hpl := process_plugins shippedOps w s msg
    have ih := ih (process (messageProcessor shippedOps) w s msg).1 (by rw [hpl]; exact hs) (by rw [hpl]; exact hd) hn'
    have hstep : processAll (messageProcessor shippedOps) w s (msg :: ms) =
        processAll (messageProcessor shippedOps) w (process (messageProcessor shippedOps) w s msg).1 ms := rfl
    rw [hstep]
    have same : (process (messageProcessor shippedOps) w s msg).1.pluginMetrics.find key = s.pluginMetrics.find key →
        sliOps key (msg :: ms) = sliOps key ms →
        (processAll (messageProcessor shippedOps) w (process (messageProcessor shippedOps) w s msg).1 ms).pluginMetrics.find key =
      (sliMetric cfg key o (sliOps key (msg :: ms))).map .sli := fun h1 h2 => by
      rw [h2]
      exact ih o (by rw [h1, ho])
    cases hp : parseMessage msg with
    | none =>
      apply same
      · rw [process_unparsed shippedOps w s hp]
      · simp [sliOps, hp]
    | some m =>
      by_cases hk : m.key = key
      · by_cases ht : m.mtype = c!"sli"
        · have hops : sliOps key (msg :: ms) = .event m.fields :: sliOps key ms := by simp [sliOps, hp, hk, ht]
          have hpr := process_plugin shippedOps w s hp (by rw [ht]; decide) (by rw [ht]; exact hs)
          rw [hk, ho] at hpr
          rw [hops]
          cases o with
          | none =>
            rw [ih (some ((buildSli cfg c!"stats.SLI" key).process m.fields).1) hpr]
            rfl
          | some r =>
            rw [ih (some (r.process m.fields).1) hpr]
            rfl
        · apply same
          · cases hf : s.plugins.find m.mtype with
            | none => rw [process_plugin_none shippedOps w s hp hf]
            | some f =>
              rcases hd _ _ hf with h | h
              · exact absurd h ht
              · exact absurd h (hn msg (by simp) m hp hk)
          · simp [sliOps, hp, ht]
      · apply same
        · exact process_pluginMetrics_ne shippedOps w s hp (Ne.symm hk)
        · simp [sliOps, hp, hk]

end
end Txstatsd
