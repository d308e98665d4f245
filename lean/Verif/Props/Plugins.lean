import Verif.Lemmas.Plugins
import Verif.Props.Distinct
import Verif.Props.Sli
import Verif.Props.Metrics

/-!
# The shipped plugins inside the server: C78, C81, C84
-/

namespace Txstatsd
open Spec
section
variable [Rounding] {PF PM : Type}

/-! ## C78 -/

/-- C78: once a name has a plugin metric, every message of any registered plugin type under this name is given to that metric,
whatever plugin built it. -/
theorem C78_owner (ops : PluginOps PF PM) (w : World) (s : MPState PF PM) (msg : Str) (m : Metric)
    (hp : parseMessage msg = some m) (ht : m.mtype ∉ [c!"c", c!"ms", c!"g", c!"m"]) (f : PF)
    (hf : s.plugins.find m.mtype = some f) (owner : PM) (ho : s.pluginMetrics.find m.key = some owner) :
    (process (messageProcessor ops) w s msg).1.pluginMetrics.find m.key =
      some (ops.process w (s.ticks + 1) owner m.fields).1 := by
  rw [process_plugin ops w s hp ht hf, ho]
  rfl

/-- C78: the first message of a registered plugin type under a name makes that type's plugin build the metric, with the server's
prefix and the plugin's name, and is then processed by it. -/
theorem C78_first (ops : PluginOps PF PM) (w : World) (s : MPState PF PM) (msg : Str) (m : Metric)
    (hp : parseMessage msg = some m) (ht : m.mtype ∉ [c!"c", c!"ms", c!"g", c!"m"]) (f : PF)
    (hf : s.plugins.find m.mtype = some f) (ho : s.pluginMetrics.find m.key = none) :
    (process (messageProcessor ops) w s msg).1.pluginMetrics.find m.key =
      some (ops.process w (s.ticks + 1) (ops.build w (s.ticks + 1) f (c!"stats." ++ ops.name f) m.key) m.fields).1 := by
  rw [process_plugin ops w s hp ht hf, ho]
  rfl

/-- C78 (the part of the isolation that holds): a message never touches the plugin metrics of other names. -/
theorem C78_other_names_partial (ops : PluginOps PF PM) (w : World) (s : MPState PF PM) (msg : Str) (m : Metric)
    (hp : parseMessage msg = some m) (k : Str) (hk : k ≠ m.key) :
    (process (messageProcessor ops) w s msg).1.pluginMetrics.find k = s.pluginMetrics.find k :=
  process_pluginMetrics_ne ops w s hp hk

end

section
variable [Rounding] [Power]

/-- The server with both shipped plugins. -/
def shippedServer (cfg : SliConfig) : MPState Factory PluginMetric := MPState.init shippedOps [.distinct, .sli cfg]

theorem shipped_plugins (cfg : SliConfig) : (shippedServer cfg).plugins = [(c!"pd", .distinct), (c!"sli", .sli cfg)] := rfl

theorem shipped_sli (cfg : SliConfig) : (shippedServer cfg).plugins.find c!"sli" = some (.sli cfg) := rfl

theorem shipped_types (cfg : SliConfig) (t : Str) (f : Factory) (h : (shippedServer cfg).plugins.find t = some f) :
    t = c!"sli" ∨ t = c!"pd" := by
  rw [shipped_plugins] at h
  simp only [Dict.find] at h
  split_ifs at h with h1 h2
  · exact .inr h1.symm
  · exact .inl h2.symm

/-! ## C84 -/

/-- C84: on a server with the shipped plugins, after any messages of which none uses the name with the type `pd`, the SLI metric of
that name exists iff an SLI message was sent to it, has the conditions of the configuration, and flushes to exactly the counts
of its accepted messages. -/
theorem C84_server (w : World) (cfg : SliConfig) (key : Str) (ms : List Str) (hn : NoDistinct key ms)
    (hc : ProperConditions (buildSli cfg c!"stats.SLI" key).conditions) (ts : ℤ) :
    let s := processAll (messageProcessor shippedOps) w (shippedServer cfg) ms
    (sliOps key ms = [] → s.pluginMetrics.find key = none) ∧
    (sliOps key ms ≠ [] → ∃ r, s.pluginMetrics.find key = some (.sli r) ∧
      r.conditions = (buildSli cfg c!"stats.SLI" key).conditions ∧
      (r.flush ts).2.Perm (sliPoints (c!"stats.SLI." ++ key) (buildSli cfg c!"stats.SLI" key).conditions
        (eventsSince (sliOps key ms)) ts)) := by
  intro s
  have h := sli_after w cfg key ms (shippedServer cfg) (shipped_sli cfg) (shipped_types cfg) hn none rfl
  constructor
  · intro h0
    rw [h0] at h
    exact h
  · intro hne
    obtain ⟨op, ops, hops⟩ := List.exists_cons_of_ne_nil hne
    rw [hops] at h
    have hb : buildSli cfg c!"stats.SLI" key =
        .init (c!"stats.SLI." ++ key) (buildSli cfg c!"stats.SLI" key).conditions := by
      simp [buildSli, SliReporter.init, SliReporter.clear, sliPath]
    refine ⟨runSli (buildSli cfg c!"stats.SLI" key) (op :: ops), h, ?_, ?_⟩
    · rw [hb, runSli_eq _ hc]; rfl
    · rw [hops]
      conv_lhs => rw [hb]
      exact C44_flush _ _ hc _ ts

/-! ## C78, on the shipped plugins -/

/-- C78 (the part of the isolation that holds): if no message uses the name with the type `pd`, all accepted SLI messages under it
are counted. -/
theorem C78_count_partial (w : World) (cfg : SliConfig) (key : Str) (ms : List Str) (hn : NoDistinct key ms)
    (hc : ProperConditions (buildSli cfg c!"stats.SLI" key).conditions) :
    sliCount (processAll (messageProcessor shippedOps) w (shippedServer cfg) ms) key = (eventsSince (sliOps key ms)).length := by
  have h := sli_after w cfg key ms (shippedServer cfg) (shipped_sli cfg) (shipped_types cfg) hn none rfl
  unfold sliCount
  rw [h]
  cases hops : sliOps key ms with
  | nil => rfl
  | cons op ops =>
    have hb : buildSli cfg c!"stats.SLI" key =
        .init (c!"stats.SLI." ++ key) (buildSli cfg c!"stats.SLI" key).conditions := by
      simp [buildSli, SliReporter.init, SliReporter.clear, sliPath]
    simp only [sliMetric, Option.map_some]
    rw [hb, runSli_eq _ hc]
    rfl

/-! ## C81 -/

/-- C81: the server with the shipped plugins logs every message of the type `d` as bad and keeps its state (but for one clock
reading). -/
theorem C81_server_rejects (w : World) (cfg : SliConfig) (before : List Str) (msg : Str) (m : Metric)
    (hp : parseMessage msg = some m) (ht : m.mtype = c!"d") :
    let s := processAll (messageProcessor shippedOps) w (shippedServer cfg) before
    process (messageProcessor shippedOps) w s msg = ({ s with ticks := s.ticks + 1 }, { bad := [msg], exc := none }) := by
  intro s
  have hpl : s.plugins = (shippedServer cfg).plugins := by
    simp only [s]
    generalize shippedServer cfg = s0
    induction before generalizing s0 with
    | nil => rfl
    | cons x xs ih =>
      have : processAll (messageProcessor shippedOps) w s0 (x :: xs) =
          processAll (messageProcessor shippedOps) w (process (messageProcessor shippedOps) w s0 x).1 xs := rfl
      rw [this, ih, process_plugins]
  have h1 : s.plugins.find m.mtype = none := by rw [hpl, shipped_plugins, ht]; simp [Dict.find]
  have e : m.mtype ≠ c!"c" ∧ m.mtype ≠ c!"ms" ∧ m.mtype ≠ c!"g" ∧ m.mtype ≠ c!"m" := by rw [ht]; decide
  simp [process, hp, processMessage, dispatch, e, h1]

omit [Power] in
/-- C81: and this is the type the client's `distinct` sends: the first call for a name writes the item with the type `d`, which
parses (here for an item without `|`), so that the server rejects it. -/
theorem C81_client_sends (fmt : PyFloat → Str) (c : Client) (hconn : c.conn = true) (now : PyFloat) (draw : ℚ)
    (name : Option Str) (item : Arg) (hnew : c.metrics.find (qualified c.namespc name) = none)
    (hlegal : ∀ x ∈ qualified c.namespc name, Legal x) (hitem : '|' ∉ item.render fmt) :
    ∃ msg, (c.call fmt now draw (.distinct name item)).2 = { out := some msg } ∧
      parseMessage msg = some ⟨c!"d", qualified c.namespc name, [item.render fmt, c!"d"]⟩ := by
  refine ⟨qualified c.namespc name ++ c!":" ++ (item.render fmt ++ c!"|" ++ c!"d"), ?_, ?_⟩
  · rw [C66_sampling fmt c hconn now draw (.distinct name item) (qualified c.namespc name) (item.render fmt ++ c!"|d")
      (.int 1) 1 rfl hnew rfl (by simp [Num.exact]) rfl (by intro n; simp [kindOf])]
    simp [sampled]
  · exact parse_two hlegal hitem (by decide) (by intro x hx; simp at hx; subst hx; decide) (by decide)

/-- C81 (what holds): sent by hand with the type `pd`, an item does reach a distinct counter. -/
theorem C81_plugin_type_partial (w : World) (cfg : SliConfig) (msg : Str) (m : Metric) (hp : parseMessage msg = some m)
    (ht : m.mtype = c!"pd") :
    ∃ r, (process (messageProcessor shippedOps) w (shippedServer cfg) msg).1.pluginMetrics.find m.key = some (.distinct r) ∧
      r.name = m.key ∧ r.pre = c!"stats.pdistinct." := by
  have h := C78_first shippedOps w (shippedServer cfg) msg m hp (by rw [ht]; decide) .distinct (by rw [ht]; rfl) rfl
  obtain ⟨_, f0, rest, hfs⟩ : ∃ _ : Unit, ∃ f0 rest, m.fields = f0 :: rest := by
    rcases parse_fields hp with h | h
    all_goals (obtain ⟨f0, h⟩ := h)
    · exact ⟨(), _, _, h⟩
    · obtain ⟨f2, h⟩ := h
      exact ⟨(), _, _, h⟩
  refine ⟨_, h, ?_, ?_⟩ <;>
  · simp only [hfs, DistinctReporter.process, DistinctReporter.update]
    split <;> simp [DistinctReporter.init, shippedOps]

end

section
attribute [local instance] ratRounding exPower

/-- C78 is false: an SLI message under a name that a `pd` message used before is not counted by any SLI metric. -/
theorem C78_refuted : ¬ ∀ (key : Str) (ms : List Str),
    sliCount (processAll (messageProcessor shippedOps) exWorld (shippedServer []) ms) key =
      (eventsSince (sliOps key ms)).length := by
  intro h
  have := h c!"a" [c!"a:bob|pd", c!"a:3|sli"]
  revert this
  decide +kernel

/-- C81 is false: what `distinct` sends for a new name reaches no metric of the server. -/
theorem C81_refuted : ¬ ∀ (name item msg : Str),
    (({ conn := true, namespc := none, ext := false } : Client).call exFmt (.fin 0) 0 (.distinct (some name) (.text item))).2.out = some msg →
    ∃ m, (process (messageProcessor shippedOps) exWorld (shippedServer []) msg).1.pluginMetrics.find name = some m := by
  intro h
  obtain ⟨m, hm⟩ := h c!"users" c!"bob" c!"users:bob|d" (by decide +kernel)
  have : (process (messageProcessor shippedOps) exWorld (shippedServer []) c!"users:bob|d").1.pluginMetrics.keys = [] := by
    decide +kernel
  have h0 := Dict.mem_keys_of_mem (Dict.mem_of_find hm)
  rw [this] at h0
  cases h0

example : NoDistinct c!"a" [c!"a:3|sli", c!"b:x|pd", c!"a:error|sli", c!"a:1|c"] := by
  have : ∀ msg ∈ [c!"a:3|sli", c!"b:x|pd", c!"a:error|sli", c!"a:1|c"],
      ((parseMessage msg).map fun m => decide (m.key = c!"a" → m.mtype ≠ c!"pd")) = some true := by decide +kernel
  intro msg h m hm hk
  have := this msg h
  rw [hm] at this
  simpa using (of_decide_eq_true (Option.some.inj this)) hk

example : sliOps c!"a" [c!"a:3|sli", c!"b:x|pd", c!"a:error|sli", c!"a:1|c"] ≠ [] ∧
    ProperConditions (buildSli [(c!"*.a", exConds)] c!"stats.SLI" c!"a").conditions := by
  have h : (buildSli [(c!"*.a", exConds)] c!"stats.SLI" c!"a").conditions = exConds := by decide +kernel
  refine ⟨?_, by rw [h]; exact ⟨by decide, by decide⟩⟩
  intro h
  have h2 : (sliOps c!"a" [c!"a:3|sli", c!"b:x|pd", c!"a:error|sli", c!"a:1|c"]).length = 2 := by decide +kernel
  rw [h] at h2
  cases h2

example : parseMessage c!"users:bob|d" = some ⟨c!"d", c!"users", [c!"bob", c!"d"]⟩ := by decide +kernel

example : parseMessage c!"users:bob|pd" = some ⟨c!"pd", c!"users", [c!"bob", c!"pd"]⟩ ∧
    (∀ x ∈ qualified (some c!"app") (some c!"users"), Legal x) ∧ '|' ∉ (Arg.text c!"bob").render exFmt := by
  refine ⟨by decide +kernel, by decide +kernel, by decide⟩

end
end Txstatsd
