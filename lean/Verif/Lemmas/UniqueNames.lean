import Verif.Lemmas.Complete
import Verif.Lemmas.Gauge
import Verif.Lemmas.ConfigurableStored
import Verif.Lemmas.ConfigurableMisc
import Verif.Lemmas.PluginLife
import Verif.Lemmas.WatchDefault
import Verif.Lemmas.WatchTimerC
import Verif.Spec.Interleaved
import Verif.Spec.UniqueNames
import Verif.Lemmas.Names
import Verif.Lemmas.Reorder

set_option linter.unusedSectionVars false
set_option linter.unusedSimpArgs false
set_option linter.unusedVariables false

/-!
# Lemmas for C173: names of the datapoints of one flush
-/

namespace Txstatsd
open Spec
section
variable [Rounding] {C T G PF PM : Type}

/-- Groups of different keys share no name. -/
theorem runElems_unique {V : Type} (f : Str → V → V) (g : Str → V → VisitResult) (R : Str → Str → Prop)
    (hR : ∀ k k' n, R k n → R k' n → k = k') (d : Dict V) (hw : Dict.Wf d)
    (h : ∀ p ∈ d, ∀ gr, g p.1 p.2 = .ok (some gr) → (gr.map (·.name)).Nodup ∧ ∀ x ∈ gr, R p.1 x.name) :
    ((runElems f g d).2.1.flatten.map (·.name)).Nodup := by
  induction d with
  | nil => simp [runElems]
  | cons q rest ih =>
    obtain ⟨k, v⟩ := q
    have hw' : k ∉ Dict.keys rest ∧ Dict.Wf rest := by
      unfold Dict.Wf at hw ⊢; simpa [Dict.keys] using hw
    have ih := ih hw'.2 fun p hp => h p (List.mem_cons_of_mem _ hp)
    rw [runElems]
    cases hg : g k v with
    | error e => simp
    | ok o =>
      cases o with
      | none => simpa using ih
      | some gr =>
        obtain ⟨h1, h2⟩ := h (k, v) (by simp) gr hg
        simp only [Option.toList_some, List.singleton_append, List.flatten_cons, List.map_append]
        rw [List.nodup_append]
        refine ⟨h1, ih, ?_⟩
        intro a ha b hb e
        subst e
        obtain ⟨x, hx, rfl⟩ := List.mem_map.1 ha
        obtain ⟨y, hy, e⟩ := List.mem_map.1 hb
        obtain ⟨gr', hgr', hy⟩ := List.mem_flatten.1 hy
        obtain ⟨p, hp, hgp⟩ := runElems_groups f g rest gr' hgr'
        have r2 := (h p (List.mem_cons_of_mem _ hp) gr' hgp).2 y hy
        rw [e] at r2
        have := hR _ _ _ (h2 x hx) r2
        simp only at this
        exact hw'.1 (this ▸ Dict.mem_keys_of_mem (k := p.1) (v := p.2) hp)

/-- The names of two datapoints per word. -/
theorem two_unique {a : Str} {l : List Str} (hl : l.Nodup) :
    (l.flatMap fun t => [a ++ t ++ c!".count", a ++ t ++ c!".duration"]).Nodup := by
  induction l with
  | nil => simp
  | cons t rest ih =>
    rw [List.nodup_cons] at hl
    rw [List.flatMap_cons, List.nodup_append]
    have ne : ∀ x y : Str, a ++ x ++ c!".count" ≠ a ++ y ++ c!".duration" := by
      intro x y e
      have := congrArg List.getLast? e
      simp [List.getLast?_append] at this
    refine ⟨by simp, ih hl.2, ?_⟩
    intro x hx y hy e
    subst e
    obtain ⟨t', ht', hy⟩ := List.mem_flatMap.1 hy
    simp only [List.mem_cons, List.not_mem_nil, or_false] at hx hy
    have key : t = t' := by
      rcases hx with rfl | rfl <;> rcases hy with e | e
      · exact List.append_cancel_left (List.append_cancel_right e)
      · exact absurd e (ne _ _)
      · exact absurd e.symm (ne _ _)
      · exact List.append_cancel_left (List.append_cancel_right e)
    exact hl.1 (key ▸ ht')

/-- The own statistics have different names. -/
theorem summary_unique (I : Impl C T G PF PM) (ts : ℤ) (acc : List PerMetric) (pt : Dict Num) (bt : Str → Nat)
    (ha : acc.map (fun (p : PerMetric) => p.1) = [c!"counter", c!"timer", c!"gauge", c!"meter", c!"plugin"])
    (hp : Dict.Wf pt) :
    ((numStatsPoint I acc ts :: (acc.flatMap (perMetricPoints I ts) ++
      pt.flatMap fun p => receivePoints I ts p.1 (bt p.1) p.2)).map (·.name)).Nodup := by
  have e1 : (acc.flatMap (perMetricPoints I ts)).map (·.name) =
      ((acc.map (fun (p : PerMetric) => p.1)).flatMap fun t => [c!"flush." ++ t ++ c!".count", c!"flush." ++ t ++ c!".duration"]).map
        (I.internalPrefix ++ ·) := by
    clear ha
    induction acc with
    | nil => rfl
    | cons p rest ih => simp [List.flatMap_cons, perMetricPoints, ih]
  have e2 : (pt.flatMap fun p => receivePoints I ts p.1 (bt p.1) p.2).map (·.name) =
      ((Dict.keys pt).flatMap fun t => [c!"receive." ++ t ++ c!".count", c!"receive." ++ t ++ c!".duration"]).map
        (I.internalPrefix ++ ·) := by
    clear hp
    induction pt with
    | nil => rfl
    | cons p rest ih => simp only [List.flatMap_cons, List.map_append, ih, Dict.keys, List.map_cons]; simp [receivePoints]
  have e3 : (numStatsPoint I acc ts).name = I.internalPrefix ++ c!"numStats" := rfl
  rw [List.map_cons, List.map_append, e1, e2, e3, ha, ← List.map_append,
    ← List.map_cons (f := (I.internalPrefix ++ ·))]
  refine List.Nodup.map (fun a b h => List.append_cancel_left h) ?_
  rw [List.nodup_cons, List.nodup_append]
  have hd : ∀ (a : Str) (l : List Str) x, x ∈ (l.flatMap fun t => [a ++ t ++ c!".count", a ++ t ++ c!".duration"]) → ∃ y, x = a ++ y := by
    intro a l x hx
    obtain ⟨t, _, hx⟩ := List.mem_flatMap.1 hx
    simp only [List.mem_cons, List.not_mem_nil, or_false, List.append_assoc] at hx
    rcases hx with rfl | rfl <;> exact ⟨_, rfl⟩
  refine ⟨?_, two_unique (by decide), two_unique hp, ?_⟩
  · intro h
    rcases List.mem_append.1 h with h | h
    · obtain ⟨y, e⟩ := hd _ _ _ h; simp at e
    · obtain ⟨y, e⟩ := hd _ _ _ h; simp at e
  · intro x hx y hy e
    obtain ⟨u, hu⟩ := hd _ _ _ hx
    obtain ⟨v, hv⟩ := hd _ _ _ hy
    rw [hu, hv] at e
    simp at e

theorem summary_own (I : Impl C T G PF PM) (ts : ℤ) (acc : List PerMetric) (pt : Dict Num) (bt : Str → Nat) :
    ∀ d ∈ (numStatsPoint I acc ts :: (acc.flatMap (perMetricPoints I ts) ++
      pt.flatMap fun p => receivePoints I ts p.1 (bt p.1) p.2)), I.internalPrefix <+: d.name := by
  intro d hd
  rcases List.mem_cons.1 hd with rfl | hd
  · exact List.prefix_append _ _
  · rcases List.mem_append.1 hd with hd | hd
    · obtain ⟨p, _, hd⟩ := List.mem_flatMap.1 hd
      simp only [perMetricPoints, List.mem_cons, List.not_mem_nil, or_false, List.append_assoc] at hd
      rcases hd with rfl | rfl <;> exact List.prefix_append _ _
    · obtain ⟨p, _, hd⟩ := List.mem_flatMap.1 hd
      simp only [receivePoints, List.mem_cons, List.not_mem_nil, or_false, List.append_assoc] at hd
      rcases hd with rfl | rfl <;> exact List.prefix_append _ _

theorem meterGroup_shape {ts : ℤ} {m : Meter} {gr : List Datapoint} (h : ((m.report ts).2.map some) = .ok (some gr)) :
    gr.map (·.name) = [] ∨ gr.map (·.name) = [m.pre ++ m.name ++ c!".count", m.pre ++ m.name ++ c!".rate"] := by
  unfold Meter.report at h
  simp only at h
  split at h
  · simp only [Except.map, Except.ok.injEq, Option.some.injEq] at h; subst h; exact Or.inl rfl
  · split at h
    · simp [Except.map] at h
    · simp only [Except.map, Except.ok.injEq, Option.some.injEq] at h; subst h; exact Or.inr rfl

theorem timerGroup_shape {percent ts : ℤ} {k : Str} {v : List PyFloat} {gr : List Datapoint}
    (h : timerGroup percent ts k v = .ok (some gr)) :
    gr.map (·.name) = [c!".count", c!".lower", c!".mean", c!".upper", c!".upper_" ++ intStr percent].map
      (c!"stats.timers." ++ k ++ ·) := by
  unfold timerGroup at h
  split_ifs at h
  · simp only at h
    split at h
    · cases h
    · simp only [Except.ok.injEq, Option.some.injEq] at h; subst h; simp
  · cases h

theorem suffix_ms_nodup : ([c!".999percentile", c!".99percentile", c!".count", c!".max", c!".mean", c!".min", c!".rate", c!".stddev"] : List Str).Nodup := by
  decide

theorem timerRep_shape {ts : ℤ} {t : TimerRep} {gr : List Datapoint} (h : ((t.report ts).2.map some) = .ok (some gr)) :
    gr.map (·.name) = [c!".999percentile", c!".99percentile", c!".count", c!".max", c!".mean", c!".min", c!".rate", c!".stddev"].map
      (t.pre ++ t.name ++ ·) := by
  unfold TimerRep.report at h
  cases hi : t.reportItems ts with
  | error e => simp [hi, Except.map] at h
  | ok items =>
    simp only [hi, Except.map, Except.ok.injEq, Option.some.injEq] at h
    subst h
    unfold TimerRep.reportItems at hi
    simp only [bind, Except.bind, pure, Except.pure] at hi
    split at hi
    · cases hi
    · split at hi
      · cases hi
      · split at hi
        · cases hi
        · simp only [Except.ok.injEq] at hi; subst hi; simp

/-- Nothing is kept for plugins while no message of a plugin's type comes. -/
theorem no_plugin_kept {I : Impl C T G PF PM} (hI : I.Local) (w : World) {s : PS C T G PF PM} {msg : Str}
    (hm : ∀ t k fs, Parsed msg t k fs → s.plugins.find t = none) (h0 : s.pluginMetrics = []) :
    (process I w s msg).1.pluginMetrics = [] := by
  cases hp : parseMessage msg with
  | none => rw [process_obs obs_pluginMetrics, hp]; exact h0
  | some m =>
    rw [plugin_unregistered hI w s hp (hm _ _ _ (parsed_iff.2 hp)), h0]

theorem init_unregistered (ops : PluginOps PF PM) (plugins : List PF) {t : Str} (h : ∀ p ∈ plugins, ops.mtype p ≠ t) (d : Dict PF)
    (hd : d.find t = none) : (plugins.foldl (fun d p => d.put (ops.mtype p) p) d).find t = none := by
  induction plugins generalizing d with
  | nil => exact hd
  | cons p rest ih =>
    rw [List.foldl_cons]
    refine ih (fun q hq => h q (List.mem_cons_of_mem _ hq)) _ ?_
    rw [Dict.find_put_ne _ _ (Ne.symm (h p (by simp)))]
    exact hd

theorem noPluginUse_append {ops : PluginOps PF PM} {plugins : List PF} {a b : List Str} :
    NoPluginUse ops plugins (a ++ b) ↔ NoPluginUse ops plugins a ∧ NoPluginUse ops plugins b := by
  unfold NoPluginUse
  simp only [List.mem_append]
  exact ⟨fun h => ⟨fun m hm => h m (Or.inl hm), fun m hm => h m (Or.inr hm)⟩, fun h m hm => hm.elim (h.1 m) (h.2 m)⟩

theorem unused_plugins (ops : PluginOps PF PM) (plugins : List PF) (w : World) (os : List Op)
    (h : NoPluginUse ops plugins (messages os)) :
    (runOps (messageProcessor ops) w (MPState.init ops plugins) os).1.pluginMetrics = [] := by
  induction os using List.reverseRecOn with
  | nil => rfl
  | append_singleton os o ih =>
    have hwf := mpwf_runOps ops w (mpwf_init ops plugins) os
    have hpl := runOps_plugins ops w (mpwf_init ops plugins) os
    rw [show messages (os ++ [o]) = messages os ++ messages [o] by simp [messages], noPluginUse_append] at h
    have ih := ih h.1
    rw [runOps_snoc]
    generalize runOps (messageProcessor ops) w (MPState.init ops plugins) os = c0 at ih hwf hpl
    cases o with
    | msg m =>
      refine no_plugin_kept (mp_local ops) w ?_ ih
      intro t k fs hp
      rw [hpl]
      exact init_unregistered ops plugins (h.2 m (by simp [messages]) t k fs hp) [] rfl
    | flush i p =>
      have h6 := (flush_keys ops w i p hwf).2.2.2.2.1
      simp only [Op.apply]
      rw [ih] at h6
      exact List.map_eq_nil_iff.1 h6

theorem unused_pluginsC (ops : PluginOps PF PM) (pre int : Str) (plugins : List PF) (w : World) (os : List Op)
    (h : NoPluginUse ops plugins (messages os)) :
    (runOps (configurable ops pre int) w (CPState.init ops plugins) os).1.pluginMetrics = [] ∧
    (runOps (configurable ops pre int) w (CPState.init ops plugins) os).1.plugins = (CPState.init ops plugins).plugins := by
  induction os using List.reverseRecOn with
  | nil => exact ⟨rfl, rfl⟩
  | append_singleton os o ih =>
    have hwf := cpwf_runOps ops pre int w (cpwf_init ops pre plugins) os
    rw [show messages (os ++ [o]) = messages os ++ messages [o] by simp [messages], noPluginUse_append] at h
    have ih := ih h.1
    rw [runOps_snoc]
    generalize runOps (configurable ops pre int) w (CPState.init ops plugins) os = c0 at ih hwf
    cases o with
    | msg m =>
      refine ⟨no_plugin_kept (cp_local ops pre int) w ?_ ih.1, (process_registered (cp_local ops pre int) w c0.1 m).trans ih.2⟩
      intro t k fs hp
      rw [ih.2]
      exact init_unregistered ops plugins (h.2 m (by simp [messages]) t k fs hp) [] rfl
    | flush i p =>
      have h6 := flush_keepsC ops pre int w i p hwf
      simp only [Op.apply]
      have h7 := h6.2.2.2.2.2.1
      rw [ih.1] at h7
      exact ⟨List.map_eq_nil_iff.1 h7, h6.2.2.2.2.1.trans ih.2⟩

/-- The readings of one gauge among those of all. -/
theorem collect_one {msgs : List Str} {l : List (PyFloat × Str)}
    (h : Collect (fun msg (p : PyFloat × Str) => Reading c!"g" p.2 msg p.1) msgs l) (k : Str) :
    Collect (Reading c!"g" k) msgs ((l.filter fun p => p.2 = k).map Prod.fst) := by
  induction h with
  | nil => exact .nil
  | @hit msg msgs v vs hv _ ih =>
    by_cases hk : v.2 = k
    · subst hk
      rw [List.filter_cons_of_pos (by simp)]
      exact .hit hv ih
    · rw [List.filter_cons_of_neg (by simpa using hk)]
      refine .skip ?_ ih
      intro u hu
      obtain ⟨a, b, h1, -⟩ := hv
      obtain ⟨a', b', h2, -⟩ := hu
      have := (parsed_iff.1 h1).symm.trans (parsed_iff.1 h2)
      simp only [Option.some.injEq, Metric.mk.injEq] at this
      exact hk this.2.1
  | skip hv _ ih =>
    refine .skip ?_ ih
    intro u hu
    exact hv (u, k) hu

theorem gauges_once (ops : PluginOps PF PM) (plugins : List PF) (w : World) (os : List Op) (h : OneReading (messages os)) :
    ((runOps (messageProcessor ops) w (MPState.init ops plugins) os).1.gauges.map Prod.snd).Nodup := by
  have hst := stored_gauges ops plugins w os
  generalize (runOps (messageProcessor ops) w (MPState.init ops plugins) os).1.gauges = l at hst
  rw [List.nodup_iff_count_le_one]
  intro k
  have := h k _ (collect_one hst k)
  rw [List.length_map, ← List.countP_eq_length_filter] at this
  rw [List.count, List.countP_map]
  refine le_trans (le_of_eq ?_) this
  refine List.countP_congr ?_
  intro p _
  simp

end
end Txstatsd
