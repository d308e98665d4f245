import Verif.Lemmas.UniqueNames
import Verif.Lemmas.ShippedLife

set_option linter.unusedSectionVars false
set_option linter.unusedSimpArgs false
set_option linter.unusedVariables false

/-!
# The groups of plugin metrics in one flush (for C173 and C174)
-/

namespace Txstatsd
open Spec
section
variable [Rounding] {C T G PF PM : Type}

/-- A group per stored plugin metric, in order; what every flush and message keeps is known of the metrics. -/
def GroupsOf (ops : PluginOps PF PM) (w : World) (J : Str → PM → Prop) (secs ts : ℤ) (keys : List Str) (gs : List (List Datapoint)) : Prop :=
  List.Forall₂ (fun k gr => ∃ m n, J k m ∧ (ops.flush w n m secs ts).2.2 = .ok gr) keys gs

theorem plugin_groups_aux (I : Impl C T G PF PM) (w : World) (secs ts : ℤ) (J : Str → PM → Prop)
    (hJ : ∀ k m n, J k m → J k (I.ops.flush w n m secs ts).1) :
    ∀ (n i : Nat) (s : PS C T G PF PM), Dict.Wf s.pluginMetrics → i + n = s.pluginMetrics.length →
    (∀ p ∈ s.pluginMetrics, J p.1 p.2) →
    let r := runVisits (pluginVisit I w secs ts) (List.range' i n) s
    (∀ p ∈ r.1.pluginMetrics, J p.1 p.2) ∧ (r.2.2 = none → GroupsOf I.ops w J secs ts (s.pluginMetrics.keys.drop i) r.2.1) := by
  intro n
  induction n with
  | zero =>
    intro i s hw hl hs
    refine ⟨hs, fun _ => ?_⟩
    simp only [List.range'_zero, runVisits]
    rw [List.drop_eq_nil_of_le (by simp [Dict.keys]; omega)]
    exact .nil
  | succ n ih =>
    intro i s hw hl hs
    have hi : i < s.pluginMetrics.length := by omega
    obtain ⟨k, m, hkm⟩ : ∃ k m, s.pluginMetrics[i] = (k, m) := ⟨_, _, rfl⟩
    have hget : s.pluginMetrics[i]? = some (k, m) := by rw [List.getElem?_eq_getElem hi, hkm]
    have hmem : (k, m) ∈ s.pluginMetrics := hkm ▸ List.getElem_mem hi
    have hv : pluginVisit I w secs ts s i =
        ({ s with ticks := s.ticks + (I.ops.flush w s.ticks m secs ts).2.1,
                  pluginMetrics := s.pluginMetrics.put k (I.ops.flush w s.ticks m secs ts).1 },
         (I.ops.flush w s.ticks m secs ts).2.2.map some) := by
      simp only [pluginVisit, hget]
    have hk : Dict.keys (s.pluginMetrics.put k (I.ops.flush w s.ticks m secs ts).1) = s.pluginMetrics.keys := by
      rw [Dict.keys_put, if_pos (Dict.mem_keys_of_mem hmem)]
    have hs' : ∀ p ∈ s.pluginMetrics.put k (I.ops.flush w s.ticks m secs ts).1, J p.1 p.2 := by
      intro p hp
      rcases Dict.mem_put hp with rfl | hp
      · exact hJ _ _ _ (hs _ hmem)
      · exact hs p hp
    rw [List.range'_succ]
    simp only [runVisits, hv]
    cases hr : (I.ops.flush w s.ticks m secs ts).2.2 with
    | error e => exact ⟨hs', by simp [Except.map]⟩
    | ok gr =>
      have := ih (i + 1) { s with ticks := s.ticks + (I.ops.flush w s.ticks m secs ts).2.1, pluginMetrics := s.pluginMetrics.put k (I.ops.flush w s.ticks m secs ts).1 } (Dict.wf_put hw _ _)
        (by
          have h2 := congrArg List.length hk
          simp only [Dict.keys, List.length_map] at h2
          simp only [h2]; omega) hs'
      simp only [Except.map] at this ⊢
      refine ⟨this.1, fun he => ?_⟩
      have h2 := this.2 he
      rw [hk] at h2
      have hd : s.pluginMetrics.keys.drop i = k :: s.pluginMetrics.keys.drop (i + 1) := by
        have hi' : i < s.pluginMetrics.keys.length := by simpa [Dict.keys] using hi
        rw [List.drop_eq_getElem_cons hi']
        simp [Dict.keys, hkm]
      rw [hd]
      exact .cons ⟨m, s.ticks, hs _ hmem, hr⟩ h2

/-- What flushes keep is kept by the whole flush. -/
theorem kept_flushForm (I : Impl C T G PF PM) (w : World) (secs ts : ℤ) (c : PhaseRes C) (t : PhaseRes T)
    (g : List (List Datapoint)) (m : PhaseRes Meter) (s : PS C T G PF PM) (hs : Dict.Wf s.pluginMetrics) (J : Str → PM → Prop)
    (hJ : ∀ k m n, J k m → J k (I.ops.flush w n m secs ts).1) (hc : ∀ p ∈ s.pluginMetrics, J p.1 p.2) :
    ∀ p ∈ (flushForm I w secs ts c t g m s).1.pluginMetrics, J p.1 p.2 := by
  unfold flushForm
  split
  · exact hc
  · split
    · exact hc
    · split
      · exact hc
      · simp only
        have h := (plugin_groups_aux I w secs ts J hJ s.pluginMetrics.length 0
          { s with ticks := s.ticks + 10, counters := c.1, timers := t.1, meters := m.1 } hs (by simp) hc).1
        rw [← List.range_eq_range'] at h
        revert h
        generalize runVisits (pluginVisit I w secs ts) (List.range s.pluginMetrics.length)
          { s with ticks := s.ticks + 10, counters := c.1, timers := t.1, meters := m.1 } = r
        intro h
        obtain ⟨a, b, e⟩ := r
        cases e with
        | some e => exact h
        | none =>
          simp only [runSummary]
          split <;> exact h

/-- `flushForm_complete`, with a group per stored plugin metric. -/
theorem flushForm_groups (I : Impl C T G PF PM) (w : World) (secs ts : ℤ) (c : PhaseRes C) (t : PhaseRes T)
    (g : List (List Datapoint)) (m : PhaseRes Meter) (s : PS C T G PF PM) (hs : Shared s)
    (hm : Dict.keys m.1 = s.meters.keys) (hok : (flushForm I w secs ts c t g m s).2.2 = none) (J : Str → PM → Prop)
    (hJ : ∀ k m n, J k m → J k (I.ops.flush w n m secs ts).1) (hc : ∀ p ∈ s.pluginMetrics, J p.1 p.2) :
    ∃ (gs : List (List Datapoint)) (acc : List PerMetric),
      GroupsOf I.ops w J secs ts s.pluginMetrics.keys gs ∧
      (acc.map fun (p : PerMetric) => p.1) = [c!"counter", c!"timer", c!"gauge", c!"meter", c!"plugin"] ∧
      (flushForm I w secs ts c t g m s).2.1 =
        c.2.1.flatten ++ t.2.1.flatten ++ g.flatten ++ m.2.1.flatten ++ gs.flatten ++
        (numStatsPoint I acc ts :: (acc.flatMap (perMetricPoints I ts) ++
         s.processTimings.flatMap fun p => receivePoints I ts p.1 ((s.byType.find p.1).getD 0) p.2)) := by
  have hmw : Dict.Wf m.1 := by unfold Dict.Wf; rw [hm]; exact hs.meters
  unfold flushForm at hok ⊢
  cases h0 : c.2.2 with
  | some e => simp [h0] at hok
  | none =>
    cases h1 : t.2.2 with
    | some e => simp [h0, h1] at hok
    | none =>
      cases h3 : m.2.2 with
      | some e => simp [h0, h1, h3] at hok
      | none =>
        simp only [h0, h1, h3] at hok ⊢
        obtain ⟨tk, pm, gs, e, he, hk, hlen, _, hcm⟩ := plugin_phase I w secs ts
          { s with ticks := s.ticks + 10, counters := c.1, timers := t.1, meters := m.1 } hs.pluginMetrics
        have hg := (plugin_groups_aux I w secs ts J hJ s.pluginMetrics.length 0
          { s with ticks := s.ticks + 10, counters := c.1, timers := t.1, meters := m.1 } hs.pluginMetrics (by simp) hc).2
        rw [← List.range_eq_range'] at hg
        simp only at he hk hg
        rw [he] at hok hg ⊢
        have hpw : Dict.Wf pm := by unfold Dict.Wf; rw [hk]; exact hs.pluginMetrics
        cases e with
        | some e => simp at hok
        | none =>
          refine ⟨gs,
            [(c!"counter", c.2.1.length, dur w (s.ticks + 1) (s.ticks + 2)),
             (c!"timer", t.2.1.length, dur w (s.ticks + 3) (s.ticks + 4)),
             (c!"gauge", g.length, dur w (s.ticks + 5) (s.ticks + 6)),
             (c!"meter", m.2.1.length, dur w (s.ticks + 7) (s.ticks + 8)),
             (c!"plugin", gs.length, dur w (s.ticks + 9) tk)], by simpa using hg rfl, rfl, ?_⟩
          have hs6 : Shared { s with ticks := tk + 1, counters := c.1, timers := t.1, meters := m.1, pluginMetrics := pm } :=
            ⟨hmw, hpw, hs.3, hs.4, hs.5⟩
          simp only
          rw [runSummary_ok I ts _ hs6]

/-- Groups of different plugin metrics share no name. -/
theorem groups_unique {ops : PluginOps PF PM} {w : World} {J : Str → PM → Prop} {secs ts : ℤ} {keys : List Str} {gs : List (List Datapoint)}
    (h : GroupsOf ops w J secs ts keys gs) (hk : keys.Nodup) (R : Str → Str → Prop) (hR : ∀ k k' n, R k n → R k' n → k = k')
    (hJ : ∀ k m n gr, J k m → (ops.flush w n m secs ts).2.2 = .ok gr → (gr.map (·.name)).Nodup ∧ ∀ x ∈ gr, R k x.name) :
    (gs.flatten.map (·.name)).Nodup ∧ ∀ x ∈ gs.flatten, ∃ k ∈ keys, R k x.name := by
  induction h with
  | nil => simp
  | @cons k gr keys gs h1 _ ih =>
    obtain ⟨m, n, h1, h2⟩ := h1
    rw [List.nodup_cons] at hk
    obtain ⟨i1, i2⟩ := ih hk.2
    obtain ⟨j1, j2⟩ := hJ k m n gr h1 h2
    constructor
    · rw [List.flatten_cons, List.map_append, List.nodup_append]
      refine ⟨j1, i1, ?_⟩
      intro a ha b hb e
      subst e
      obtain ⟨x, hx, rfl⟩ := List.mem_map.1 ha
      obtain ⟨y, hy, e⟩ := List.mem_map.1 hb
      obtain ⟨k', hk', r⟩ := i2 y hy
      rw [e] at r
      exact hk.1 (hR _ _ _ (j2 x hx) r ▸ hk')
    · intro x hx
      rw [List.flatten_cons, List.mem_append] at hx
      rcases hx with hx | hx
      · exact ⟨k, by simp, j2 x hx⟩
      · obtain ⟨k', hk', r⟩ := i2 x hx
        exact ⟨k', by simp [hk'], r⟩

/-- What messages keep. -/
theorem kept_process {I : Impl C T G PF PM} (hI : I.Local) (w : World) {s : PS C T G PF PM} (msg : Str) (J : Str → PM → Prop)
    (hw : Dict.Wf (process I w s msg).1.pluginMetrics)
    (hb : ∀ k t fs f n, Parsed msg t k fs → s.plugins.find t = some f → J k (I.ops.build w n f (I.messagePrefix (I.ops.name f)) k))
    (hp : ∀ k m n fs, J k m → J k (I.ops.process w n m fs).1) (hs : ∀ p ∈ s.pluginMetrics, J p.1 p.2) :
    ∀ p ∈ (process I w s msg).1.pluginMetrics, J p.1 p.2 := by
  rintro ⟨k, m⟩ hm
  have hf := Dict.find_of_mem hw hm
  rcases plugin_arrive hI w s msg k with ⟨_, h⟩ | ⟨x, f, hx, hxf, h, _⟩
  · rw [h] at hf
    exact hs _ (Dict.mem_of_find hf)
  · rw [h] at hf
    simp only [Option.some.injEq] at hf
    rw [← hf]
    refine hp _ _ _ _ ?_
    cases hk : s.pluginMetrics.find k with
    | some q => exact hs _ (Dict.mem_of_find hk)
    | none =>
      rw [Option.getD_none]
      cases hpm : parseMessage msg with
      | none => simp [pluginMsgs, hpm] at hx
      | some y =>
        simp only [pluginMsgs, List.filterMap_cons, hpm, List.filterMap_nil] at hx
        split at hx
        · cases hx
        · rename_i hh
          split_ifs at hh with hc
          simp only [Option.some.injEq] at hh
          simp only [List.cons.injEq, and_true] at hx
          subst hh; subst hx
          obtain ⟨hc, _⟩ := hc
          obtain ⟨yt, yk, yf⟩ := y
          subst hc
          exact hb _ yt yf f _ (parsed_iff.2 hpm) hxf

end

section
variable [Rounding] {PF PM : Type}

/-- What is kept of the stored plugin metrics, in any history. -/
theorem kept_plugins (ops : PluginOps PF PM) (plugins : List PF) (w : World) (J : Str → PM → Prop) (os : List Op)
    (hb : ∀ msg ∈ messages os, ∀ k t fs f n, Parsed msg t k fs → (MPState.init ops plugins).plugins.find t = some f →
      J k (ops.build w n f (statsPrefix (ops.name f)) k))
    (hp : ∀ k m n fs, J k m → J k (ops.process w n m fs).1)
    (hJ : ∀ k m n secs ts, J k m → J k (ops.flush w n m secs ts).1) :
    ∀ p ∈ (runOps (messageProcessor ops) w (MPState.init ops plugins) os).1.pluginMetrics, J p.1 p.2 := by
  induction os using List.reverseRecOn with
  | nil => intro p hp; cases hp
  | append_singleton os o ih =>
    have hwf := mpwf_runOps ops w (mpwf_init ops plugins) os
    have hwf' := mpwf_runOps ops w (mpwf_init ops plugins) (os ++ [o])
    have hpl := runOps_plugins ops w (mpwf_init ops plugins) os
    rw [show messages (os ++ [o]) = messages os ++ messages [o] by simp [messages]] at hb
    have ih := ih fun m hm => hb m (List.mem_append_left _ hm)
    rw [runOps_snoc] at hwf' ⊢
    generalize runOps (messageProcessor ops) w (MPState.init ops plugins) os = c0 at ih hwf hpl hwf'
    cases o with
    | msg m =>
      refine kept_process (mp_local ops) w m J hwf'.shared.pluginMetrics ?_ hp ih
      intro k t fs f n h1 h2
      rw [hpl] at h2
      exact hb m (by simp [messages]) k t fs f n h1 h2
    | flush i p =>
      simp only [Op.apply]
      rw [flush_mp ops w i p hwf]
      exact kept_flushForm _ w _ _ _ _ _ _ _ hwf.shared.pluginMetrics J (fun k m n => hJ k m n _ _) ih

theorem kept_pluginsC (ops : PluginOps PF PM) (pre int : Str) (plugins : List PF) (w : World) (J : Str → PM → Prop) (os : List Op)
    (hb : ∀ msg ∈ messages os, ∀ k t fs f n, Parsed msg t k fs → (CPState.init ops plugins).plugins.find t = some f →
      J k (ops.build w n f pre k))
    (hp : ∀ k m n fs, J k m → J k (ops.process w n m fs).1)
    (hJ : ∀ k m n secs ts, J k m → J k (ops.flush w n m secs ts).1) :
    (∀ p ∈ (runOps (configurable ops pre int) w (CPState.init ops plugins) os).1.pluginMetrics, J p.1 p.2) ∧
    (runOps (configurable ops pre int) w (CPState.init ops plugins) os).1.plugins = (CPState.init ops plugins).plugins := by
  induction os using List.reverseRecOn with
  | nil => exact ⟨fun p hp => (by cases hp), rfl⟩
  | append_singleton os o ih =>
    have hwf := cpwf_runOps ops pre int w (cpwf_init ops pre plugins) os
    have hwf' := cpwf_runOps ops pre int w (cpwf_init ops pre plugins) (os ++ [o])
    rw [show messages (os ++ [o]) = messages os ++ messages [o] by simp [messages]] at hb
    obtain ⟨ih, hpl⟩ := ih fun m hm => hb m (List.mem_append_left _ hm)
    rw [runOps_snoc] at hwf' ⊢
    generalize runOps (configurable ops pre int) w (CPState.init ops plugins) os = c0 at ih hwf hpl hwf'
    cases o with
    | msg m =>
      refine ⟨kept_process (cp_local ops pre int) w m J hwf'.shared.pluginMetrics ?_ hp ih,
        (process_registered (cp_local ops pre int) w c0.1 m).trans hpl⟩
      intro k t fs f n h1 h2
      rw [hpl] at h2
      exact hb m (by simp [messages]) k t fs f n h1 h2
    | flush i p =>
      refine ⟨?_, (flush_keepsC ops pre int w i p hwf).2.2.2.2.1.trans hpl⟩
      simp only [Op.apply]
      rw [flush_cp ops pre int w i p hwf]
      exact kept_flushForm _ w _ _ _ _ _ _ _ hwf.shared.pluginMetrics J (fun k m n => hJ k m n _ _) ih

end

section
variable [Rounding] [Power]

/-- The labels of an SLI metric differ and contain no dot. -/
def TidyMetric : PluginMetric → Prop
  | .sli r => r.counts.keys.Nodup ∧ r.conditions.keys.Nodup ∧ (∀ kv ∈ r.counts, '.' ∉ kv.1) ∧ ∀ kc ∈ r.conditions, '.' ∉ kc.1
  | .distinct _ => True

theorem tally_wf (v : PyFloat) (size : Num) (conds : Dict SliCond) (counts : Dict Nat) (h : counts.keys.Nodup) :
    (tally v size conds counts).1.keys.Nodup := by
  induction conds generalizing counts with
  | nil => exact h
  | cons kc conds ih =>
    obtain ⟨k, c⟩ := kc
    unfold tally
    split
    · exact h
    · exact ih _ h
    · split
      · exact h
      · exact ih _ (Dict.wf_put h _ _)

theorem tidy_built (w : World) (n : Nat) {f : Factory} (hf : ∀ cfg, f = .sli cfg → DotlessLabels cfg) (pre key : Str) :
    TidyMetric (shippedOps.build w n f pre key) := by
  cases f with
  | distinct => trivial
  | sli cfg =>
    have hg := gather_labels (sliPath pre key) cfg (hf cfg rfl) [] (by simp)
    have hw := gather_wf (sliPath pre key) cfg [] (by simp)
    have e : Dict.keys ((gather (sliPath pre key) cfg []).map fun kc => (kc.1, (0 : Nat))) = (gather (sliPath pre key) cfg []).keys := by
      simp [Dict.keys, Function.comp_def]
    refine ⟨?_, hw, ?_, hg⟩
    · show (Dict.keys ((gather (sliPath pre key) cfg []).map fun kc => (kc.1, (0 : Nat)))).Nodup
      rw [e]; exact hw
    · intro kv hkv
      obtain ⟨kc, hkc, rfl⟩ := List.mem_map.1 hkv
      exact hg kc hkc

theorem tidy_process (m : PluginMetric) (w : World) (n : Nat) (items : List Str) (hm : TidyMetric m) :
    TidyMetric (shippedOps.process w n m items).1 := by
  cases m with
  | distinct r => trivial
  | sli r =>
    obtain ⟨h0, h1, h2, h3⟩ := hm
    simp only [shippedOps]
    unfold SliReporter.process
    split
    · exact ⟨h0, h1, h2, h3⟩
    · split
      · exact ⟨h0, h1, h2, h3⟩
      · unfold SliReporter.update
        split
        · exact ⟨h0, h1, h2, h3⟩
        · exact ⟨tally_wf _ _ _ _ h0, h1, tally_labels _ _ _ _ h3 h2, h3⟩

theorem tidy_flush (m : PluginMetric) (w : World) (n : Nat) (secs ts : ℤ) (hm : TidyMetric m) :
    TidyMetric (shippedOps.flush w n m secs ts).1 := by
  cases m with
  | distinct r => trivial
  | sli r =>
    obtain ⟨h0, h1, h2, h3⟩ := hm
    have e : Dict.keys (r.conditions.map fun kc => (kc.1, (0 : Nat))) = r.conditions.keys := by simp [Dict.keys, Function.comp_def]
    refine ⟨?_, h1, ?_, h3⟩
    · show (Dict.keys (r.conditions.map fun kc => (kc.1, (0 : Nat)))).Nodup
      rw [e]; exact h1
    · intro kv hkv
      obtain ⟨kc, hkc, rfl⟩ := List.mem_map.1 hkv
      exact h3 kc hkc

/-- The names of the points of a shipped plugin metric. -/
theorem tidy_names {m : PluginMetric} (hm : TidyMetric m) {w : World} {n : Nat} {secs ts : ℤ} {gr : List Datapoint}
    (h : (shippedOps.flush w n m secs ts).2.2 = .ok gr) :
    (gr.map (·.name)).Nodup ∧ ∀ x ∈ gr, ∃ y, '.' ∉ y ∧ y ≠ c!"value" ∧
      x.name = (match m with | .sli r => r.name | .distinct r => r.pre ++ r.name) ++ '.' :: y := by
  cases m with
  | sli r =>
    obtain ⟨h0, _, h2, _⟩ := hm
    simp only [shippedOps, SliReporter.flush, Except.ok.injEq] at h
    subst h
    constructor
    · have e : List.map (fun d : Datapoint => d.name) (((r.counts.map fun kv => (⟨r.name ++ c!".count_" ++ kv.1, .int kv.2, ts⟩ : Datapoint)) ++
          [⟨r.name ++ c!".count", .int r.count, ts⟩, ⟨r.name ++ c!".error", .int r.error, ts⟩])) =
          ((r.counts.keys.map (c!".count_" ++ ·)) ++ [c!".count", c!".error"]).map (r.name ++ ·) := by
        simp [Dict.keys, Function.comp_def]
      rw [e]
      refine List.Nodup.map (fun a b h => List.append_cancel_left h) ?_
      rw [List.nodup_append]
      refine ⟨List.Nodup.map (fun a b h => List.append_cancel_left h) h0, by decide, ?_⟩
      intro a ha b hb e
      obtain ⟨k, _, rfl⟩ := List.mem_map.1 ha
      subst e
      simp at hb
    · intro x hx
      simp only [List.mem_append, List.mem_map, List.mem_cons, List.not_mem_nil, or_false] at hx
      rcases hx with ⟨kv, hkv, rfl⟩ | rfl | rfl
      · refine ⟨c!"count_" ++ kv.1, ?_, by simp, by simp⟩
        simp only [List.mem_append, not_or]; exact ⟨by decide, h2 kv hkv⟩
      · exact ⟨c!"count", by decide, by decide, rfl⟩
      · exact ⟨c!"error", by decide, by decide, rfl⟩
  | distinct r =>
    have h : r.flush (w.clk n) ts = .ok gr := h
    have e : gr.map (·.name) = [c!".count", c!".count_1day", c!".count_1hour", c!".count_1min"].map (r.pre ++ r.name ++ ·) := by
      unfold DistinctReporter.flush at h
      simp only [bind, Except.bind] at h
      split at h
      · cases h
      · split at h
        · cases h
        · split at h
          · cases h
          · split at h
            · cases h
            · simp only [Except.ok.injEq] at h; subst h; rfl
    constructor
    · rw [e]
      exact List.Nodup.map (fun a b h => List.append_cancel_left h) (by decide)
    · intro x hx
      have hx : x.name ∈ gr.map (·.name) := List.mem_map_of_mem hx
      rw [e] at hx
      simp only [List.map_cons, List.map_nil, List.mem_cons, List.not_mem_nil, or_false] at hx
      rcases hx with e | e | e | e
      · exact ⟨c!"count", by decide, by decide, e⟩
      · exact ⟨c!"count_1day", by decide, by decide, e⟩
      · exact ⟨c!"count_1hour", by decide, by decide, e⟩
      · exact ⟨c!"count_1min", by decide, by decide, e⟩

end
end Txstatsd
