import Verif.Lemmas.Accounting

set_option linter.unusedSectionVars false
set_option linter.unusedSimpArgs false
set_option linter.unusedVariables false

namespace Txstatsd
open Spec
section
variable [Rounding] {PF PM : Type}

theorem counters_keys {d : Dict Num} {e : Option (Str × Option PyFloat)} {k : Str} :
    k ∈ (applyCounter d e).keys ↔ k ∈ d.keys ∨ ∃ o, e = some (k, o) := by
  rcases e with _ | ⟨k', _ | c⟩
  · simp [applyCounter]
  · simp only [applyCounter, Option.some.injEq, Prod.mk.injEq, exists_and_left, exists_eq', and_true]
    split_ifs with h
    · rw [Dict.has_iff] at h
      constructor
      · exact Or.inl
      · rintro (h' | rfl)
        · exact h'
        · exact h
    · rw [Dict.mem_keys_put]; constructor
      · rintro (rfl | h)
        · exact Or.inr rfl
        · exact Or.inl h
      · rintro (h | rfl)
        · exact Or.inr h
        · exact Or.inl rfl
  · simp only [applyCounter, Option.some.injEq, Prod.mk.injEq, exists_and_left, exists_eq', and_true]
    rw [Dict.mem_keys_put]; constructor
    · rintro (rfl | h)
      · exact Or.inr rfl
      · exact Or.inl h
    · rintro (h | rfl)
      · exact Or.inr h
      · exact Or.inl rfl

theorem rateMatch_isSome {f : Str} :
    (∃ g, rateMatch f = some g) ↔ ∃ d r, f = '@' :: d :: r ∧ (d.isDigit = true ∨ d = '.') := by
  constructor
  · rintro ⟨g, h⟩
    obtain ⟨rest, rfl, hne, hg, _⟩ := rateMatch_some.1 h
    cases g with
    | nil => exact absurd rfl hne
    | cons d g => exact ⟨d, g ++ rest, rfl, hg d (by simp)⟩
  · rintro ⟨d, r, rfl, hd⟩
    have h := (rate_char d).2 hd
    unfold rateMatch
    simp [h]

theorem counterEffect_some {msg k : Str} :
    (∃ o, counterEffect msg = some (k, o)) ↔
    ∃ f0 extra, Parsed msg c!"c" k (f0 :: c!"c" :: extra) ∧ (parseFloat f0).isSome ∧
      ∀ f2 ∈ extra, ∃ d r, f2 = '@' :: d :: r ∧ (d.isDigit = true ∨ d = '.') := by
  unfold counterEffect
  cases hp : parseMessage msg with
  | none =>
    simp only [reduceCtorEq, exists_false, false_iff, not_exists, not_and]
    intro f0 extra h; rw [parsed_iff, hp] at h; cases h
  | some m =>
    have key : ∀ f0 extra, Parsed msg c!"c" k (f0 :: c!"c" :: extra) ↔
        m.mtype = c!"c" ∧ m.key = k ∧ m.fields = f0 :: c!"c" :: extra := by
      intro f0 extra
      rw [parsed_iff, hp]
      simp only [Option.some.injEq]
      constructor
      · rintro rfl; exact ⟨rfl, rfl, rfl⟩
      · rintro ⟨h1, h2, h3⟩; cases m; simp_all
    simp only [key]
    unfold counterEffectM
    by_cases ht : m.mtype = c!"c"
    swap
    · simp [ht]
    simp only [ht, if_true]
    rcases parse_fields hp with ⟨f0, hf⟩ | ⟨f0, f2, hf⟩
    · rw [ht] at hf
      simp only [hf, List.headD_cons]
      have hl : ¬ (List.length [f0, c!"c"] = 3) := by simp
      simp only [hl, if_false]
      constructor
      · rintro ⟨o, ho⟩
        refine ⟨f0, [], ⟨trivial, ?_, rfl⟩, ?_, by simp⟩
        · revert ho; repeat' split
          all_goals (intro ho; simp at ho; try exact ho.1)
        · cases hv : parseFloat f0 with
          | none => simp [hv] at ho
          | some v => rfl
      · rintro ⟨f0', extra, ⟨_, rfl, he⟩, hv, _⟩
        simp only [List.cons.injEq, true_and] at he
        obtain ⟨rfl, rfl⟩ := he
        obtain ⟨v, hv⟩ := Option.isSome_iff_exists.1 hv
        simp only [hv]
        split <;> exact ⟨_, rfl⟩
    · rw [ht] at hf
      simp only [hf, List.headD_cons]
      have hl : (List.length [f0, c!"c", f2] = 3) := by simp
      have hg : List.getD [f0, c!"c", f2] 2 [] = f2 := rfl
      simp only [hl, if_true, hg]
      constructor
      · rintro ⟨o, ho⟩
        refine ⟨f0, [f2], ⟨trivial, ?_, rfl⟩, ?_, ?_⟩
        · revert ho; repeat' split
          all_goals (intro ho; simp at ho; try exact ho.1)
        · cases hv : parseFloat f0 with
          | none => simp [hv] at ho
          | some v => rfl
        · intro f hf'; simp only [List.mem_singleton] at hf'; subst hf'
          rw [← rateMatch_isSome]
          cases hr : rateMatch f with
          | none => revert ho; split <;> simp [hr]
          | some g => exact ⟨g, rfl⟩
      · rintro ⟨f0', extra, ⟨_, rfl, he⟩, hv, hx⟩
        simp only [List.cons.injEq, true_and] at he
        obtain ⟨rfl, rfl⟩ := he
        obtain ⟨v, hv⟩ := Option.isSome_iff_exists.1 hv
        obtain ⟨g, hgm⟩ := rateMatch_isSome.2 (hx f2 (by simp))
        simp only [hv, hgm]
        split
        · exact ⟨_, rfl⟩
        · split <;> exact ⟨_, rfl⟩

theorem pluginMetrics_keys (ops : PluginOps PF PM) (w : World) (s : MPState PF PM) (msg k : Str) :
    k ∈ (process (messageProcessor ops) w s msg).1.pluginMetrics.keys ↔
      k ∈ s.pluginMetrics.keys ∨ ∃ t fs, Parsed msg t k fs ∧ t ∉ builtinTypes ∧ t ∈ s.plugins.keys := by
  cases hp : parseMessage msg with
  | none =>
    have : process (messageProcessor ops) w s msg = (s, { bad := [msg] }) := by simp [process, hp]
    rw [this]
    constructor
    · exact Or.inl
    · rintro (h | ⟨t, fs, h, _⟩)
      · exact h
      · rw [parsed_iff, hp] at h; cases h
  | some m =>
    have hkey : (∃ t fs, Parsed msg t k fs ∧ t ∉ builtinTypes ∧ t ∈ s.plugins.keys) ↔
        m.key = k ∧ m.mtype ∉ builtinTypes ∧ m.mtype ∈ s.plugins.keys := by
      constructor
      · rintro ⟨t, fs, h, h1, h2⟩
        rw [parsed_iff, hp] at h; simp only [Option.some.injEq] at h; subst h
        exact ⟨rfl, h1, h2⟩
      · rintro ⟨rfl, h1, h2⟩; exact ⟨_, _, parsed_iff.2 hp, h1, h2⟩
    rw [hkey]
    by_cases ht : m.mtype ∈ [c!"c", c!"ms", c!"g", c!"m"]
    · rw [process_pluginMetrics_builtin ops w s hp ht]
      constructor
      · exact Or.inl
      · rintro (h | ⟨_, h, _⟩)
        · exact h
        · exact absurd ht h
    · have ht' : m.mtype ∉ builtinTypes := ht
      rw [process_obs obs_pluginMetrics, hp]
      simp only
      unfold dispatch
      simp only [List.mem_cons, List.not_mem_nil, or_false, not_or] at ht
      obtain ⟨h1, h2, h3, h4⟩ := ht
      simp only [h1, h2, h3, h4, if_false]
      cases hpl : s.plugins.find m.mtype with
      | none =>
        have := (Dict.find_eq_none _ _).1 hpl
        simp only
        constructor
        · exact Or.inl
        · rintro (h | ⟨_, _, h⟩)
          · exact h
          · exact absurd h this
      | some f =>
        have hmem : m.mtype ∈ s.plugins.keys := by rw [← Dict.find_isSome_iff, hpl]; rfl
        simp only [processPlugin]
        cases hf : s.pluginMetrics.find m.key with
        | some pm =>
          simp only [hf, Dict.mem_keys_put]
          constructor
          · rintro (rfl | h)
            · exact Or.inr ⟨rfl, ht', hmem⟩
            · exact Or.inl h
          · rintro (h | ⟨rfl, _⟩)
            · exact Or.inr h
            · exact Or.inl rfl
        | none =>
          simp only [Dict.find_put_self, Dict.mem_keys_put]
          constructor
          · rintro (rfl | rfl | h)
            · exact Or.inr ⟨rfl, ht', hmem⟩
            · exact Or.inr ⟨rfl, ht', hmem⟩
            · exact Or.inl h
          · rintro (h | ⟨rfl, _⟩)
            · exact Or.inr (Or.inr h)
            · exact Or.inl rfl

theorem reading_exists {t k msg : Str} :
    (∃ v, Reading t k msg v) ↔ ∃ f0 extra, Parsed msg t k (f0 :: t :: extra) ∧ (parseFloat f0).isSome := by
  constructor
  · rintro ⟨v, f0, rest, h, hv⟩
    rcases parse_fields (parsed_iff.1 h) with ⟨f0', hf⟩ | ⟨f0', f2, hf⟩
    · simp only [List.cons.injEq] at hf
      obtain ⟨rfl, rfl⟩ := hf
      exact ⟨f0, [], h, by rw [hv]; rfl⟩
    · simp only [List.cons.injEq] at hf
      obtain ⟨rfl, rfl⟩ := hf
      exact ⟨f0, [f2], h, by rw [hv]; rfl⟩
  · rintro ⟨f0, extra, h, hv⟩
    obtain ⟨v, hv⟩ := Option.isSome_iff_exists.1 hv
    exact ⟨v, f0, _, h, hv⟩

theorem names_iff {pt : List Str} {k msg : Str} :
    Names pt k msg ↔ (∃ o, counterEffect msg = some (k, o)) ∨ (∃ v, Reading c!"ms" k msg v) ∨
      (∃ v, Reading c!"g" k msg v) ∨ (∃ v, Reading c!"m" k msg v) ∨
      ∃ t fs, Parsed msg t k fs ∧ t ∉ builtinTypes ∧ t ∈ pt := by
  rw [counterEffect_some, reading_exists, reading_exists, reading_exists]
  unfold Names
  constructor
  · rintro ⟨t, f0, extra, h, ⟨rfl, h1, h2⟩ | ⟨ht, hv⟩ | ⟨h1, h2⟩⟩
    · exact Or.inl ⟨f0, extra, h, h1, h2⟩
    · simp only [List.mem_cons, List.not_mem_nil, or_false] at ht
      rcases ht with rfl | rfl | rfl
      · exact Or.inr (Or.inl ⟨f0, extra, h, hv⟩)
      · exact Or.inr (Or.inr (Or.inl ⟨f0, extra, h, hv⟩))
      · exact Or.inr (Or.inr (Or.inr (Or.inl ⟨f0, extra, h, hv⟩)))
    · exact Or.inr (Or.inr (Or.inr (Or.inr ⟨t, _, h, h1, h2⟩)))
  · rintro (⟨f0, extra, h, h1, h2⟩ | ⟨f0, extra, h, hv⟩ | ⟨f0, extra, h, hv⟩ | ⟨f0, extra, h, hv⟩ | ⟨t, fs, h, h1, h2⟩)
    · exact ⟨_, f0, extra, h, Or.inl ⟨rfl, h1, h2⟩⟩
    · exact ⟨_, f0, extra, h, Or.inr (Or.inl ⟨by simp, hv⟩)⟩
    · exact ⟨_, f0, extra, h, Or.inr (Or.inl ⟨by simp, hv⟩)⟩
    · exact ⟨_, f0, extra, h, Or.inr (Or.inl ⟨by simp, hv⟩)⟩
    · rcases parse_fields (parsed_iff.1 h) with ⟨f0', hf⟩ | ⟨f0', f2, hf⟩
      · simp only at hf; subst hf
        exact ⟨t, f0', [], h, Or.inr (Or.inr ⟨h1, h2⟩)⟩
      · simp only at hf; subst hf
        exact ⟨t, f0', [f2], h, Or.inr (Or.inr ⟨h1, h2⟩)⟩

/-- A name is stored somewhere. -/
def StoredName (s : MPState PF PM) (k : Str) : Prop :=
  k ∈ s.counters.keys ∨ k ∈ s.timers.keys ∨ k ∈ s.gauges.map Prod.snd ∨ k ∈ s.meters.keys ∨ k ∈ s.pluginMetrics.keys

theorem storedName_iff {s : MPState PF PM} {k : Str} : k ∈ getMetricNames s ↔ StoredName s k := by
  unfold getMetricNames StoredName
  simp only [List.mem_dedup, List.mem_append]
  tauto

theorem or_five (a b c d e a' b' c' d' e' : Prop) :
    ((a ∨ a') ∨ (b ∨ b') ∨ (c ∨ c') ∨ (d ∨ d') ∨ (e ∨ e')) ↔
      (a ∨ b ∨ c ∨ d ∨ e) ∨ (a' ∨ b' ∨ c' ∨ d' ∨ e') := by
  constructor
  · rintro ((h | h) | (h | h) | (h | h) | (h | h) | (h | h)) <;> simp [h]
  · rintro ((h | h | h | h | h) | (h | h | h | h | h)) <;> simp [h]

theorem storedName_process (ops : PluginOps PF PM) (w : World) (s : MPState PF PM) (msg k : Str) :
    StoredName (process (messageProcessor ops) w s msg).1 k ↔ StoredName s k ∨ Names s.plugins.keys k msg := by
  unfold StoredName
  have ht : k ∈ (process (messageProcessor ops) w s msg).1.timers.keys ↔
      k ∈ s.timers.keys ∨ ∃ v, Reading c!"ms" k msg v := by
    rw [process_timers]
    have : (∃ v, Reading c!"ms" k msg v) ↔ ∃ v, timerEffect msg = some (k, v) :=
      exists_congr fun v => timerEffect_iff.symm
    rw [this]
    rcases timerEffect msg with _ | ⟨k', v⟩
    · simp [applyTimer]
    · simp only [applyTimer, Dict.mem_keys_put, Option.some.injEq, Prod.mk.injEq, exists_and_left, exists_eq', and_true]
      constructor
      · rintro (rfl | h)
        · exact Or.inr rfl
        · exact Or.inl h
      · rintro (h | rfl)
        · exact Or.inr h
        · exact Or.inl rfl
  have hg : k ∈ (process (messageProcessor ops) w s msg).1.gauges.map Prod.snd ↔
      k ∈ s.gauges.map Prod.snd ∨ ∃ v, Reading c!"g" k msg v := by
    rw [process_gauges]
    have : (∃ v, Reading c!"g" k msg v) ↔ ∃ v, gaugeEffect msg = some (k, v) :=
      exists_congr fun v => gaugeEffect_iff.symm
    rw [this]
    rcases gaugeEffect msg with _ | ⟨k', v⟩
    · simp [applyGauge]
    · simp only [applyGauge, List.map_append, List.mem_append, List.map_cons, List.map_nil, List.mem_singleton,
        Option.some.injEq, Prod.mk.injEq, exists_and_left, exists_eq', and_true]
      constructor
      · rintro (h | rfl)
        · exact Or.inl h
        · exact Or.inr rfl
      · rintro (h | rfl)
        · exact Or.inl h
        · exact Or.inr rfl
  have hm : k ∈ (process (messageProcessor ops) w s msg).1.meters.keys ↔
      k ∈ s.meters.keys ∨ ∃ v, Reading c!"m" k msg v := by
    rw [process_meters]
    have : (∃ v, Reading c!"m" k msg v) ↔ ∃ v, meterEffect msg = some (k, v) :=
      exists_congr fun v => meterEffect_iff.symm
    rw [this]
    rcases meterEffect msg with _ | ⟨k', v⟩
    · simp [applyMeter]
    · simp only [applyMeter, Dict.mem_keys_put, Option.some.injEq, Prod.mk.injEq, exists_and_left, exists_eq', and_true]
      constructor
      · rintro (rfl | h)
        · exact Or.inr rfl
        · exact Or.inl h
      · rintro (h | rfl)
        · exact Or.inr h
        · exact Or.inl rfl
  have hc : k ∈ (process (messageProcessor ops) w s msg).1.counters.keys ↔
      k ∈ s.counters.keys ∨ ∃ o, counterEffect msg = some (k, o) := by
    rw [process_counters]; exact counters_keys
  rw [ht, hg, hm, hc, pluginMetrics_keys, names_iff]
  exact or_five _ _ _ _ _ _ _ _ _ _

theorem process_plugins (ops : PluginOps PF PM) (w : World) (s : MPState PF PM) (msg : Str) :
    (process (messageProcessor ops) w s msg).1.plugins = s.plugins := by
  rw [process_obs obs_plugins]
  cases parseMessage msg with
  | none => rfl
  | some m =>
    simp only
    cases hd : dispatch (messageProcessor ops) w { s with ticks := s.ticks + 1 } msg m with
    | none => rfl
    | some r => exact (dispatch_recv (mp_local ops) w hd).2.2.1

theorem flush_keys (ops : PluginOps PF PM) (w : World) (interval percent : ℤ) {s : MPState PF PM} (hs : MPWf ops s) :
    let r := (flush (messageProcessor ops) w interval percent s).1
    r.counters.keys = s.counters.keys ∧ r.timers.keys = s.timers.keys ∧ r.gauges = s.gauges ∧
    r.meters.keys = s.meters.keys ∧ r.pluginMetrics.keys = s.pluginMetrics.keys ∧ r.plugins = s.plugins := by
  intro r
  have hr : r = (flush (messageProcessor ops) w interval percent s).1 := rfl
  rw [flush_mp ops w interval percent hs] at hr
  obtain ⟨h1, h2, h3, h4, h5, h6, h7⟩ := flushForm_state (messageProcessor ops) w (Int.fdiv interval 1000)
    (truncQ (w.clk s.ticks))
    (runElems (fun _ _ => Num.int 0) (counterGroup (Int.fdiv interval 1000) (truncQ (w.clk s.ticks))) s.counters)
    (runElems (fun _ _ => []) (timerGroup percent (truncQ (w.clk s.ticks))) s.timers)
    (s.gauges.map fun p => [⟨c!"stats.gauge." ++ p.2 ++ c!".value", Num.flt p.1, truncQ (w.clk s.ticks)⟩])
    (meterRes (truncQ (w.clk s.ticks)) s.meters) s hs.shared (runElems_keys _ _ _)
  rw [← hr] at h1 h2 h3 h4 h5 h6
  refine ⟨by rw [h3, runElems_keys], by rw [h4]; split_ifs; exact runElems_keys _ _ _; rfl, h2, ?_, h6, h5⟩
  rw [hr]
  have hmk : Dict.keys (meterRes (truncQ (w.clk s.ticks)) s.meters).1 = s.meters.keys := runElems_keys _ _ _
  unfold flushForm
  split
  · rfl
  · split
    · rfl
    · split
      · exact hmk
      · simp only
        obtain ⟨tk, pm, gs, e, he, hk, _⟩ := plugin_phase (messageProcessor ops) w (Int.fdiv interval 1000)
          (truncQ (w.clk s.ticks))
          { s with
            ticks := s.ticks + 10
            counters := (runElems (fun _ _ => Num.int 0) (counterGroup (Int.fdiv interval 1000) (truncQ (w.clk s.ticks))) s.counters).1
            timers := (runElems (fun _ _ => []) (timerGroup percent (truncQ (w.clk s.ticks))) s.timers).1
            meters := (meterRes (truncQ (w.clk s.ticks)) s.meters).1 } hs.shared.pluginMetrics
        simp only at he hk
        rw [he]
        cases e with
        | some e => exact hmk
        | none =>
          simp only [runSummary]
          split <;> exact hmk

theorem runOps_plugins (ops : PluginOps PF PM) (w : World) {s : MPState PF PM} (hs : MPWf ops s) (os : List Op) :
    (runOps (messageProcessor ops) w s os).1.plugins = s.plugins := by
  induction os using List.reverseRecOn with
  | nil => rfl
  | append_singleton os o ih =>
    rw [runOps_snoc]
    cases o with
    | msg m => simp only [Op.apply]; rw [process_plugins]; exact ih
    | flush i p =>
      simp only [Op.apply]
      rw [(flush_keys ops w i p (mpwf_runOps ops w hs os)).2.2.2.2.2]; exact ih

theorem init_plugins_keys (ops : PluginOps PF PM) (plugins : List PF) (t : Str) :
    t ∈ (MPState.init ops plugins).plugins.keys ↔ t ∈ plugins.map ops.mtype := by
  have : ∀ (d : Dict PF), t ∈ Dict.keys (plugins.foldl (fun d p => Dict.put d (ops.mtype p) p) d) ↔
      t ∈ d.keys ∨ t ∈ plugins.map ops.mtype := by
    induction plugins with
    | nil => simp
    | cons p ps ih =>
      intro d
      rw [List.foldl_cons, ih, Dict.mem_keys_put, List.map_cons, List.mem_cons]
      tauto
  have h := this []
  simpa [MPState.init] using h

theorem stored_names (ops : PluginOps PF PM) (plugins : List PF) (w : World) (os : List Op) (k : Str) :
    StoredName (runOps (messageProcessor ops) w (MPState.init ops plugins) os).1 k ↔
      ∃ msg ∈ messages os, Names (plugins.map ops.mtype) k msg := by
  induction os using List.reverseRecOn with
  | nil => simp [runOps, messages, StoredName, MPState.init, Dict.keys]
  | append_singleton os o ih =>
    have hwf := mpwf_runOps ops w (mpwf_init ops plugins) os
    have hpl := runOps_plugins ops w (mpwf_init ops plugins) os
    rw [runOps_snoc]
    cases o with
    | msg m =>
      rw [messages_snoc_msg]
      simp only [Op.apply]
      rw [storedName_process, ih, hpl]
      have : Names (MPState.init ops plugins).plugins.keys k m ↔ Names (plugins.map ops.mtype) k m := by
        rw [names_iff, names_iff]
        simp only [init_plugins_keys]
      rw [this]
      simp only [List.mem_append, List.mem_singleton]
      constructor
      · rintro (⟨msg, h1, h2⟩ | h)
        · exact ⟨msg, Or.inl h1, h2⟩
        · exact ⟨m, Or.inr rfl, h⟩
      · rintro ⟨msg, h1 | rfl, h2⟩
        · exact Or.inl ⟨msg, h1, h2⟩
        · exact Or.inr h2
    | flush i p =>
      rw [messages_snoc_flush]
      simp only [Op.apply]
      obtain ⟨h1, h2, h3, h4, h5, _⟩ := flush_keys ops w i p hwf
      rw [← ih]
      unfold StoredName
      rw [h1, h2, h3, h4, h5]

end
end Txstatsd
