import Verif.Spec.Schedule
import Verif.Lemmas.Accounting

set_option linter.unusedSectionVars false
set_option linter.unusedSimpArgs false
set_option linter.unusedVariables false

namespace Txstatsd
open Spec
section
variable [Rounding] {PF PM : Type}

/-- What a visit of phase `k` leaves alone. -/
structure Frame (ops : PluginOps PF PM) (k : Nat) (s s' : MPState PF PM) : Prop where
  wf : MPWf ops s'
  counters : k ≠ 0 → s'.counters = s.counters
  timers : k ≠ 1 → s'.timers = s.timers
  gauges : s'.gauges = s.gauges
  meters : k ≠ 3 → s'.meters = s.meters
  pluginMetrics : k < 4 → s'.pluginMetrics = s.pluginMetrics
  plugins : s'.plugins = s.plugins
  processTimings : s'.processTimings = s.processTimings
  byType : s'.byType = s.byType
  keys0 : s'.counters.keys = s.counters.keys
  keys1 : s'.timers.keys = s.timers.keys
  keys3 : s'.meters.keys = s.meters.keys
  keys4 : s'.pluginMetrics.keys = s.pluginMetrics.keys

theorem keys_put_mem {V : Type} {d : Dict V} {k : Str} {v x : V} (h : (k, x) ∈ d) : (d.put k v).keys = d.keys := by
  rw [Dict.keys_put, if_pos (Dict.mem_keys_of_mem h)]

theorem frame_refl {ops : PluginOps PF PM} {k : Nat} {s : MPState PF PM} (h : MPWf ops s) : Frame ops k s s :=
  ⟨h, fun _ => rfl, fun _ => rfl, rfl, fun _ => rfl, fun _ => rfl, rfl, rfl, rfl, rfl, rfl, rfl, rfl⟩

theorem visit_frame (ops : PluginOps PF PM) (w : World) (secs percent ts : ℤ) (k : Nat) {s : MPState PF PM} (hs : MPWf ops s)
    (i : Nat) : Frame ops k s (phaseVisit (messageProcessor ops) w secs percent ts k s i).1 := by
  match k with
  | 0 =>
    show Frame ops 0 s (counterVisit secs ts s i).1
    unfold counterVisit
    cases h : s.counters[i]? with
    | none => exact frame_refl hs
    | some p =>
      obtain ⟨key, c⟩ := p
      have hm := List.mem_of_getElem? h
      have hf : Frame ops 0 s { s with counters := s.counters.put key (.int 0) } :=
        ⟨⟨⟨hs.shared.1, hs.shared.2, hs.shared.3, hs.shared.4, hs.shared.5⟩, Dict.wf_put hs.counters _ _, hs.timers,
          hs.meterPre, hs.came⟩, fun h => absurd rfl h, fun _ => rfl, rfl, fun _ => rfl, fun _ => rfl, rfl, rfl, rfl,
          keys_put_mem hm, rfl, rfl, rfl⟩
      simp only
      split <;> exact hf
  | 1 =>
    show Frame ops 1 s (timerVisit percent ts s i).1
    unfold timerVisit
    cases h : s.timers[i]? with
    | none => exact frame_refl hs
    | some p =>
      obtain ⟨key, c⟩ := p
      have hm := List.mem_of_getElem? h
      have hf : Frame ops 1 s { s with timers := s.timers.put key [] } :=
        ⟨⟨⟨hs.shared.1, hs.shared.2, hs.shared.3, hs.shared.4, hs.shared.5⟩, hs.counters, Dict.wf_put hs.timers _ _,
          hs.meterPre, hs.came⟩, fun _ => rfl, fun h => absurd rfl h, rfl, fun _ => rfl, fun _ => rfl, rfl, rfl, rfl,
          rfl, keys_put_mem hm, rfl, rfl⟩
      simp only
      split
      · split <;> exact hf
      · exact frame_refl hs
  | 2 =>
    show Frame ops 2 s (gaugeVisit ts s i).1
    unfold gaugeVisit
    split <;> exact frame_refl hs
  | 3 =>
    show Frame ops 3 s (meterVisit ts s i).1
    unfold meterVisit
    cases h : s.meters[i]? with
    | none => exact frame_refl hs
    | some p =>
      obtain ⟨key, m⟩ := p
      have hm := List.mem_of_getElem? h
      refine ⟨⟨⟨Dict.wf_put hs.shared.1 _ _, hs.shared.2, hs.shared.3, hs.shared.4, hs.shared.5⟩, hs.counters, hs.timers,
          ?_, hs.came⟩, fun _ => rfl, fun _ => rfl, rfl, fun h => absurd rfl h, fun _ => rfl, rfl, rfl, rfl,
          rfl, rfl, keys_put_mem hm, rfl⟩
      intro p hp
      rcases Dict.mem_put hp with rfl | hp
      · have := hs.meterPre _ hm
        simp only [meter_report_pre]; exact this
      · exact hs.meterPre p hp
  | k + 4 =>
    show Frame ops (k + 4) s (pluginVisit (messageProcessor ops) w secs ts s i).1
    unfold pluginVisit
    cases h : s.pluginMetrics[i]? with
    | none => exact frame_refl hs
    | some p =>
      obtain ⟨key, m⟩ := p
      have hm := List.mem_of_getElem? h
      refine ⟨⟨⟨hs.shared.1, Dict.wf_put hs.shared.2 _ _, hs.shared.3, hs.shared.4, hs.shared.5⟩, hs.counters, hs.timers,
          hs.meterPre, ?_⟩, fun _ => rfl, fun _ => rfl, rfl, fun _ => rfl, fun h => by omega, rfl, rfl, rfl,
          rfl, rfl, rfl, keys_put_mem hm⟩
      intro p hp
      rcases Dict.mem_put hp with rfl | hp
      · exact .flushed _ _ _ _ (hs.came _ hm)
      · exact hs.came p hp

theorem frame_len (ops : PluginOps PF PM) {k : Nat} {s s' : MPState PF PM} (h : Frame ops k s s') (j : Nat) :
    phaseLen (messageProcessor ops) s' j = phaseLen (messageProcessor ops) s j := by
  have h0 := congrArg List.length h.keys0
  have h1 := congrArg List.length h.keys1
  have h3 := congrArg List.length h.keys3
  have h4 := congrArg List.length h.keys4
  simp only [Dict.keys, List.length_map] at h0 h1 h3 h4
  unfold phaseLen
  split
  · exact h0
  · exact h1
  · rw [h.gauges]
  · exact h3
  · exact h4

/-- The names of the datapoints of a visit after the counter phase. -/
theorem visit_names (ops : PluginOps PF PM) (w : World) (secs percent ts : ℤ) {k : Nat} (hk : k ≠ 0)
    {s : MPState PF PM} (hs : MPWf ops s) (i : Nat) {ds : List Datapoint}
    (h : (phaseVisit (messageProcessor ops) w secs percent ts k s i).2 = .ok (some ds)) :
    ∀ d ∈ ds, c!"stats." <+: d.name ∨ PluginPoint ops w statsPrefix secs ts d := by
  match k, hk with
  | 1, _ =>
    have h : (timerVisit percent ts s i).2 = .ok (some ds) := h
    intro d hd
    left
    unfold timerVisit at h
    cases hi : s.timers[i]? with
    | none => simp [hi] at h
    | some p =>
      obtain ⟨key, c⟩ := p
      simp only [hi] at h
      split at h
      · split at h
        · simp at h
        · simp only [Except.ok.injEq, Option.some.injEq] at h
          subst h
          simp only [List.mem_cons, List.not_mem_nil, or_false] at hd
          rcases hd with rfl | rfl | rfl | rfl | rfl <;> exact ⟨_, rfl⟩
      · simp at h
  | 2, _ =>
    have h : (gaugeVisit ts s i).2 = .ok (some ds) := h
    intro d hd
    left
    unfold gaugeVisit at h
    cases hi : s.gauges[i]? with
    | none => simp [hi] at h
    | some p =>
      obtain ⟨v, key⟩ := p
      simp only [hi, Except.ok.injEq, Option.some.injEq] at h
      subst h
      simp only [List.mem_cons, List.not_mem_nil, or_false] at hd
      subst hd; exact ⟨_, rfl⟩
  | 3, _ =>
    have h : (meterVisit ts s i).2 = .ok (some ds) := h
    intro d hd
    left
    unfold meterVisit at h
    cases hi : s.meters[i]? with
    | none => simp [hi] at h
    | some p =>
      obtain ⟨key, m⟩ := p
      simp only [hi] at h
      cases hr : (m.report ts).2 with
      | error e => simp [hr, Except.map] at h
      | ok l =>
        have hl : l = ds := by simpa [hr, Except.map] using h
        subst hl
        have hp := hs.meterPre _ (List.mem_of_getElem? hi)
        simp only at hp
        rcases (meter_report_points hr d hd).2 with e | e <;> rw [e, hp.1] <;> exact ⟨_, rfl⟩
  | k + 4, _ =>
    have h : (pluginVisit (messageProcessor ops) w secs ts s i).2 = .ok (some ds) := h
    intro d hd
    right
    unfold pluginVisit at h
    cases hi : s.pluginMetrics[i]? with
    | none => simp [hi] at h
    | some p =>
      obtain ⟨key, m⟩ := p
      simp only [hi] at h
      cases hr : (ops.flush w s.ticks m secs ts).2.2 with
      | error e =>
        have hr' : ((messageProcessor ops).ops.flush w s.ticks m secs ts).2.2 = .error e := hr
        simp [hr', Except.map] at h
      | ok l =>
        have hr' : ((messageProcessor ops).ops.flush w s.ticks m secs ts).2.2 = .ok l := hr
        have hl : l = ds := by simpa [hr', Except.map] using h
        subst hl
        exact ⟨_, _, _, _, hs.came _ (List.mem_of_getElem? hi), hr, hd⟩

/-- What one step of a generator leaves alone. -/
structure StepFrame (ops : PluginOps PF PM) (s s' : MPState PF PM) : Prop where
  wf : MPWf ops s'
  gauges : s'.gauges = s.gauges
  plugins : s'.plugins = s.plugins
  keys0 : s'.counters.keys = s.counters.keys
  keys1 : s'.timers.keys = s.timers.keys
  keys3 : s'.meters.keys = s.meters.keys
  keys4 : s'.pluginMetrics.keys = s.pluginMetrics.keys

theorem Frame.step {ops : PluginOps PF PM} {k : Nat} {s s' : MPState PF PM} (h : Frame ops k s s') : StepFrame ops s s' :=
  ⟨h.wf, h.gauges, h.plugins, h.keys0, h.keys1, h.keys3, h.keys4⟩

theorem stepFrame_refl {ops : PluginOps PF PM} {s : MPState PF PM} (h : MPWf ops s) : StepFrame ops s s := ⟨h, rfl, rfl, rfl, rfl, rfl, rfl⟩

theorem micro_frame (ops : PluginOps PF PM) (w : World) {s : MPState PF PM} (hs : MPWf ops s) (g : Gen) :
    StepFrame ops s (micro (messageProcessor ops) w s g).1 := by
  have hg : ∀ (s' : MPState PF PM), s'.meters = s.meters → s'.pluginMetrics = s.pluginMetrics →
      s'.processTimings = s.processTimings → s'.byType = s.byType → s'.counters = s.counters → s'.timers = s.timers →
      s'.gauges = s.gauges → s'.plugins = s.plugins → StepFrame ops s s' := by
    intro s' h1 h2 h3 h4 h5 h6 h7 h8
    refine ⟨⟨⟨?_, ?_, ?_, ?_, ?_⟩, ?_, ?_, ?_, ?_⟩, h7, h8, by rw [h5], by rw [h6], by rw [h1], by rw [h2]⟩
    · rw [h1]; exact hs.shared.1
    · rw [h2]; exact hs.shared.2
    · rw [h3]; exact hs.shared.3
    · rw [h4]; exact hs.shared.4
    · rw [h3, h4]; exact hs.shared.5
    · rw [h5]; exact hs.counters
    · rw [h6]; exact hs.timers
    · rw [h1]; exact hs.meterPre
    · rw [h2]; exact hs.came
  obtain ⟨interval, percent, pc⟩ := g
  cases pc with
  | fresh => exact hg _ rfl rfl rfl rfl rfl rfl rfl rfl
  | phaseStart k ts acc => exact hg _ rfl rfl rfl rfl rfl rfl rfl rfl
  | inPhase k ts acc start size cursor events pend =>
    cases pend with
    | cons d pend => exact stepFrame_refl hs
    | nil =>
      unfold micro
      simp only
      split_ifs
      · exact stepFrame_refl hs
      · have hf := visit_frame ops w (Int.fdiv interval 1000) percent ts k hs cursor
        split <;> rename_i heq <;> rw [heq] at hf <;> exact hf.step
      · exact hg _ rfl rfl rfl rfl rfl rfl rfl rfl
      · exact hg _ rfl rfl rfl rfl rfl rfl rfl rfl
  | sumInit ts acc pend =>
    cases pend with
    | cons d pend => exact stepFrame_refl hs
    | nil => exact hg _ rfl rfl rfl rfl rfl rfl rfl rfl
  | sumPer ts todo cur pend =>
    cases pend with
    | cons d pend => exact stepFrame_refl hs
    | nil =>
      cases cur with
      | some d => exact hg _ rfl rfl rfl rfl rfl rfl rfl rfl
      | none =>
        cases todo with
        | cons p todo => exact stepFrame_refl hs
        | nil => exact hg _ rfl rfl rfl rfl rfl rfl rfl rfl
  | sumRecv ts size cursor cur pend =>
    cases pend with
    | cons d pend => exact stepFrame_refl hs
    | nil =>
      cases cur with
      | some p =>
        obtain ⟨t, d⟩ := p
        unfold micro; simp only
        split_ifs
        · exact hg _ rfl rfl rfl rfl rfl rfl rfl rfl
        · exact stepFrame_refl hs
      | none =>
        unfold micro; simp only
        split_ifs
        · exact stepFrame_refl hs
        · split
          · split <;> exact stepFrame_refl hs
          · exact ⟨⟨⟨hs.shared.1, hs.shared.2, Dict.wf_nil, Dict.wf_nil, rfl⟩, hs.counters, hs.timers, hs.meterPre, hs.came⟩,
              rfl, rfl, rfl, rfl, rfl, rfl⟩
  | done => exact stepFrame_refl hs
  | crashed e => exact stepFrame_refl hs

theorem micro_interval {C T G : Type} (I : Impl C T G PF PM) (w : World) (s : PS C T G PF PM) (g : Gen) :
    (micro I w s g).2.1.interval = g.interval ∧ (micro I w s g).2.1.percent = g.percent := by
  unfold micro
  repeat' (first | exact ⟨rfl, rfl⟩ | split)

end
end Txstatsd
