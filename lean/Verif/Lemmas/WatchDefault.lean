import Verif.Lemmas.WatchTimer
import Verif.Lemmas.PluginLife
import Verif.Lemmas.WatchMeter
import Verif.Lemmas.ConfigurableStored

set_option linter.unusedSectionVars false
set_option linter.unusedSimpArgs false
set_option linter.unusedVariables false

/-!
# The default processor, watched through a schedule
-/

namespace Txstatsd
open Spec
section
variable [Rounding] {PF PM : Type}

theorem applyTimer_read (d : Dict (List PyFloat)) (e : Option (Str × PyFloat)) :
    applyTimer d e = applyRead (fun _ => []) (fun l x => l ++ [x]) d e := by
  rcases e with _ | ⟨k, x⟩ <;> rfl

theorem applyMeter_read (pre : Str) (now : ℚ) (d : Dict Meter) (e : Option (Str × PyFloat)) :
    applyMeter pre now d e = applyRead (Meter.init · pre now) Meter.mark d e := by
  rcases e with _ | ⟨k, x⟩ <;> rfl

/-- Where the stored metrics come from. -/
structure OriginD (s : MPState PF PM) (ms : List Str) : Prop where
  counters : ∀ k ∈ s.counters.keys, ∃ m ∈ ms, ∃ fs, Parsed m c!"c" k fs
  timers : ∀ k ∈ s.timers.keys, Received c!"ms" k ms
  gauges : ∀ p ∈ s.gauges, ∃ m ∈ ms, Reading c!"g" p.2 m p.1
  meters : ∀ k ∈ s.meters.keys, Received c!"m" k ms

theorem originD_init (ops : PluginOps PF PM) (plugins : List PF) : OriginD (MPState.init ops plugins) [] :=
  ⟨by intro k h; simp [MPState.init] at h, by intro k h; simp [MPState.init] at h,
    by intro k h; simp [MPState.init] at h, by intro k h; simp [MPState.init] at h⟩

theorem originD_keys {s s' : MPState PF PM} {ms : List Str} (h : OriginD s ms) (h0 : s'.counters.keys = s.counters.keys)
    (h1 : s'.timers.keys = s.timers.keys) (h2 : s'.gauges = s.gauges) (h3 : s'.meters.keys = s.meters.keys) :
    OriginD s' ms :=
  ⟨by rw [h0]; exact h.counters, by rw [h1]; exact h.timers, by rw [h2]; exact h.gauges, by rw [h3]; exact h.meters⟩

theorem originD_process (ops : PluginOps PF PM) (w : World) {s : MPState PF PM} {ms : List Str} (h : OriginD s ms) (m : Str) :
    OriginD (process (messageProcessor ops) w s m).1 (ms ++ [m]) := by
  refine ⟨?_, ?_, ?_, ?_⟩
  · intro k hk
    rw [process_counters] at hk
    rcases counters_keys.1 hk with hk | ⟨o, ho⟩
    · obtain ⟨x, hx, hp⟩ := h.counters k hk
      exact ⟨x, by simp [hx], hp⟩
    · exact ⟨m, by simp, counterEffect_counts ho⟩
  · intro k hk
    rw [process_timers, applyTimer_read, timerEffect_eq, applyRead_keys] at hk
    rw [received_snoc]
    exact hk.imp_left (h.timers k)
  · intro p hp
    rw [process_gauges] at hp
    rcases he : gaugeEffect m with _ | ⟨k, x⟩
    · rw [he] at hp
      obtain ⟨y, hy, hr⟩ := h.gauges p hp
      exact ⟨y, by simp [hy], hr⟩
    · rw [he] at hp
      rcases List.mem_append.1 hp with hp | hp
      · obtain ⟨y, hy, hr⟩ := h.gauges p hp
        exact ⟨y, by simp [hy], hr⟩
      · rw [List.mem_singleton.1 hp]
        exact ⟨m, by simp, gaugeEffect_iff.1 he⟩
  · intro k hk
    rw [process_meters, applyMeter_read, meterEffect_eq, applyRead_keys] at hk
    rw [received_snoc]
    exact hk.imp_left (h.meters k)

/-- What a datapoint of the default processor says about the messages so far. -/
theorem fresh_default (ops : PluginOps PF PM) (w : World) (P : Dict PF) :
    Fresh (messageProcessor ops) w (fun s ms => MPWf ops s ∧ OriginD s ms ∧ MeterStore ms s.meters ∧ Lives ops w P statsPrefix s ms)
      (fun ms d => AboutD (ByPlugin ops w P statsPrefix ms) ms d) where
  same := fun h hi => ⟨mpwf_same h hi.1, originD_keys hi.2.1 (by rw [h.counters]) (by rw [h.timers]) h.gauges
    (by rw [h.meters]), by rw [h.meters]; exact hi.2.2.1,
    lives_same h.plugins h.pluginMetrics h.ticks hi.2.2.2⟩
  arrive := fun m hi => ⟨mpwf_process ops w hi.1 m, originD_process ops w hi.2.1 m, by
    rw [process_meters, applyMeter_read, meterEffect_eq]; exact meterStore_read hi.2.2.1 _ _ m,
    lives_arrive (mp_local ops) (mp_timed ops) hi.2.2.2 m⟩
  internal := by
    rintro ms d ⟨x, hx, _⟩
    exact Or.inr (Or.inr (Or.inr (Or.inr (Or.inl ⟨x, hx.symm⟩))))
  visit := by
    rintro s ms k cursor ts interval percent ⟨hw, hst, hms, hlv⟩ hcur r
    have hf := visit_frame ops w (Int.fdiv interval 1000) percent ts k hw cursor
    refine ⟨⟨hf.wf, originD_keys hst hf.keys0 hf.keys1 hf.gauges hf.keys3, ?_,
      lives_visit (mp_apart ops) (mp_timed ops) hw.shared hlv _ percent ts k hcur⟩, ?_⟩
    · by_cases hk : k = 3
      · subst hk
        have hr : r = meterVisit ts s cursor := rfl
        rw [hr]
        unfold meterVisit
        cases hi : s.meters[cursor]? with
        | none => exact hms
        | some p =>
          obtain ⟨key, m⟩ := p
          exact meterStore_put hw.shared.1 hms (List.mem_of_getElem? hi) ts
      · rw [hf.meters hk]; exact hms
    intro d hd
    have hd' : d ∈ visited (phaseVisit (messageProcessor ops) w (Int.fdiv interval 1000) percent ts k s cursor).2 := hd
    clear hd hf
    have hd := hd'
    clear hd' r
    match k, hcur with
    | 0, _ =>
      have hd : d ∈ visited (counterVisit (Int.fdiv interval 1000) ts s cursor).2 := hd
      unfold counterVisit at hd
      cases hi : s.counters[cursor]? with
      | none => simp [hi, visited] at hd
      | some p =>
        obtain ⟨key, c⟩ := p
        simp only [hi] at hd
        have hk := hst.counters key (Dict.mem_keys_of_mem (List.mem_of_getElem? hi))
        cases hdv : c.divInt (Int.fdiv interval 1000) with
        | error e => simp [hdv, visited] at hd
        | ok x =>
          simp only [hdv, visited, Option.getD_some, List.mem_cons, List.not_mem_nil, or_false] at hd
          rcases hd with rfl | rfl
          · exact Or.inl ⟨key, hk, Or.inl rfl⟩
          · exact Or.inl ⟨key, hk, Or.inr rfl⟩
    | 1, _ =>
      have hd : d ∈ visited (timerVisit percent ts s cursor).2 := hd
      cases hi : s.timers[cursor]? with
      | none => unfold timerVisit at hd; simp [hi, visited] at hd
      | some p =>
        obtain ⟨key, v⟩ := p
        have hk := hst.timers key (Dict.mem_keys_of_mem (List.mem_of_getElem? hi))
        rw [timerVisit_eq hw hi] at hd
        simp only at hd
        rcases hg : timerGroup percent ts key v with e | (_ | gr)
        · simp [hg, visited] at hd
        · simp [hg, visited] at hd
        · rw [hg] at hd
          simp only [visited, Option.getD_some] at hd
          exact Or.inr (Or.inl ⟨key, hk, by rw [timerGroup_of hg key d hd]; simp⟩)
    | 2, _ =>
      have hd : d ∈ visited (gaugeVisit ts s cursor).2 := hd
      unfold gaugeVisit at hd
      cases hi : s.gauges[cursor]? with
      | none => simp [hi, visited] at hd
      | some p =>
        obtain ⟨v, key⟩ := p
        simp only [hi, visited, Option.getD_some, List.mem_singleton] at hd
        subst hd
        exact Or.inr (Or.inr (Or.inl ⟨key, v, hst.gauges _ (List.mem_of_getElem? hi), rfl, rfl⟩))
    | 3, _ =>
      have hd : d ∈ visited (meterVisit ts s cursor).2 := hd
      unfold meterVisit at hd
      cases hi : s.meters[cursor]? with
      | none => simp [hi, visited] at hd
      | some p =>
        obtain ⟨key, m⟩ := p
        simp only [hi] at hd
        cases hr : (m.report ts).2 with
        | error e => simp [hr, Except.map, visited] at hd
        | ok l =>
          simp only [hr, Except.map, visited, Option.getD_some] at hd
          obtain ⟨n1, n2⟩ := hw.meterPre _ (List.mem_of_getElem? hi)
          have hrec := hst.meters key (Dict.mem_keys_of_mem (List.mem_of_getElem? hi))
          rcases (meter_report_points hr d hd).2 with e | e
          · exact Or.inr (Or.inr (Or.inr (Or.inl ⟨key, hrec, Or.inr ⟨by rw [e, n1, n2], 
              meterStore_report hw.shared.1 hms (List.mem_of_getElem? hi) ts hr hd e⟩⟩)))
          · exact Or.inr (Or.inr (Or.inr (Or.inl ⟨key, hrec, Or.inl (by rw [e, n1, n2])⟩)))
    | k + 4, _ =>
      have hd : d ∈ visited (pluginVisit (messageProcessor ops) w (Int.fdiv interval 1000) ts s cursor).2 := hd
      obtain ⟨key, m, t, gs, _, h1, h2, h3⟩ := lives_points hw.shared hlv hd
      exact Or.inr (Or.inr (Or.inr (Or.inr (Or.inr ⟨key, m, t, gs, _, _, _, h2, h1, h3⟩))))

end
end Txstatsd
