import Verif.Lemmas.Watch
import Verif.Lemmas.ConfigurableMisc
import Verif.Lemmas.Uninterrupted
import Verif.Lemmas.WatchMeter
import Verif.Lemmas.PluginLife
import Verif.Spec.Interleaved

set_option linter.unusedSectionVars false
set_option linter.unusedSimpArgs false
set_option linter.unusedVariables false

/-!
# The configurable processor, watched through a schedule
-/

namespace Txstatsd
open Spec
section
variable [Rounding] {PF PM : Type}

theorem cpwf_same {ops : PluginOps PF PM} {pre : Str} {s s' : CPState PF PM} (h : SameStores s s') (hs : CPWf ops pre s) : CPWf ops pre s' :=
  ⟨shared_same h hs.shared, by rw [h.counters]; exact hs.counters, by rw [h.timers]; exact hs.timers,
    by rw [h.gauges]; exact hs.gauges, by rw [h.counters]; exact hs.cName, by rw [h.gauges]; exact hs.gName,
    by rw [h.timers]; exact hs.tName, by rw [h.meters]; exact hs.mName,
    by rw [h.pluginMetrics]; exact hs.came⟩

/-- What a visit of phase `k` leaves alone. -/
structure FrameC (ops : PluginOps PF PM) (pre : Str) (k : Nat) (s s' : CPState PF PM) : Prop where
  wf : CPWf ops pre s'
  counters : s'.counters = s.counters
  gauges : s'.gauges = s.gauges
  timers : k ≠ 1 → s'.timers = s.timers
  meters : k ≠ 3 → s'.meters = s.meters
  plugins : s'.plugins = s.plugins
  processTimings : s'.processTimings = s.processTimings
  byType : s'.byType = s.byType
  keys1 : s'.timers.keys = s.timers.keys
  keys3 : s'.meters.keys = s.meters.keys
  keys4 : s'.pluginMetrics.keys = s.pluginMetrics.keys

theorem frameC_refl {ops : PluginOps PF PM} {pre : Str} {k : Nat} {s : CPState PF PM} (h : CPWf ops pre s) : FrameC ops pre k s s :=
  ⟨h, rfl, rfl, fun _ => rfl, fun _ => rfl, rfl, rfl, rfl, rfl, rfl, rfl⟩

theorem visit_frameC (ops : PluginOps PF PM) (pre int : Str) (w : World) (secs percent ts : ℤ) (k : Nat) {s : CPState PF PM}
    (hs : CPWf ops pre s) (i : Nat) : FrameC ops pre k s (phaseVisit (configurable ops pre int) w secs percent ts k s i).1 := by
  match k with
  | 0 =>
    show FrameC ops pre 0 s (counterVisitC secs ts s i).1
    unfold counterVisitC
    split <;> exact frameC_refl hs
  | 1 =>
    show FrameC ops pre 1 s (timerVisitC percent ts s i).1
    unfold timerVisitC
    cases h : s.timers[i]? with
    | none => exact frameC_refl hs
    | some p =>
      obtain ⟨key, t⟩ := p
      have hm := List.mem_of_getElem? h
      refine ⟨⟨⟨hs.shared.1, hs.shared.2, hs.shared.3, hs.shared.4, hs.shared.5⟩, hs.counters, Dict.wf_put hs.timers _ _,
          hs.gauges, hs.cName, hs.gName, ?_, hs.mName, hs.came⟩, rfl, rfl, fun h => absurd rfl h, fun _ => rfl, rfl, rfl, rfl,
          keys_put_mem hm, rfl, rfl⟩
      intro p hp
      rcases Dict.mem_put hp with rfl | hp
      · have h1 := hs.tName _ hm
        have h2 := timer_report_name t ts
        exact ⟨h2.1.trans h1.1, h2.2.trans h1.2⟩
      · exact hs.tName p hp
  | 2 =>
    show FrameC ops pre 2 s (gaugeVisitC ts s i).1
    unfold gaugeVisitC
    split <;> exact frameC_refl hs
  | 3 =>
    show FrameC ops pre 3 s (meterVisit ts s i).1
    unfold meterVisit
    cases h : s.meters[i]? with
    | none => exact frameC_refl hs
    | some p =>
      obtain ⟨key, m⟩ := p
      have hm := List.mem_of_getElem? h
      refine ⟨⟨⟨Dict.wf_put hs.shared.1 _ _, hs.shared.2, hs.shared.3, hs.shared.4, hs.shared.5⟩, hs.counters, hs.timers,
          hs.gauges, hs.cName, hs.gName, hs.tName, ?_, hs.came⟩, rfl, rfl, fun _ => rfl, fun h => absurd rfl h, rfl, rfl, rfl,
          rfl, keys_put_mem hm, rfl⟩
      intro p hp
      rcases Dict.mem_put hp with rfl | hp
      · have := hs.mName _ hm
        simp only [meter_report_pre]; exact this
      · exact hs.mName p hp
  | k + 4 =>
    show FrameC ops pre (k + 4) s (pluginVisit (configurable ops pre int) w secs ts s i).1
    unfold pluginVisit
    cases h : s.pluginMetrics[i]? with
    | none => exact frameC_refl hs
    | some p =>
      obtain ⟨key, m⟩ := p
      have hm := List.mem_of_getElem? h
      refine ⟨⟨⟨hs.shared.1, Dict.wf_put hs.shared.2 _ _, hs.shared.3, hs.shared.4, hs.shared.5⟩, hs.counters, hs.timers,
          hs.gauges, hs.cName, hs.gName, hs.tName, hs.mName, ?_⟩, rfl, rfl, fun _ => rfl, fun _ => rfl, rfl, rfl, rfl,
          rfl, rfl, keys_put_mem hm⟩
      intro p hp
      rcases Dict.mem_put hp with rfl | hp
      · exact .flushed _ _ _ _ (hs.came _ hm)
      · exact hs.came p hp

theorem frameC_len (ops : PluginOps PF PM) (pre int : Str) {k : Nat} {s s' : CPState PF PM} (h : FrameC ops pre k s s') (j : Nat) :
    phaseLen (configurable ops pre int) s' j = phaseLen (configurable ops pre int) s j := by
  have h1 := congrArg List.length h.keys1
  have h3 := congrArg List.length h.keys3
  have h4 := congrArg List.length h.keys4
  simp only [Dict.keys, List.length_map] at h1 h3 h4
  unfold phaseLen
  split
  · rw [h.counters]
  · exact h1
  · rw [h.gauges]
  · exact h3
  · exact h4

theorem cp_steady (ops : PluginOps PF PM) (pre int : Str) (w : World) : Steady (configurable ops pre int) w (CPWf ops pre) where
  ticks := fun s n h => ⟨⟨h.shared.1, h.shared.2, h.shared.3, h.shared.4, h.shared.5⟩, h.counters, h.timers, h.gauges,
    h.cName, h.gName, h.tName, h.mName, h.came⟩
  visit := fun secs percent ts k s i h =>
    ⟨(visit_frameC ops pre int w secs percent ts k h i).wf,
      frameC_len ops pre int (visit_frameC ops pre int w secs percent ts k h i) k⟩

theorem storedC_init (ops : PluginOps PF PM) (pre : Str) (plugins : List PF) :
    StoredC pre (CPState.init ops plugins) [] := by
  refine ⟨fun k => Or.inl ⟨rfl, ?_⟩, fun k => Or.inl ⟨rfl, ?_⟩, fun k => ?_, fun k => ?_⟩
  · rintro ⟨m, hm, _⟩; simp at hm
  · rintro ⟨m, hm, _⟩; simp at hm
  · constructor
    · intro h; simp [CPState.init] at h
    · rintro ⟨m, hm, _⟩; simp at hm
  · constructor
    · intro h; simp [CPState.init] at h
    · rintro ⟨m, hm, _⟩; simp at hm

theorem storedC_process (ops : PluginOps PF PM) (pre int : Str) (w : World) {s : CPState PF PM} {ms : List Str}
    (h : StoredC pre s ms) (m : Str) : StoredC pre (process (configurable ops pre int) w s m).1 (ms ++ [m]) := by
  obtain ⟨e1, e2, ⟨draw, e3⟩, e4⟩ := effect ops pre int w s m
  refine ⟨?_, ?_, ?_, ?_⟩
  · rw [e1]
    exact stored_value (val := fun k v => (⟨k, dotted pre, .flt v⟩ : CounterRep)) (fun k v => rfl) (fun k v v' => rfl) h.counters
  · rw [e2]
    exact stored_value (val := fun k v => (⟨k, dotted pre, .flt v⟩ : GaugeRep)) (fun k v => rfl) (fun k v v' => rfl) h.gauges
  · intro k; rw [e3, applyRead_keys, received_snoc, h.timers]
  · intro k; rw [e4, applyRead_keys, received_snoc, h.meters]

theorem storedC_keys {pre : Str} {s s' : CPState PF PM} {ms : List Str} (h : StoredC pre s ms)
    (h1 : s'.counters = s.counters) (h2 : s'.gauges = s.gauges) (h3 : s'.timers.keys = s.timers.keys)
    (h4 : s'.meters.keys = s.meters.keys) : StoredC pre s' ms :=
  ⟨by rw [h1]; exact h.counters, by rw [h2]; exact h.gauges, by rw [h3]; exact h.timers, by rw [h4]; exact h.meters⟩

/-- What a datapoint of the configurable processor says about the messages so far. -/
theorem fresh_conf (ops : PluginOps PF PM) (pre int : Str) (w : World) (P : Dict PF) :
    Fresh (configurable ops pre int) w (fun s ms => CPWf ops pre s ∧ StoredC pre s ms ∧ MeterStore ms s.meters ∧
        Lives ops w P (fun _ => pre) s ms)
      (fun ms d => AboutC (ByPlugin ops w P (fun _ => pre) ms) pre
        (internalPrefixOf pre int) ms d) where
  same := fun h hi => ⟨cpwf_same h hi.1, storedC_keys hi.2.1 h.counters h.gauges (by rw [h.timers]) (by rw [h.meters]),
    by rw [h.meters]; exact hi.2.2.1, lives_same h.plugins h.pluginMetrics h.ticks hi.2.2.2⟩
  arrive := fun m hi => ⟨cpwf_process ops pre int w hi.1 m, storedC_process ops pre int w hi.2.1 m, by
    rw [(effect ops pre int w _ m).meters]; exact meterStore_read hi.2.2.1 _ _ m,
    lives_arrive (cp_local ops pre int) (cp_timed ops pre int) hi.2.2.2 m⟩
  internal := by
    rintro ms d ⟨x, hx, _⟩
    exact Or.inr (Or.inr (Or.inr (Or.inr (Or.inl ⟨x, hx.symm⟩))))
  visit := by
    rintro s ms k cursor ts interval percent ⟨hw, hst, hms, hlv⟩ hcur r
    have hf := visit_frameC ops pre int w (Int.fdiv interval 1000) percent ts k hw cursor
    refine ⟨⟨hf.wf, storedC_keys hst hf.counters hf.gauges hf.keys1 hf.keys3, ?_,
      lives_visit (cp_apart ops pre int) (cp_timed ops pre int) hw.shared hlv _ percent ts k hcur⟩, ?_⟩
    · by_cases hk : k = 3
      · subst hk
        have hr : r = meterVisit ts s cursor := rfl
        rw [hr]
        unfold meterVisit
        cases hi : s.meters[cursor]? with
        | none => exact hms
        | some p =>
          obtain ⟨key, m⟩ := p
          exact meterStore_put hw.shared.1 hms (List.mem_of_getElem? hi) ts
      · rw [hf.meters hk]; exact hms
    intro d hd
    have hd' : d ∈ visited (phaseVisit (configurable ops pre int) w (Int.fdiv interval 1000) percent ts k s cursor).2 := hd
    clear hd hf
    have hd := hd'
    clear hd' r
    match k, hcur with
    | 0, _ =>
      have hd : d ∈ visited (counterVisitC (Int.fdiv interval 1000) ts s cursor).2 := hd
      unfold counterVisitC at hd
      cases hi : s.counters[cursor]? with
      | none => simp [hi, visited] at hd
      | some p =>
        obtain ⟨key, c⟩ := p
        simp only [hi] at hd
        obtain ⟨v, hv, rfl⟩ := (mem_counters hw hst key c).1 (List.mem_of_getElem? hi)
        simp only [CounterRep.report] at hd
        cases v with
        | nan => simp [truncNum, Except.map, visited] at hd
        | inf b => simp [truncNum, Except.map, visited] at hd
        | fin q =>
          simp only [truncNum, Except.map, visited, Option.getD_some, List.mem_singleton] at hd
          subst hd
          exact Or.inl ⟨key, q, truncQ q, hv, integerPart_truncQ q, by rw [dotted_eq], rfl⟩
    | 1, _ =>
      have hd : d ∈ visited (timerVisitC percent ts s cursor).2 := hd
      unfold timerVisitC at hd
      cases hi : s.timers[cursor]? with
      | none => simp [hi, visited] at hd
      | some p =>
        obtain ⟨key, t⟩ := p
        simp only [hi] at hd
        cases hr : (t.report ts).2 with
        | error e => simp [hr, Except.map, visited] at hd
        | ok l =>
          simp only [hr, Except.map, visited, Option.getD_some] at hd
          obtain ⟨_, suffix, e2, e3⟩ := timer_report_points hr d hd
          obtain ⟨n1, n2⟩ := hw.tName _ (List.mem_of_getElem? hi)
          exact Or.inr (Or.inr (Or.inl ⟨key, suffix, (hst.timers key).1 (Dict.mem_keys_of_mem (List.mem_of_getElem? hi)),
            e2, by rw [e3, n1, n2, dotted_eq]⟩))
    | 2, _ =>
      have hd : d ∈ visited (gaugeVisitC ts s cursor).2 := hd
      unfold gaugeVisitC at hd
      cases hi : s.gauges[cursor]? with
      | none => simp [hi, visited] at hd
      | some p =>
        obtain ⟨key, g⟩ := p
        simp only [hi, GaugeRep.report, visited, Option.getD_some, List.mem_singleton] at hd
        obtain ⟨v, hv, rfl⟩ := (mem_gauges hw hst key g).1 (List.mem_of_getElem? hi)
        subst hd
        exact Or.inr (Or.inl ⟨key, v, hv, by rw [dotted_eq], rfl⟩)
    | 3, _ =>
      have hd : d ∈ visited (meterVisit ts s cursor).2 := hd
      unfold meterVisit at hd
      cases hi : s.meters[cursor]? with
      | none => simp [hi, visited] at hd
      | some p =>
        obtain ⟨key, m⟩ := p
        simp only [hi] at hd
        cases hr : (m.report ts).2 with
        | error e => simp [hr, Except.map, visited] at hd
        | ok l =>
          simp only [hr, Except.map, visited, Option.getD_some] at hd
          obtain ⟨n1, n2⟩ := hw.mName _ (List.mem_of_getElem? hi)
          have hrec := (hst.meters key).1 (Dict.mem_keys_of_mem (List.mem_of_getElem? hi))
          rcases (meter_report_points hr d hd).2 with e | e
          · exact Or.inr (Or.inr (Or.inr (Or.inl ⟨key, hrec, Or.inr ⟨by rw [e, n1, n2, dotted_eq], 
              meterStore_report hw.shared.1 hms (List.mem_of_getElem? hi) ts hr hd e⟩⟩)))
          · exact Or.inr (Or.inr (Or.inr (Or.inl ⟨key, hrec, Or.inl (by rw [e, n1, n2, dotted_eq])⟩)))
    | k + 4, _ =>
      have hd : d ∈ visited (pluginVisit (configurable ops pre int) w (Int.fdiv interval 1000) ts s cursor).2 := hd
      obtain ⟨key, m, t, gs, _, h1, h2, h3⟩ := lives_points hw.shared hlv hd
      exact Or.inr (Or.inr (Or.inr (Or.inr (Or.inr ⟨key, m, t, gs, _, _, _, h2, h1, h3⟩))))

end
end Txstatsd
