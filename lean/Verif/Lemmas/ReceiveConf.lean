import Verif.Spec.ReceiveConf
import Verif.Lemmas.ReceiveGen
import Verif.Lemmas.Stamp

set_option linter.unusedSectionVars false
set_option linter.unusedSimpArgs false
set_option linter.unusedVariables false

namespace Txstatsd
open Spec
section
variable [Rounding] {PF PM : Type}

theorem ownCount_eq (ops : PluginOps PF PM) (pre int t : Str) : recvNameI (configurable ops pre int) t = ownCount pre int t := by
  have hself : internalPrefixOf pre int = if int ≠ [] then int else if pre ≠ [] then pre ++ c!".statsd." else c!"statsd." := by
    unfold internalPrefixOf
    cases int <;> cases pre <;> simp
  show internalPrefixOf pre int ++ _ = _
  rw [hself]
  unfold ownCount
  simp only [List.append_assoc]

/-- The stores are made of messages that satisfy `Ok`. -/
def OfOk (ops : PluginOps PF PM) (pre : Str) (Ok : Str → Prop) (s : CPState PF PM) : Prop :=
  CPWf ops pre s ∧ ∃ ms, StoredC pre s ms ∧ ∀ m ∈ ms, Ok m

theorem ofOk_fresh (ops : PluginOps PF PM) (pre int : Str) (w : World) :
    Fresh (configurable ops pre int) w (fun s ms => CPWf ops pre s ∧ StoredC pre s ms) (fun _ _ => True) where
  same := fun h hi => ⟨cpwf_same h hi.1, storedC_keys hi.2 h.counters h.gauges (by rw [h.timers]) (by rw [h.meters])⟩
  arrive := fun m hi => ⟨cpwf_process ops pre int w hi.1 m, storedC_process ops pre int w hi.2 m⟩
  internal := fun _ _ _ => trivial
  visit := by
    rintro s ms k cursor ts interval percent ⟨hw, hst⟩ hcur r
    have hf := visit_frameC ops pre int w (Int.fdiv interval 1000) percent ts k hw cursor
    exact ⟨⟨hf.wf, storedC_keys hst hf.counters hf.gauges hf.keys1 hf.keys3⟩, fun _ _ => trivial⟩

theorem cp_tracked (ops : PluginOps PF PM) (pre int : Str) (w : World) (Ok : Str → Prop) :
    Tracked (configurable ops pre int) w (OfOk ops pre Ok) Ok where
  loc := cp_local ops pre int
  shared := fun h => h.1.shared
  step := by
    rintro v ⟨hw, ms, hst, hok⟩ e he
    obtain ⟨h1, h2⟩ := fresh_step (ofOk_fresh ops pre int w) ⟨hw, hst⟩ e
    refine ⟨h1, _, h2, ?_⟩
    intro m hm
    rcases List.mem_append.1 hm with hm | hm
    · exact hok m hm
    · cases e with
      | arrive m' =>
        simp only [arrivals, List.filterMap_cons, List.filterMap_nil, List.mem_singleton] at hm
        subst hm
        exact he _ rfl
      | spawn i p => simp [arrivals] at hm
      | advance i => simp [arrivals] at hm
  visit := fun h secs percent ts k i =>
    have hf := visit_frameC ops pre int w secs percent ts k h.1 i
    ⟨hf.byType, hf.processTimings⟩

/-- What the points of a visit are called. -/
theorem visit_namesC (ops : PluginOps PF PM) (pre int : Str) (w : World) (secs percent ts : ℤ) (k : Nat) {s : CPState PF PM}
    {ms : List Str} (hw : CPWf ops pre s) (hst : StoredC pre s ms) (i : Nat) {d : Datapoint}
    (hd : d ∈ visited (phaseVisit (configurable ops pre int) w secs percent ts k s i).2) :
    (∃ ty suffix key, (ty, suffix) ∈ suffixes ∧ Received ty key ms ∧ d.name = prefixed pre key suffix) ∨
    ∃ secs ts, PluginPoint ops w (fun _ => pre) secs ts d := by
  match k with
  | 0 =>
    have hd : d ∈ visited (counterVisitC secs ts s i).2 := hd
    unfold counterVisitC at hd
    cases hi : s.counters[i]? with
    | none => simp [hi, visited] at hd
    | some p =>
      obtain ⟨key, c⟩ := p
      simp only [hi] at hd
      obtain ⟨v, hv, rfl⟩ := (mem_counters hw hst key c).1 (List.mem_of_getElem? hi)
      simp only [CounterRep.report] at hd
      cases v with
      | nan => simp [truncNum, Except.map, visited] at hd
      | inf b => simp [truncNum, Except.map, visited] at hd
      | fin q =>
        simp only [truncNum, Except.map, visited, Option.getD_some, List.mem_singleton] at hd
        subst hd
        exact Or.inl ⟨c!"c", c!".count", key, by decide, latest_received hv, by simp only [dotted_eq]⟩
  | 1 =>
    have hd : d ∈ visited (timerVisitC percent ts s i).2 := hd
    unfold timerVisitC at hd
    cases hi : s.timers[i]? with
    | none => simp [hi, visited] at hd
    | some p =>
      obtain ⟨key, t⟩ := p
      simp only [hi] at hd
      cases hr : (t.report ts).2 with
      | error e => simp [hr, Except.map, visited] at hd
      | ok l =>
        simp only [hr, Except.map, visited, Option.getD_some] at hd
        obtain ⟨_, suffix, e2, e3⟩ := timer_report_points hr d hd
        obtain ⟨n1, n2⟩ := hw.tName _ (List.mem_of_getElem? hi)
        exact Or.inl ⟨c!"ms", suffix, key, e2, (hst.timers key).1 (Dict.mem_keys_of_mem (List.mem_of_getElem? hi)),
          by rw [e3, n1, n2, dotted_eq]⟩
  | 2 =>
    have hd : d ∈ visited (gaugeVisitC ts s i).2 := hd
    unfold gaugeVisitC at hd
    cases hi : s.gauges[i]? with
    | none => simp [hi, visited] at hd
    | some p =>
      obtain ⟨key, g⟩ := p
      simp only [hi, GaugeRep.report, visited, Option.getD_some, List.mem_singleton] at hd
      obtain ⟨v, hv, rfl⟩ := (mem_gauges hw hst key g).1 (List.mem_of_getElem? hi)
      subst hd
      exact Or.inl ⟨c!"g", c!".value", key, by decide, latest_received hv, by simp only [dotted_eq]⟩
  | 3 =>
    have hd : d ∈ visited (meterVisit ts s i).2 := hd
    unfold meterVisit at hd
    cases hi : s.meters[i]? with
    | none => simp [hi, visited] at hd
    | some p =>
      obtain ⟨key, m⟩ := p
      simp only [hi] at hd
      cases hr : (m.report ts).2 with
      | error e => simp [hr, Except.map, visited] at hd
      | ok l =>
        simp only [hr, Except.map, visited, Option.getD_some] at hd
        obtain ⟨n1, n2⟩ := hw.mName _ (List.mem_of_getElem? hi)
        have hrec := (hst.meters key).1 (Dict.mem_keys_of_mem (List.mem_of_getElem? hi))
        rcases (meter_report_points hr d hd).2 with e | e
        · exact Or.inl ⟨c!"m", c!".count", key, by decide, hrec, by rw [e, n1, n2, dotted_eq]⟩
        · exact Or.inl ⟨c!"m", c!".rate", key, by decide, hrec, by rw [e, n1, n2, dotted_eq]⟩
  | k + 4 =>
    have hd : d ∈ visited (pluginVisit (configurable ops pre int) w secs ts s i).2 := hd
    exact Or.inr (pluginVisit_points _ w secs ts s i hw.came hd)

theorem cp_clean (ops : PluginOps PF PM) (pre int : Str) (w : World) (t : Str) (hq : PluginsUnlike ops pre (ownCount pre int t)) :
    CleanVisits (configurable ops pre int) w t (OfOk ops pre (Unlike pre (ownCount pre int t))) := by
  rintro s ⟨hw, ms, hst, hok⟩ secs percent ts k i ds hds d hd
  rw [ownCount_eq]
  have hd' : d ∈ visited (phaseVisit (configurable ops pre int) w secs percent ts k s i).2 := by rw [hds]; exact hd
  rcases visit_namesC ops pre int w secs percent ts k hw hst i hd' with ⟨ty, suffix, key, h1, ⟨m, hm, v, hv⟩, h3⟩ | ⟨_, _, n, key, m, l, h1, h2, h3⟩
  · rw [h3]; exact hok m hm ty suffix key v h1 hv
  · exact hq key m h1 _ _ _ _ l h2 d h3

theorem ofOk_init (ops : PluginOps PF PM) (pre : Str) (plugins : List PF) (Ok : Str → Prop) :
    OfOk ops pre Ok (CPState.init ops plugins) :=
  ⟨cpwf_init ops pre plugins, [], storedC_init ops pre plugins, by simp⟩

end
end Txstatsd
