import Verif.Lemmas.WatchConf
import Verif.Lemmas.Termination
import Verif.Lemmas.WatchTimer

set_option linter.unusedSectionVars false
set_option linter.unusedSimpArgs false
set_option linter.unusedVariables false

/-!
# The timestamp of a flush
-/

namespace Txstatsd
open Spec
section
variable [Rounding] {C T G PF PM : Type}

/-- The timestamp a generator works with. -/
def stampOf : Pc → Option ℤ
  | .phaseStart _ ts _ => some ts
  | .inPhase _ ts _ _ _ _ _ _ => some ts
  | .sumInit ts _ _ => some ts
  | .sumPer ts _ _ _ => some ts
  | .sumRecv ts _ _ _ _ => some ts
  | _ => none

/-- A generator that works with timestamp `t`, all its points have it; or it has ended. -/
def StampIs (P : Datapoint → Prop) (t : ℤ) (pc : Pc) : Prop :=
  (stampOf pc = some t ∨ Ended pc) ∧ ∀ d ∈ inFlight pc, d.ts = t ∨ P d

/-- Visits make points with the timestamp they are given. -/
def Stamping (I : Impl C T G PF PM) (w : World) (P : Datapoint → Prop) (Q : PS C T G PF PM → Prop) : Prop :=
  ∀ secs percent ts k s i, Q s → ∀ d ∈ visited (phaseVisit I w secs percent ts k s i).2, d.ts = ts ∨ P d

theorem stamp_micro {I : Impl C T G PF PM} {w : World} {P : Datapoint → Prop} {Q : PS C T G PF PM → Prop}
    (hS : Stamping I w P Q) {s : PS C T G PF PM} (hs : Q s) {g : Gen} {t : ℤ} (hg : StampIs P t g.pc) :
    StampIs P t (micro I w s g).2.1.pc ∧ ∀ d, (micro I w s g).2.2 = some d → d.ts = t ∨ P d := by
  set r := micro I w s g with hr
  obtain ⟨interval, percent, pc⟩ := g
  cases pc with
  | fresh => rcases hg.1 with h | h <;> [cases h; rcases h with h | ⟨e, h⟩ <;> cases h]
  | phaseStart k ts acc =>
    rcases hg.1 with h | h
    · simp only [stampOf, Option.some.injEq] at h; subst h
      rw [hr]; exact ⟨⟨Or.inl rfl, by intro d hd; simp [micro, inFlight] at hd⟩, by intro d hd; cases hd⟩
    · rcases h with h | ⟨e, h⟩ <;> cases h
  | inPhase k ts acc start size cursor events pend =>
    rcases hg.1 with h | h
    swap
    · rcases h with h | ⟨e, h⟩ <;> cases h
    simp only [stampOf, Option.some.injEq] at h; subst h
    cases pend with
    | cons d pend =>
      rw [hr]
      refine ⟨⟨Or.inl rfl, fun x hx => hg.2 x (List.mem_cons_of_mem _ hx)⟩, fun x hx => ?_⟩
      simp only [micro, Option.some.injEq] at hx; subst hx
      exact hg.2 _ List.mem_cons_self
    | nil =>
      by_cases h1 : phaseLen I s k ≠ size
      · have : r = (s, ⟨interval, percent, .crashed .runtimeError⟩, none) := by
          rw [hr]; unfold micro; simp only [if_pos h1]
        rw [this]
        exact ⟨⟨Or.inr (Or.inr ⟨_, rfl⟩), by intro d hd; simp [inFlight] at hd⟩, by intro d hd; cases hd⟩
      · by_cases h2 : cursor < size
        · have hr' : r = match phaseVisit I w (Int.fdiv interval 1000) percent ts k s cursor with
            | (s, .error e) => (s, ⟨interval, percent, .crashed e⟩, none)
            | (s, .ok none) => (s, ⟨interval, percent, .inPhase k ts acc start size (cursor + 1) events []⟩, none)
            | (s, .ok (some ds)) =>
              (s, ⟨interval, percent, .inPhase k ts acc start size (cursor + 1) (events + 1) ds⟩, none) := by
            rw [hr]; unfold micro; simp only [if_neg h1, if_pos h2]
            rcases phaseVisit I w (Int.fdiv interval 1000) percent ts k s cursor with ⟨s', e | (_ | ds)⟩ <;> rfl
          have hst := hS (Int.fdiv interval 1000) percent ts k s cursor hs
          rcases hv : phaseVisit I w (Int.fdiv interval 1000) percent ts k s cursor with ⟨s', e | (_ | ds)⟩ <;>
            rw [hv] at hr' hst <;> rw [hr']
          · exact ⟨⟨Or.inr (Or.inr ⟨_, rfl⟩), by intro d hd; simp [inFlight] at hd⟩, by intro d hd; cases hd⟩
          · exact ⟨⟨Or.inl rfl, by intro d hd; simp [inFlight] at hd⟩, by intro d hd; cases hd⟩
          · exact ⟨⟨Or.inl rfl, fun d hd => hst d hd⟩, by intro d hd; cases hd⟩
        · by_cases h3 : k < 4
          · have : r = ({ s with ticks := s.ticks + 1 }, ⟨interval, percent, .phaseStart (k + 1) ts
              (acc ++ [(phaseName k, events, Num.flt (rnd (w.clk s.ticks - start)))])⟩, none) := by
              rw [hr]; unfold micro; simp only [if_neg h1, if_neg h2, if_pos h3]
            rw [this]
            exact ⟨⟨Or.inl rfl, by intro d hd; simp [inFlight] at hd⟩, by intro d hd; cases hd⟩
          · have : r = ({ s with ticks := s.ticks + 1 }, ⟨interval, percent, .sumInit ts
              (acc ++ [(phaseName k, events, Num.flt (rnd (w.clk s.ticks - start)))])
              [numStatsPoint I (acc ++ [(phaseName k, events, Num.flt (rnd (w.clk s.ticks - start)))]) ts]⟩, none) := by
              rw [hr]; unfold micro; simp only [if_neg h1, if_neg h2, if_neg h3]
            rw [this]
            refine ⟨⟨Or.inl rfl, ?_⟩, by intro d hd; cases hd⟩
            intro d hd
            simp only [inFlight, List.mem_singleton] at hd; subst hd
            exact Or.inl rfl
  | sumInit ts acc pend =>
    rcases hg.1 with h | h
    swap
    · rcases h with h | ⟨e, h⟩ <;> cases h
    simp only [stampOf, Option.some.injEq] at h; subst h
    cases pend with
    | cons d pend =>
      rw [hr]
      refine ⟨⟨Or.inl rfl, fun x hx => hg.2 x (List.mem_cons_of_mem _ hx)⟩, fun x hx => ?_⟩
      simp only [micro, Option.some.injEq] at hx; subst hx
      exact hg.2 _ List.mem_cons_self
    | nil =>
      rw [hr]; exact ⟨⟨Or.inl rfl, by intro d hd; simp [micro, inFlight] at hd⟩, by intro d hd; cases hd⟩
  | sumPer ts todo cur pend =>
    rcases hg.1 with h | h
    swap
    · rcases h with h | ⟨e, h⟩ <;> cases h
    simp only [stampOf, Option.some.injEq] at h; subst h
    cases pend with
    | cons d pend =>
      rw [hr]
      refine ⟨⟨Or.inl rfl, fun x hx => hg.2 x (List.mem_cons_of_mem _ hx)⟩, fun x hx => ?_⟩
      simp only [micro, Option.some.injEq] at hx; subst hx
      exact hg.2 _ List.mem_cons_self
    | nil =>
      cases cur with
      | some d =>
        rw [hr]; exact ⟨⟨Or.inl rfl, by intro d hd; simp [micro, inFlight] at hd⟩, by intro d hd; cases hd⟩
      | none =>
        cases todo with
        | cons p todo =>
          rw [hr]
          refine ⟨⟨Or.inl rfl, ?_⟩, by intro d hd; cases hd⟩
          intro d hd
          simp only [micro, inFlight, perMetricPoints, List.mem_cons, List.not_mem_nil, or_false] at hd
          rcases hd with rfl | rfl <;> exact Or.inl rfl
        | nil =>
          rw [hr]; exact ⟨⟨Or.inl rfl, by intro d hd; simp [micro, inFlight] at hd⟩, by intro d hd; cases hd⟩
  | sumRecv ts size cursor cur pend =>
    rcases hg.1 with h | h
    swap
    · rcases h with h | ⟨e, h⟩ <;> cases h
    simp only [stampOf, Option.some.injEq] at h; subst h
    cases pend with
    | cons d pend =>
      rw [hr]
      refine ⟨⟨Or.inl rfl, fun x hx => hg.2 x (List.mem_cons_of_mem _ hx)⟩, fun x hx => ?_⟩
      simp only [micro, Option.some.injEq] at hx; subst hx
      exact hg.2 _ List.mem_cons_self
    | nil =>
      cases cur with
      | some p =>
        obtain ⟨t, d⟩ := p
        have hr' : r = if s.byType.has t then
            ({ s with lastProcess := s.lastProcess.add d }, ⟨interval, percent, .sumRecv ts size cursor none []⟩, none)
          else (s, ⟨interval, percent, .crashed .keyError⟩, none) := by rw [hr]; rfl
        split_ifs at hr' <;> rw [hr']
        · exact ⟨⟨Or.inl rfl, by intro d hd; simp [inFlight] at hd⟩, by intro d hd; cases hd⟩
        · exact ⟨⟨Or.inr (Or.inr ⟨_, rfl⟩), by intro d hd; simp [inFlight] at hd⟩, by intro d hd; cases hd⟩
      | none =>
        by_cases h1 : s.processTimings.length ≠ size
        · have : r = (s, ⟨interval, percent, .crashed .runtimeError⟩, none) := by
            rw [hr]; unfold micro; simp only [if_pos h1]
          rw [this]
          exact ⟨⟨Or.inr (Or.inr ⟨_, rfl⟩), by intro d hd; simp [inFlight] at hd⟩, by intro d hd; cases hd⟩
        · cases hc : s.processTimings[cursor]? with
          | none =>
            have : r = ({ s with processTimings := [], byType := [] }, ⟨interval, percent, .done⟩, none) := by
              rw [hr]; unfold micro; simp only [if_neg h1, hc]
            rw [this]
            exact ⟨⟨Or.inr (Or.inl rfl), by intro d hd; simp [inFlight] at hd⟩, by intro d hd; cases hd⟩
          | some p =>
            obtain ⟨t, d⟩ := p
            cases hb : s.byType.find t with
            | none =>
              have : r = (s, ⟨interval, percent, .crashed .keyError⟩, none) := by
                rw [hr]; unfold micro; simp only [if_neg h1, hc, hb]
              rw [this]
              exact ⟨⟨Or.inr (Or.inr ⟨_, rfl⟩), by intro d hd; simp [inFlight] at hd⟩, by intro d hd; cases hd⟩
            | some m =>
              have : r = (s, ⟨interval, percent, .sumRecv ts size (cursor + 1) (some (t, d))
                (receivePoints I ts t m d)⟩, none) := by
                rw [hr]; unfold micro; simp only [if_neg h1, hc, hb]
              rw [this]
              refine ⟨⟨Or.inl rfl, ?_⟩, by intro d hd; cases hd⟩
              intro d hd
              simp only [inFlight, receivePoints, List.mem_cons, List.not_mem_nil, or_false] at hd
              rcases hd with rfl | rfl <;> exact Or.inl rfl
  | done =>
    rw [hr]; exact ⟨⟨Or.inr (Or.inl rfl), by intro d hd; simp [micro, inFlight] at hd⟩, by intro d hd; cases hd⟩
  | crashed e =>
    rw [hr]; exact ⟨⟨Or.inr (Or.inr ⟨_, rfl⟩), by intro d hd; simp [micro, inFlight] at hd⟩, by intro d hd; cases hd⟩

/-- What a flush that works with timestamp `t` emits has that timestamp. -/
theorem stamp_emits {I : Impl C T G PF PM} {w : World} {P : Datapoint → Prop} {Q : PS C T G PF PM → Prop}
    (hS : Stamping I w P Q) (hQ : ∀ (v : Server C T G PF PM) (e : Event), Q v.ps → Q (v.step I w e).ps) (i : Nat) {t : ℤ} (es : List Event) :
    ∀ (v : Server C T G PF PM) (g : Gen), Q v.ps → v.gens[i]? = some g → StampIs P t g.pc →
      ∀ d ∈ emits I w i v es, d.ts = t ∨ P d := by
  induction es with
  | nil => intro v g _ _ _ d hd; simp [emits] at hd
  | cons e es ih =>
    intro v g hv hg hst
    have hlt : i < v.gens.length := (List.getElem?_eq_some_iff.1 hg).1
    have hv' := hQ v e hv
    cases e with
    | arrive m =>
      simp only [emits, List.nil_append]
      exact ih _ g hv' hg hst
    | spawn a b =>
      simp only [emits, List.nil_append]
      refine ih _ g hv' ?_ hst
      simp only [Server.step]
      rw [List.getElem?_append_left hlt]; exact hg
    | advance j =>
      by_cases hj : j = i
      · subst hj
        obtain ⟨h1, h2⟩ := stamp_micro hS hv hst
        simp only [emits, hg, if_true]
        intro d hd
        rcases List.mem_append.1 hd with hd | hd
        · exact h2 d (by simpa using hd)
        · refine ih _ _ hv' ?_ h1 d hd
          simp only [Server.step, hg]
          rw [List.getElem?_set_self hlt]
      · simp only [emits, hg, hj, if_false, List.nil_append]
        refine ih _ g hv' ?_ hst
        simp only [Server.step]
        cases v.gens[j]? with
        | none => exact hg
        | some g => simp only; rw [List.getElem?_set_ne hj]; exact hg

/-- What a flush emits has the time at which it was first advanced as its timestamp. -/
theorem stamp_fresh {I : Impl C T G PF PM} {w : World} {P : Datapoint → Prop} {Q : PS C T G PF PM → Prop}
    (hS : Stamping I w P Q) (hQ : ∀ (v : Server C T G PF PM) (e : Event), Q v.ps → Q (v.step I w e).ps) (i : Nat) {interval percent : ℤ} (es : List Event) :
    ∀ (v : Server C T G PF PM), Q v.ps → v.gens[i]? = some ⟨interval, percent, .fresh⟩ →
      emits I w i v es = [] ∨ ∃ es1 es2, es = es1 ++ .advance i :: es2 ∧ Event.advance i ∉ es1 ∧
        ∀ d ∈ emits I w i v es, d.ts = truncQ (w.clk (v.run I w es1).ps.ticks) ∨ P d := by
  induction es with
  | nil => intro v _ _; exact Or.inl rfl
  | cons e es ih =>
    intro v hv hg
    have hlt : i < v.gens.length := (List.getElem?_eq_some_iff.1 hg).1
    have hv' := hQ v e hv
    have next : e ≠ .advance i → (v.step I w e).gens[i]? = some ⟨interval, percent, .fresh⟩ →
        emits I w i v (e :: es) = emits I w i (v.step I w e) es →
        emits I w i v (e :: es) = [] ∨ ∃ es1 es2, e :: es = es1 ++ .advance i :: es2 ∧ Event.advance i ∉ es1 ∧
          ∀ d ∈ emits I w i v (e :: es), d.ts = truncQ (w.clk (v.run I w es1).ps.ticks) ∨ P d := by
      intro hne hg' he
      rw [he]
      rcases ih _ hv' hg' with h | ⟨es1, es2, h1, h2, h3⟩
      · exact Or.inl h
      · refine Or.inr ⟨e :: es1, es2, by rw [h1]; rfl, ?_, h3⟩
        rw [List.mem_cons]
        rintro (h | h)
        · exact hne h.symm
        · exact h2 h
    cases e with
    | arrive m => exact next (by simp) hg rfl
    | spawn a b =>
      refine next (by simp) ?_ (by simp only [emits, List.nil_append])
      simp only [Server.step]
      rw [List.getElem?_append_left hlt]; exact hg
    | advance j =>
      by_cases hj : j = i
      · subst hj
        right
        refine ⟨[], es, rfl, by simp, ?_⟩
        simp only [emits, hg, if_true]
        intro d hd
        rcases List.mem_append.1 hd with hd | hd
        · simp [micro] at hd
        · refine stamp_emits hS hQ j es _ (micro I w v.ps ⟨interval, percent, .fresh⟩).2.1 hv' ?_ ?_ d hd
          · simp only [Server.step, hg]
            rw [List.getElem?_set_self hlt]
          · exact ⟨Or.inl rfl, by intro d hd; simp [micro, inFlight] at hd⟩
      · refine next (by simpa using hj) ?_ (by simp only [emits, hg, hj, if_false, List.nil_append])
        simp only [Server.step]
        cases v.gens[j]? with
        | none => exact hg
        | some g => simp only; rw [List.getElem?_set_ne hj]; exact hg

end

section
variable [Rounding] {PF PM : Type}

theorem pluginVisit_points {C T G : Type} (I : Impl C T G PF PM) (w : World) (secs ts : ℤ) (s : PS C T G PF PM) (i : Nat)
    {d : Datapoint} (hc : ∀ p ∈ s.pluginMetrics, Came I.ops I.messagePrefix p.1 p.2) (hd : d ∈ visited (pluginVisit I w secs ts s i).2) :
    ∃ secs ts, PluginPoint I.ops w I.messagePrefix secs ts d := by
  unfold pluginVisit at hd
  cases hi : s.pluginMetrics[i]? with
  | none => simp [hi, visited] at hd
  | some p =>
    obtain ⟨pk, m⟩ := p
    simp only [hi] at hd
    cases hr : (I.ops.flush w s.ticks m secs ts).2.2 with
    | error e => simp [hr, Except.map, visited] at hd
    | ok l =>
      simp only [hr, Except.map, visited, Option.getD_some] at hd
      exact ⟨_, _, _, _, _, _, hc _ (List.mem_of_getElem? hi), hr, hd⟩

theorem meterVisit_stamp {C T G : Type} (ts : ℤ) (s : PS C T G PF PM) (i : Nat) {d : Datapoint}
    (hd : d ∈ visited (meterVisit ts s i).2) : d.ts = ts := by
  unfold meterVisit at hd
  cases hi : s.meters[i]? with
  | none => simp [hi, visited] at hd
  | some p =>
    obtain ⟨key, m⟩ := p
    simp only [hi] at hd
    cases hr : (m.report ts).2 with
    | error e => simp [hr, Except.map, visited] at hd
    | ok l =>
      simp only [hr, Except.map, visited, Option.getD_some] at hd
      exact (meter_report_points hr d hd).1

theorem mp_stamping (ops : PluginOps PF PM) (w : World) :
    Stamping (messageProcessor ops) w (fun d => ∃ secs ts, PluginPoint ops w statsPrefix secs ts d) (MPWf ops) := by
  intro secs percent ts k s i hs d hd
  match k with
  | 0 =>
    have hd : d ∈ visited (counterVisit secs ts s i).2 := hd
    unfold counterVisit at hd
    cases hi : s.counters[i]? with
    | none => simp [hi, visited] at hd
    | some p =>
      obtain ⟨ck, c⟩ := p
      simp only [hi] at hd
      cases hdv : c.divInt secs with
      | error e => simp [hdv, visited] at hd
      | ok x =>
        simp only [hdv, visited, Option.getD_some, List.mem_cons, List.not_mem_nil, or_false] at hd
        rcases hd with rfl | rfl <;> exact Or.inl rfl
  | 1 =>
    have hd : d ∈ visited (timerVisit percent ts s i).2 := hd
    cases hi : s.timers[i]? with
    | none => unfold timerVisit at hd; simp [hi, visited] at hd
    | some p =>
      obtain ⟨key, v⟩ := p
      rw [timerVisit_eq hs hi] at hd
      simp only at hd
      rcases hg : timerGroup percent ts key v with e | (_ | gr)
      · simp [hg, visited] at hd
      · simp [hg, visited] at hd
      · rw [hg] at hd
        simp only [visited, Option.getD_some] at hd
        exact Or.inl ((timerGroup_names hg).2.1 d hd)
  | 2 =>
    have hd : d ∈ visited (gaugeVisit ts s i).2 := hd
    unfold gaugeVisit at hd
    cases hi : s.gauges[i]? with
    | none => simp [hi, visited] at hd
    | some p =>
      obtain ⟨v, gk⟩ := p
      simp only [hi, visited, Option.getD_some, List.mem_singleton] at hd
      subst hd; exact Or.inl rfl
  | 3 => exact Or.inl (meterVisit_stamp ts s i hd)
  | k + 4 => exact Or.inr (pluginVisit_points _ w secs ts s i hs.came hd)

theorem cp_stamping (ops : PluginOps PF PM) (pre int : Str) (w : World) :
    Stamping (configurable ops pre int) w (fun d => ∃ secs ts, PluginPoint ops w (fun _ => pre) secs ts d)
      (CPWf ops pre) := by
  intro secs percent ts k s i hs d hd
  match k with
  | 0 =>
    have hd : d ∈ visited (counterVisitC secs ts s i).2 := hd
    unfold counterVisitC at hd
    cases hi : s.counters[i]? with
    | none => simp [hi, visited] at hd
    | some p =>
      obtain ⟨ck, c⟩ := p
      simp only [hi, CounterRep.report] at hd
      cases hc : truncNum c.count with
      | error e => simp [hc, Except.map, visited] at hd
      | ok z =>
        simp only [hc, Except.map, visited, Option.getD_some, List.mem_singleton] at hd
        subst hd; exact Or.inl rfl
  | 1 =>
    have hd : d ∈ visited (timerVisitC percent ts s i).2 := hd
    unfold timerVisitC at hd
    cases hi : s.timers[i]? with
    | none => simp [hi, visited] at hd
    | some p =>
      obtain ⟨key, t⟩ := p
      simp only [hi] at hd
      cases hr : (t.report ts).2 with
      | error e => simp [hr, Except.map, visited] at hd
      | ok l =>
        simp only [hr, Except.map, visited, Option.getD_some] at hd
        exact Or.inl (timer_report_points hr d hd).1
  | 2 =>
    have hd : d ∈ visited (gaugeVisitC ts s i).2 := hd
    unfold gaugeVisitC at hd
    cases hi : s.gauges[i]? with
    | none => simp [hi, visited] at hd
    | some p =>
      obtain ⟨gk, g⟩ := p
      simp only [hi, GaugeRep.report, visited, Option.getD_some, List.mem_singleton] at hd
      subst hd; exact Or.inl rfl
  | 3 => exact Or.inl (meterVisit_stamp ts s i hd)
  | k + 4 => exact Or.inr (pluginVisit_points _ w secs ts s i hs.came hd)

end
end Txstatsd
