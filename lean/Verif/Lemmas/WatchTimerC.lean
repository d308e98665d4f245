import Verif.Lemmas.WatchConf
import Verif.Lemmas.WatchTimer
import Verif.Lemmas.ConfigurableTimer

set_option linter.unusedSectionVars false
set_option linter.unusedSimpArgs false
set_option linter.unusedVariables false

/-!
# The timers of the configurable processor, watched through a schedule
-/

namespace Txstatsd
open Spec
section
variable [Rounding] {PF PM : Type}

theorem suffix_shape {t s : Str} (h : (t, s) ∈ suffixes) : ∃ y, '.' ∉ y ∧ s = '.' :: y := by
  have : ∀ p ∈ suffixes, ∃ y, '.' ∉ y ∧ p.2 = '.' :: y := by
    intro p hp
    simp only [suffixes, List.mem_cons, List.not_mem_nil, or_false] at hp
    rcases hp with rfl | rfl | rfl | rfl | rfl | rfl | rfl | rfl | rfl | rfl | rfl | rfl <;>
      exact ⟨_, by decide, rfl⟩
  exact this _ h

/-- Names of different keys differ. -/
theorem prefixed_inj {pre k k' s s' t t' : Str} (hs : (t, s) ∈ suffixes) (hs' : (t', s') ∈ suffixes)
    (h : prefixed pre k s = prefixed pre k' s') : k = k' ∧ s = s' := by
  obtain ⟨y, h1, rfl⟩ := suffix_shape hs
  obtain ⟨y', h2, rfl⟩ := suffix_shape hs'
  unfold prefixed at h
  obtain ⟨h3, rfl⟩ := last_dot h1 h2 h
  exact ⟨List.append_cancel_left h3, rfl⟩

theorem ofTimerC_iff {pre key : Str} {d : Datapoint} :
    ofTimerC pre key d = true ↔ ∃ s, (c!"ms", s) ∈ suffixes ∧ d.name = prefixed pre key s := by
  unfold ofTimerC
  rw [List.any_eq_true]
  constructor
  · rintro ⟨⟨t, s⟩, h1, h2⟩
    simp only [Bool.and_eq_true, decide_eq_true_eq] at h2
    obtain ⟨rfl, h2⟩ := h2
    exact ⟨s, h1, h2⟩
  · rintro ⟨s, h1, h2⟩
    exact ⟨_, h1, by simp [h2]⟩

/-- What is stored of a timer and what was made of it: `R` says what a report is. -/
def TimerWatchC (ops : PluginOps PF PM) (w : World) (P : Dict PF) (R : ℚ → List TimerOp → ℤ → List Datapoint → Prop) (pre key : Str) (s : CPState PF PM) (ms : List Str) (l : List Datapoint) : Prop :=
  CPWf ops pre s ∧ StoredC pre s ms ∧ Lives ops w P (fun _ => pre) s ms ∧
  (¬ Received c!"c" key ms → ¬ Received c!"m" key ms → pluginMsgs P key ms = [] → (∀ m ∈ ms, ∀ v, Reading c!"ms" key m v → ∃ q, v = .fin q) →
    (s.timers.find key = none ∧ ¬ Received c!"ms" key ms ∧ l = []) ∨
    ∃ start h t gs, s.timers.find key = some t ∧ TimerRun (TimerRep.init key pre start) h t ∧
      ReportsOf (R start) h gs ∧ Collect (Reading c!"ms" key) ms ((durations h).map PyFloat.fin) ∧
      l.Perm gs.flatten)

theorem timer_report_ofC {t : TimerRep} {ts : ℤ} {l : List Datapoint} (h : (t.report ts).2 = .ok l) {pre k : Str}
    (n1 : t.name = k) (n2 : t.pre = dotted pre) (key : Str) : ∀ d ∈ l, ofTimerC pre key d = decide (k = key) := by
  intro d hd
  obtain ⟨_, s, h1, h2⟩ := timer_report_points h d hd
  rw [n1, n2, dotted_eq] at h2
  by_cases hk : k = key
  · subst hk
    rw [decide_eq_true rfl, ofTimerC_iff]; exact ⟨s, h1, h2⟩
  · rw [decide_eq_false hk]
    cases ho : ofTimerC pre key d with
    | false => rfl
    | true =>
      obtain ⟨s', h3, h4⟩ := ofTimerC_iff.1 ho
      rw [h2] at h4
      exact absurd (prefixed_inj h1 h3 h4).1 hk

theorem visit_not_timerC (ops : PluginOps PF PM) (pre int : Str) (w : World) {P : Dict PF} (secs percent ts : ℤ) {key : Str}
    (hq : OthersQuiet ops w P (fun _ => pre) key (ofTimerC pre key))
    {k : Nat} (hk : k ≠ 1) {s : CPState PF PM} {ms : List Str} (hs : CPWf ops pre s) (hst : StoredC pre s ms)
    (hlv : Lives ops w P (fun _ => pre) s ms) (hnp : pluginMsgs P key ms = []) (h1 : ¬ Received c!"c" key ms) (h2 : ¬ Received c!"m" key ms) (i : Nat) :
    (visited (phaseVisit (configurable ops pre int) w secs percent ts k s i).2).filter (ofTimerC pre key) = [] := by
  rw [List.filter_eq_nil_iff]
  intro d hd ho
  match k, hk with
  | 0, _ =>
    have hd : d ∈ visited (counterVisitC secs ts s i).2 := hd
    unfold counterVisitC at hd
    cases hi : s.counters[i]? with
    | none => simp [hi, visited] at hd
    | some p =>
      obtain ⟨ck, c⟩ := p
      simp only [hi] at hd
      obtain ⟨v, hv, rfl⟩ := (mem_counters hs hst ck c).1 (List.mem_of_getElem? hi)
      obtain ⟨x, hx, hn⟩ := ofTimerC_iff.1 ho
      simp only [CounterRep.report] at hd
      cases v with
      | nan => simp [truncNum, Except.map, visited] at hd
      | inf b => simp [truncNum, Except.map, visited] at hd
      | fin q =>
        simp only [truncNum, Except.map, visited, Option.getD_some, List.mem_singleton] at hd
        subst hd
        simp only [dotted_eq] at hn
        obtain ⟨rfl, _⟩ := prefixed_inj (t := c!"c") (by decide) hx hn
        obtain ⟨a, m, b, rfl, hr, _⟩ := hv
        exact h1 ⟨m, by simp, _, hr⟩
  | 2, _ =>
    have hd : d ∈ visited (gaugeVisitC ts s i).2 := hd
    unfold gaugeVisitC at hd
    cases hi : s.gauges[i]? with
    | none => simp [hi, visited] at hd
    | some p =>
      obtain ⟨gk, g⟩ := p
      simp only [hi, GaugeRep.report, visited, Option.getD_some, List.mem_singleton] at hd
      obtain ⟨v, hv, rfl⟩ := (mem_gauges hs hst gk g).1 (List.mem_of_getElem? hi)
      obtain ⟨x, hx, hn⟩ := ofTimerC_iff.1 ho
      subst hd
      simp only [dotted_eq] at hn
      obtain ⟨_, hs'⟩ := prefixed_inj (t := c!"g") (by decide) hx hn
      subst hs'
      revert hx; decide
  | 3, _ =>
    have hd : d ∈ visited (meterVisit ts s i).2 := hd
    unfold meterVisit at hd
    cases hi : s.meters[i]? with
    | none => simp [hi, visited] at hd
    | some p =>
      obtain ⟨mk, m⟩ := p
      simp only [hi] at hd
      cases hr : (m.report ts).2 with
      | error e => simp [hr, Except.map, visited] at hd
      | ok l =>
        simp only [hr, Except.map, visited, Option.getD_some] at hd
        obtain ⟨n1, n2⟩ := hs.mName _ (List.mem_of_getElem? hi)
        have hrec := (hst.meters mk).1 (Dict.mem_keys_of_mem (List.mem_of_getElem? hi))
        obtain ⟨x, hx, hn⟩ := ofTimerC_iff.1 ho
        rcases (meter_report_points hr d hd).2 with e | e <;>
        · rw [e, n1, n2, dotted_eq] at hn
          obtain ⟨hk', _⟩ := prefixed_inj (t := c!"m") (by decide) hx hn
          simp only at hk'
          subst hk'
          exact h2 hrec
  | k + 4, _ =>
    have hd : d ∈ visited (pluginVisit (configurable ops pre int) w secs ts s i).2 := hd
    obtain ⟨pk, m, t, gs, hf, _, h5, h6⟩ := lives_points hs.shared hlv hd
    have hne : pk ≠ key := by
      rintro rfl
      rw [lives_none hlv hnp] at hf; cases hf
    rw [hq pk m hne ⟨t, _, gs, h5⟩ _ _ _ d h6] at ho; cases ho

theorem timer_watchC {R : ℚ → List TimerOp → ℤ → List Datapoint → Prop} (ops : PluginOps PF PM) (pre int : Str) (w : World) {P : Dict PF} {key : Str}
    (hq : OthersQuiet ops w P (fun _ => pre) key (ofTimerC pre key))
    (hself : ∀ s, (c!"ms", s) ∈ suffixes → ¬ internalPrefixOf pre int <+: prefixed pre key s) (ok : ℤ → ℤ → Prop)
    (hR : ∀ start h t ts, TimerRun (TimerRep.init key pre start) h t →
      (∀ q ∈ durations h, ∃ m, Reading c!"ms" key m (.fin q)) → ∃ pts, (t.report ts).2 = .ok pts ∧ R start h ts pts) :
    Watch (configurable ops pre int) w ok (ofTimerC pre key) (TimerWatchC ops w P R pre key) where
  perm := by
    rintro s ms l l' hp ⟨h1, h2, hlv, h3⟩
    refine ⟨h1, h2, hlv, fun a b n c => ?_⟩
    rcases h3 a b n c with ⟨d, e, rfl⟩ | ⟨st, h, t, gs, d, e, f, g, i⟩
    · exact Or.inl ⟨d, e, List.nil_perm.1 hp⟩
    · exact Or.inr ⟨st, h, t, gs, d, e, f, g, hp.symm.trans i⟩
  same := by
    rintro s s' ms l hs ⟨h1, h2, hlv, h3⟩
    refine ⟨cpwf_same hs h1, storedC_keys h2 hs.counters hs.gauges (by rw [hs.timers]) (by rw [hs.meters]),
      lives_same hs.plugins hs.pluginMetrics hs.ticks hlv, ?_⟩
    rw [hs.timers]; exact h3
  arrive := by
    rintro s ms l m ⟨h1, h2, hlv, h3⟩
    refine ⟨cpwf_process ops pre int w h1 m, storedC_process ops pre int w h2 m,
      lives_arrive (cp_local ops pre int) (cp_timed ops pre int) hlv m, fun a b n c => ?_⟩
    have h4 := h3 (fun h => a (received_snoc.2 (Or.inl h))) (fun h => b (received_snoc.2 (Or.inl h)))
      (by rw [pluginMsgs_snoc] at n; exact (List.append_eq_nil_iff.1 n).1) (fun x hx => c x (by simp [hx]))
    obtain ⟨_, _, ⟨draw, e3⟩, _⟩ := effect ops pre int w s m
    rw [e3]
    rcases applyRead_find (new := (TimerRep.init · pre (w.clk (s.ticks + 1)))) (mark := fun t d => t.update (w.rand draw) d)
      (d := s.timers) (t := c!"ms") (msg := m) (k := key) with ⟨v, hv, he⟩ | ⟨hn, he⟩
    · obtain ⟨q, rfl⟩ := c m (by simp) v hv
      right
      rcases h4 with ⟨d, e, rfl⟩ | ⟨st, h, t, gs, d, e, f, g, i⟩
      · rw [d] at he
        refine ⟨w.clk (s.ticks + 1), [.add q], _, [], he, ?_, ?_, ?_, by simp⟩
        · exact TimerRun.add (h := []) .nil
        · exact ReportsOf.add (h := []) q .nil
        · have hc : Collect (Reading c!"ms" key) ms ([] : List PyFloat) := by
            clear h1 h2 h3 hlv a b c n he e3 d hv
            induction ms with
            | nil => exact .nil
            | cons x xs ih =>
              refine .skip (fun v hv => e ⟨x, by simp, v, hv⟩) (ih ?_)
              rintro ⟨y, hy, z⟩; exact e ⟨y, by simp [hy], z⟩
          exact collect_append hc (.hit hv .nil)
      · rw [d] at he
        refine ⟨st, h ++ [.add q], _, gs, he, .add e, .add q f, ?_, i⟩
        rw [durations_add, List.map_append]
        exact collect_append g (.hit hv .nil)
    · rw [he]
      rcases h4 with ⟨d, e, rfl⟩ | ⟨st, h, t, gs, d, e, f, g, i⟩
      · left
        refine ⟨d, ?_, rfl⟩
        rw [received_snoc]
        rintro (h | ⟨v, hv⟩)
        · exact e h
        · exact hn v hv
      · right
        refine ⟨st, h, t, gs, d, e, f, ?_, i⟩
        have := collect_append g (.skip hn .nil)
        simpa using this
  internal := by
    rintro d ⟨x, hx, _⟩
    cases ho : ofTimerC pre key d with
    | false => rfl
    | true =>
      obtain ⟨s, h1, h2⟩ := ofTimerC_iff.1 ho
      exact absurd ⟨x, by rw [← h2, hx]; rfl⟩ (hself s h1)
  visit := by
    intro s ms l k cursor ts interval percent hInv ho hcur r
    obtain ⟨h1, h2, hlv, h3⟩ := hInv
    have hfr := visit_frameC ops pre int w (Int.fdiv interval 1000) percent ts k h1 cursor
    refine ⟨hfr.wf, storedC_keys h2 hfr.counters hfr.gauges hfr.keys1 hfr.keys3,
      lives_visit (cp_apart ops pre int) (cp_timed ops pre int) h1.shared hlv _ percent ts k hcur, fun a b n c => ?_⟩
    have h4 := h3 a b n c
    by_cases hk : k = 1
    · subst hk
      have hi : s.timers[cursor]? = some (s.timers[cursor]'hcur) := List.getElem?_eq_getElem hcur
      rcases he : s.timers[cursor]'hcur with ⟨tk, t⟩
      rw [he] at hi
      have hfind := Dict.find_of_mem h1.timers (List.mem_of_getElem? hi)
      obtain ⟨n1, n2⟩ := h1.tName _ (List.mem_of_getElem? hi)
      have hr : r = ({ s with timers := s.timers.put tk (t.report ts).1 }, (t.report ts).2.map some) := by
        show timerVisitC percent ts s cursor = _
        unfold timerVisitC; simp only [hi]
      by_cases hkk : tk = key
      · subst hkk
        rcases h4 with ⟨d, _⟩ | ⟨st, h, t', gs, d, e, f, g, i⟩
        · rw [hfind] at d; cases d
        · rw [hfind] at d
          simp only [Option.some.injEq] at d
          subst d
          right
          obtain ⟨pts, p1, p2⟩ := hR st h t ts e fun q hq =>
            collect_from g (.fin q) (List.mem_map.2 ⟨q, hq, rfl⟩)
          rw [hr, p1]
          refine ⟨st, h ++ [.report ts], _, gs ++ [pts], Dict.find_put_self _ _ _, .report e, .report ts f p2, ?_, ?_⟩
          · rw [durations_report]; exact g
          · have hfil : pts.filter (ofTimerC pre tk) = pts := by
              rw [List.filter_eq_self]
              intro d hd
              rw [timer_report_ofC p1 n2 n1 tk d hd]; simp
            simp only [Except.map, visited, Option.getD_some, hfil, List.flatten_append, List.flatten_cons,
              List.flatten_nil, List.append_nil]
            exact i.append_right pts
      · have hfil : (visited r.2).filter (ofTimerC pre key) = [] := by
          rw [hr]
          cases hrp : (t.report ts).2 with
          | error e => simp [hrp, Except.map, visited]
          | ok pts =>
            simp only [hrp, Except.map, visited, Option.getD_some]
            rw [List.filter_eq_nil_iff]
            intro d hd
            rw [timer_report_ofC hrp n2 n1 key d hd]; simp [hkk]
        rw [hfil, List.append_nil, hr]
        simp only [Dict.find_put_ne _ _ (Ne.symm hkk)]
        exact h4
    · rw [visit_not_timerC ops pre int w _ percent ts hq hk h1 h2 hlv n a b cursor, List.append_nil, hfr.timers hk]
      exact h4

end
end Txstatsd
