import Verif.Lemmas.ConfigurableTimer
import Verif.Lemmas.Meter

set_option linter.unusedSectionVars false
set_option linter.unusedSimpArgs false
set_option linter.unusedVariables false

namespace Txstatsd
open Spec
section
variable [Rounding] {C T G PF PM : Type}

theorem runElems_none {V : Type} {f : Str → V → V} {g : Str → V → VisitResult} {d : Dict V}
    (h : ∀ p ∈ d, ∃ o, g p.1 p.2 = .ok o) : (runElems f g d).2.2 = none := by
  induction d with
  | nil => rfl
  | cons p rest ih =>
    obtain ⟨k, v⟩ := p
    obtain ⟨o, ho⟩ := h (k, v) (by simp)
    rw [runElems]
    simp only at ho
    rw [ho]
    exact ih fun p hp => h p (by simp [hp])

theorem flushForm_survives (I : Impl C T G PF PM) (w : World) (secs ts : ℤ) (c : PhaseRes C) (t : PhaseRes T)
    (g : List (List Datapoint)) (m : PhaseRes Meter) (s : PS C T G PF PM) (hc : c.2.2 = none) (ht : t.2.2 = none)
    (hm : m.2.2 = none) (hs : Shared s) (hmk : Dict.keys m.1 = s.meters.keys) (hp : s.pluginMetrics = []) :
    (flushForm I w secs ts c t g m s).2.2 = none := by
  have hmw : Dict.Wf m.1 := by unfold Dict.Wf; rw [hmk]; exact hs.meters
  unfold flushForm
  simp only [hc, ht, hm, hp, List.length_nil, List.range_zero, runVisits]
  rw [runSummary_ok]
  exact ⟨hmw, by simp only [hp]; exact Dict.wf_nil, hs.processTimings, hs.byType, hs.recv⟩

theorem dispatch_noplugins {I : Impl C T G PF PM} (hI : I.Local) {w : World} {s : PS C T G PF PM} {msg : Str} {m : Metric}
    {r : PS C T G PF PM × Outcome} (h : dispatch I w s msg m = some r) (hp : s.plugins = []) :
    r.1.plugins = [] ∧ r.1.pluginMetrics = s.pluginMetrics := by
  refine ⟨by rw [(dispatch_recv hI w h).2.2.1, hp], ?_⟩
  unfold dispatch at h
  split_ifs at h
  · simp only [Option.some.injEq] at h; subst h
    exact (hI.counter w s m.key m.fields msg).pluginMetrics
  · simp only [Option.some.injEq] at h; subst h
    simp only [processTimer]; split
    · rfl
    · exact (hI.timer w s m.key _).pluginMetrics
  · simp only [Option.some.injEq] at h; subst h
    simp only [processGauge]; split
    · rfl
    · split
      · rfl
      · exact (hI.gauge s m.key _).pluginMetrics
  · simp only [Option.some.injEq] at h; subst h
    simp only [processMeter, composeMeter]; split
    · rfl
    · split
      · rfl
      · split <;> rfl
  · rw [hp] at h; simp [Dict.find] at h

theorem no_plugin_metrics (ops : PluginOps PF PM) (pre int : Str) (w : World) (os : List Op) :
    let s := (runOps (configurable ops pre int) w (CPState.init ops []) os).1
    s.plugins = [] ∧ s.pluginMetrics = [] := by
  induction os using List.reverseRecOn with
  | nil => exact ⟨rfl, rfl⟩
  | append_singleton os o ih =>
    have hwf := cpwf_runOps ops pre int w (cpwf_init ops pre []) os
    rw [runOps_snoc]
    generalize runOps (configurable ops pre int) w (CPState.init ops []) os = c0 at ih hwf
    cases o with
    | msg m =>
      simp only [Op.apply]
      have hobs : Obs (fun s : CPState PF PM => (s.plugins, s.pluginMetrics)) := ⟨fun _ _ => rfl, fun _ _ _ _ => rfl⟩
      have h := process_obs hobs (configurable ops pre int) w c0.1 m
      cases hp : parseMessage m with
      | none =>
        simp only [hp, Prod.mk.injEq] at h
        exact ⟨h.1.trans ih.1, h.2.trans ih.2⟩
      | some p =>
        simp only [hp] at h
        cases hd : dispatch (configurable ops pre int) w { c0.1 with ticks := c0.1.ticks + 1 } m p with
        | none =>
          simp only [hd, Prod.mk.injEq] at h
          exact ⟨h.1.trans ih.1, h.2.trans ih.2⟩
        | some r =>
          simp only [hd, Prod.mk.injEq] at h
          obtain ⟨a, b⟩ := dispatch_noplugins (cp_local ops pre int) hd ih.1
          exact ⟨h.1.trans a, (h.2.trans b).trans ih.2⟩
    | flush i p =>
      have h := flush_keepsC ops pre int w i p hwf
      simp only [Op.apply]
      have h6 := h.2.2.2.2.2.1
      rw [ih.2] at h6
      exact ⟨h.2.2.2.2.1.trans ih.1, List.map_eq_nil_iff.1 h6⟩

theorem unpackKeys_err {ks : List Str} (h : ∃ k ∈ ks, k.length ≠ 2) : unpackKeys ks = .error .valueError := by
  induction ks with
  | nil => obtain ⟨k, hk, _⟩ := h; simp at hk
  | cons k rest ih =>
    rcases k with _ | ⟨a, _ | ⟨b, _ | ⟨c, l⟩⟩⟩
    · rfl
    · rfl
    · have : ∃ k ∈ rest, k.length ≠ 2 := by
        obtain ⟨k, hk, hl⟩ := h
        rcases List.mem_cons.1 hk with rfl | hk
        · simp at hl
        · exact ⟨k, hk, hl⟩
      simp only [unpackKeys, ih this]
    · rfl

theorem unpackKeys_ok {ks : List Str} (h : ∀ k ∈ ks, k.length = 2) :
    ∃ l, unpackKeys ks = .ok l ∧ ∀ n, n ∈ l ↔ ∃ a b, [a, b] ∈ ks ∧ n = [b] := by
  induction ks with
  | nil => exact ⟨[], rfl, by simp⟩
  | cons k rest ih =>
    obtain ⟨l, h1, h2⟩ := ih fun k hk => h k (by simp [hk])
    have hk := h k (by simp)
    rcases k with _ | ⟨a, _ | ⟨b, _ | ⟨c, l'⟩⟩⟩
    · simp at hk
    · simp at hk
    · refine ⟨[b] :: l, by simp only [unpackKeys, h1], ?_⟩
      intro n
      rw [List.mem_cons, h2]
      constructor
      · rintro (rfl | ⟨a', b', hm, rfl⟩)
        · exact ⟨a, b, by simp, rfl⟩
        · exact ⟨a', b', by simp [hm], rfl⟩
      · rintro ⟨a', b', hm, rfl⟩
        rcases List.mem_cons.1 hm with he | hm
        · left; simp at he; rw [he.2]
        · exact Or.inr ⟨a', b', hm, rfl⟩
    · simp at hk

/-! ## Logging -/

theorem log_process (ops : PluginOps PF PM) (pre int : Str) (w : World) (l : Logging PF PM) (msg : Str) :
    (l.process ops pre int w msg).1.ps = (process (configurable ops pre int) w l.ps msg).1 ∧
    (l.process ops pre int w msg).1.log = l.log ++ if (parseMessage msg).isSome then [c!"In: " ++ msg] else [] := by
  unfold Logging.process process
  cases parseMessage msg <;> simp [inLine]

theorem log_micro (str : Num → Str) (ops : PluginOps PF PM) (pre int : Str) (w : World) (l : Logging PF PM) (g : Gen) :
    let m := Txstatsd.micro (configurable ops pre int) w l.ps g
    let r := l.micro str ops pre int w g
    r.1.ps = m.1 ∧ r.2 = m.2 ∧ r.1.log = l.log ++ m.2.2.toList.map (outLine str) := by
  intro m r
  have hr : r = l.micro str ops pre int w g := rfl
  unfold Logging.micro at hr
  have hm : Txstatsd.micro (configurable ops pre int) w l.ps g = m := rfl
  rw [hm] at hr
  rcases hm' : m with ⟨ps, g', _ | d⟩
  · rw [hm'] at hr; simp only at hr; rw [hr]; simp
  · rw [hm'] at hr; simp only at hr; rw [hr]; simp

def LogServer.forget (v : LogServer PF PM) : Server CounterRep TimerRep (Dict GaugeRep) PF PM :=
  { ps := v.lp.ps, gens := v.gens, out := v.out }

theorem logServer_step (str : Num → Str) (ops : PluginOps PF PM) (pre int : Str) (w : World) (v : LogServer PF PM) (e : Event) :
    (v.step str ops pre int w e).forget = v.forget.step (configurable ops pre int) w e ∧
    (v.step str ops pre int w e).lp.log = v.lp.log ++ (match e with
      | .arrive m => if (parseMessage m).isSome then [c!"In: " ++ m] else []
      | _ => (((v.forget.step (configurable ops pre int) w e).out.drop v.out.length).map (outLine str))) ∧
    ∃ new, (v.step str ops pre int w e).out = v.out ++ new ∧ (∀ m, e = .arrive m → new = []) := by
  cases e with
  | arrive m =>
    obtain ⟨h1, h2⟩ := log_process ops pre int w v.lp m
    refine ⟨?_, h2, [], by simp [LogServer.step], fun _ _ => rfl⟩
    simp only [LogServer.step, LogServer.forget, Server.step, h1]
  | spawn i p =>
    refine ⟨rfl, ?_, [], by simp [LogServer.step], fun _ _ => rfl⟩
    simp [LogServer.step, LogServer.forget, Server.step]
  | advance i =>
    simp only [LogServer.step, LogServer.forget, Server.step]
    cases hg : v.gens[i]? with
    | none => exact ⟨rfl, by simp, [], by simp, fun _ h => by cases h⟩
    | some g =>
      simp only
      obtain ⟨h1, h2, h3⟩ := log_micro str ops pre int w v.lp g
      rcases hm : Txstatsd.micro (configurable ops pre int) w v.lp.ps g with ⟨ps, g', d⟩
      rcases hl : v.lp.micro str ops pre int w g with ⟨l', g'', d'⟩
      rw [hm, hl] at h1 h2 h3
      simp only [Prod.mk.injEq] at h1 h2 h3
      obtain ⟨rfl, rfl⟩ := h2
      refine ⟨by simp only [h1], ?_, d'.toList, rfl, fun _ h => by cases h⟩
      simp only [h3, List.drop_left]

theorem logServer_sim (str : Num → Str) (ops : PluginOps PF PM) (pre int : Str) (w : World) (v : LogServer PF PM)
    (es : List Event) :
    let l := LogServer.run str ops pre int w v es
    let u := Server.run (configurable ops pre int) w v.forget es
    l.lp.ps = u.ps ∧ l.gens = u.gens ∧ l.out = u.out ∧
    l.lp.log = v.lp.log ++ expectedLog (configurable ops pre int) w str v.forget es := by
  induction es generalizing v with
  | nil => simp [LogServer.run, Server.run, LogServer.forget, expectedLog]
  | cons e es ih =>
    obtain ⟨h1, h2, _⟩ := logServer_step str ops pre int w v e
    have := ih (v.step str ops pre int w e)
    rw [h1] at this
    obtain ⟨i1, i2, i3, i4⟩ := this
    refine ⟨i1, i2, i3, ?_⟩
    rw [show LogServer.run str ops pre int w v (e :: es) = LogServer.run str ops pre int w (v.step str ops pre int w e) es from rfl,
      i4, h2, List.append_assoc]
    cases e <;> rfl

theorem logServer_out (str : Num → Str) (ops : PluginOps PF PM) (pre int : Str) (w : World) (v : LogServer PF PM)
    (es : List Event) :
    let l := LogServer.run str ops pre int w v es
    ∃ new, l.out = v.out ++ new ∧ l.lp.log.filter (fun x => c!"Out: ".isPrefixOf x) =
      v.lp.log.filter (fun x => c!"Out: ".isPrefixOf x) ++ new.map (outLine str) := by
  induction es generalizing v with
  | nil => exact ⟨[], by simp [LogServer.run], by simp [LogServer.run]⟩
  | cons e es ih =>
    obtain ⟨h1, h2, new, h3, h4⟩ := logServer_step str ops pre int w v e
    obtain ⟨new', i1, i2⟩ := ih (v.step str ops pre int w e)
    refine ⟨new ++ new', ?_, ?_⟩
    · rw [show LogServer.run str ops pre int w v (e :: es) = LogServer.run str ops pre int w (v.step str ops pre int w e) es from rfl,
        i1, h3, List.append_assoc]
    · rw [show LogServer.run str ops pre int w v (e :: es) = LogServer.run str ops pre int w (v.step str ops pre int w e) es from rfl,
        i2, h2, List.filter_append, List.map_append, ← List.append_assoc]
      congr 1
      congr 1
      have hfil : ∀ l : List Datapoint, (l.map (outLine str)).filter (fun x => c!"Out: ".isPrefixOf x) = l.map (outLine str) := by
        intro l
        rw [List.filter_eq_self]
        intro x hx
        obtain ⟨d, _, rfl⟩ := List.mem_map.1 hx
        rfl
      have hout : (v.forget.step (configurable ops pre int) w e).out = v.out ++ new := by
        rw [← h1, ← h3]; rfl
      cases e with
      | arrive m => rw [h4 m rfl]; simp only; split_ifs <;> rfl
      | spawn i p => simp only [hout, List.drop_left, hfil]
      | advance i => simp only [hout, List.drop_left, hfil]

end
end Txstatsd
