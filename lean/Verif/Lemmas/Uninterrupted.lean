import Verif.Lemmas.Schedule

set_option linter.unusedSectionVars false
set_option linter.unusedSimpArgs false
set_option linter.unusedVariables false

namespace Txstatsd
open Spec
section
variable [Rounding] {C T G PF PM : Type}

/-- Advancing one generator, nothing else happening. -/
inductive Reach (I : Impl C T G PF PM) (w : World) :
    PS C T G PF PM → Gen → Nat → PS C T G PF PM → Gen → List Datapoint → Prop
  | refl (s g) : Reach I w s g 0 s g []
  | step {s g s' g' d n s'' g'' out} : micro I w s g = (s', g', d) → Reach I w s' g' n s'' g'' out →
      Reach I w s g (n + 1) s'' g'' (d.toList ++ out)

variable {I : Impl C T G PF PM} {w : World}

theorem Reach.trans {s g n s' g' out m s'' g'' out'} (h : Reach I w s g n s' g' out)
    (h' : Reach I w s' g' m s'' g'' out') : Reach I w s g (n + m) s'' g'' (out ++ out') := by
  induction h with
  | refl => simpa using h'
  | step h1 _ ih =>
    have := Reach.step h1 (ih h')
    rw [List.append_assoc]
    rwa [Nat.add_right_comm]

theorem Reach.one {s g s' g' d} (h : micro I w s g = (s', g', d)) : Reach I w s g 1 s' g' d.toList := by
  have := Reach.step h (Reach.refl s' g'); simpa using this

theorem drain_phase (s : PS C T G PF PM) (interval percent : ℤ) (k : Nat) (ts : ℤ) (acc : List PerMetric) (start : ℚ)
    (size cursor events : Nat) (pend : List Datapoint) :
    ∃ n, Reach I w s ⟨interval, percent, .inPhase k ts acc start size cursor events pend⟩ n s
      ⟨interval, percent, .inPhase k ts acc start size cursor events []⟩ pend := by
  induction pend with
  | nil => exact ⟨0, .refl _ _⟩
  | cons d ds ih => obtain ⟨n, h⟩ := ih; exact ⟨n + 1, .step (d := some d) rfl h⟩

theorem drain_init (s : PS C T G PF PM) (interval percent ts : ℤ) (acc : List PerMetric) (pend : List Datapoint) :
    ∃ n, Reach I w s ⟨interval, percent, .sumInit ts acc pend⟩ n s ⟨interval, percent, .sumInit ts acc []⟩ pend := by
  induction pend with
  | nil => exact ⟨0, .refl _ _⟩
  | cons d ds ih => obtain ⟨n, h⟩ := ih; exact ⟨n + 1, .step (d := some d) rfl h⟩

theorem drain_per (s : PS C T G PF PM) (interval percent ts : ℤ) (todo : List PerMetric) (cur : Option Num)
    (pend : List Datapoint) :
    ∃ n, Reach I w s ⟨interval, percent, .sumPer ts todo cur pend⟩ n s ⟨interval, percent, .sumPer ts todo cur []⟩ pend := by
  induction pend with
  | nil => exact ⟨0, .refl _ _⟩
  | cons d ds ih => obtain ⟨n, h⟩ := ih; exact ⟨n + 1, .step (d := some d) rfl h⟩

theorem drain_recv (s : PS C T G PF PM) (interval percent ts : ℤ) (size cursor : Nat) (cur : Option (Str × Num))
    (pend : List Datapoint) :
    ∃ n, Reach I w s ⟨interval, percent, .sumRecv ts size cursor cur pend⟩ n s
      ⟨interval, percent, .sumRecv ts size cursor cur []⟩ pend := by
  induction pend with
  | nil => exact ⟨0, .refl _ _⟩
  | cons d ds ih => obtain ⟨n, h⟩ := ih; exact ⟨n + 1, .step (d := some d) rfl h⟩

/-- A property of states kept by the loop bodies, and keeping the size of the iterated collections. -/
structure Steady (I : Impl C T G PF PM) (w : World) (Q : PS C T G PF PM → Prop) : Prop where
  ticks : ∀ s n, Q s → Q { s with ticks := n }
  visit : ∀ secs percent ts k s i, Q s → Q (phaseVisit I w secs percent ts k s i).1 ∧
    phaseLen I (phaseVisit I w secs percent ts k s i).1 k = phaseLen I s k

variable {Q : PS C T G PF PM → Prop}

theorem loop_reach (hQ : Steady I w Q) (interval percent ts : ℤ) (k : Nat) (acc : List PerMetric) (start : ℚ) (n : Nat) :
    ∀ (s : PS C T G PF PM) (cursor events : Nat), Q s → cursor + n = phaseLen I s k →
    let r := runVisits (phaseVisit I w (Int.fdiv interval 1000) percent ts k) (List.range' cursor n) s
    Q r.1 ∧ phaseLen I r.1 k = phaseLen I s k ∧
    ∃ m, Reach I w s ⟨interval, percent, .inPhase k ts acc start (phaseLen I s k) cursor events []⟩ m r.1
      ⟨interval, percent, match r.2.2 with
        | some e => .crashed e
        | none => .inPhase k ts acc start (phaseLen I s k) (phaseLen I s k) (events + r.2.1.length) []⟩ r.2.1.flatten := by
  induction n with
  | zero =>
    intro s cursor events hs hn
    simp only [List.range'_zero, runVisits, List.length_nil, Nat.add_zero, List.flatten_nil]
    refine ⟨hs, trivial, 0, ?_⟩
    rw [Nat.add_zero] at hn; subst hn
    exact .refl _ _
  | succ n ih =>
    intro s cursor events hs hn
    have hlt : cursor < phaseLen I s k := by omega
    have hv := hQ.visit (Int.fdiv interval 1000) percent ts k s cursor hs
    have hstep : micro I w s ⟨interval, percent, .inPhase k ts acc start (phaseLen I s k) cursor events []⟩ =
        match phaseVisit I w (Int.fdiv interval 1000) percent ts k s cursor with
        | (s', .error e) => (s', ⟨interval, percent, .crashed e⟩, none)
        | (s', .ok none) =>
          (s', ⟨interval, percent, .inPhase k ts acc start (phaseLen I s k) (cursor + 1) events []⟩, none)
        | (s', .ok (some ds)) =>
          (s', ⟨interval, percent, .inPhase k ts acc start (phaseLen I s k) (cursor + 1) (events + 1) ds⟩, none) := by
      unfold micro
      simp only [ne_eq, not_true_eq_false, if_false, if_pos hlt]
      rcases phaseVisit I w (Int.fdiv interval 1000) percent ts k s cursor with ⟨s', e | (_ | ds)⟩ <;> rfl
    simp only [List.range'_succ, runVisits]
    rcases hpv : phaseVisit I w (Int.fdiv interval 1000) percent ts k s cursor with ⟨s', e | o⟩
    · rw [hpv] at hv hstep
      refine ⟨hv.1, hv.2, 1, ?_⟩
      exact Reach.one hstep
    · rw [hpv] at hv
      simp only at hv
      obtain ⟨h1, h2, m, h3⟩ := ih s' (cursor + 1) (events + o.toList.length) hv.1 (by rw [hv.2]; omega)
      rw [hv.2] at h2 h3
      simp only
      refine ⟨h1, h2, ?_⟩
      cases o with
      | none =>
        rw [hpv] at hstep
        exact ⟨_, .step hstep h3⟩
      | some ds =>
        rw [hpv] at hstep
        obtain ⟨m', hd⟩ := drain_phase (I := I) (w := w) s' interval percent k ts acc start (phaseLen I s k) (cursor + 1)
          (events + 1) ds
        refine ⟨m' + m + 1, .step (n := m' + m) hstep ?_⟩
        · have h4 := hd.trans h3
          simp only [Option.toList_some, List.singleton_append, List.flatten_cons, List.length_cons]
          simp only [Option.toList_some, List.length_singleton, List.length_cons, List.length_nil] at h4
          rw [Nat.zero_add] at h4
          have e : events + 1 + (runVisits (phaseVisit I w (interval.fdiv 1000) percent ts k) (List.range' (cursor + 1) n) s').2.1.length =
            events + ((runVisits (phaseVisit I w (interval.fdiv 1000) percent ts k) (List.range' (cursor + 1) n) s').2.1.length + 1) := by omega
          rw [e] at h4
          exact h4

theorem phase_len_ticks (I : Impl C T G PF PM) (s : PS C T G PF PM) (n k : Nat) :
    phaseLen I { s with ticks := n } k = phaseLen I s k := by unfold phaseLen; split <;> rfl

theorem phases_reach (hQ : Steady I w Q) (interval percent ts : ℤ) (n : Nat) :
    ∀ (k : Nat) (s : PS C T G PF PM) (acc : List PerMetric), Q s → k + (n + 1) = 5 →
    let r := runPhases I w (Int.fdiv interval 1000) percent ts (List.range' k (n + 1)) acc s
    ∃ m, Reach I w s ⟨interval, percent, .phaseStart k ts acc⟩ m r.1
      ⟨interval, percent, match r.2.2 with
        | .error e => .crashed e
        | .ok acc => .sumInit ts acc [numStatsPoint I acc ts]⟩ r.2.1 ∧ Q r.1 := by
  induction n with
  | zero =>
    intro k s acc hs hk
    have h1 : Reach I w s ⟨interval, percent, .phaseStart k ts acc⟩ 1 { s with ticks := s.ticks + 1 }
      ⟨interval, percent, .inPhase k ts acc (w.clk s.ticks) (phaseLen I s k) 0 0 []⟩ [] := Reach.one rfl
    obtain ⟨q1, q2, m, h2⟩ := loop_reach hQ interval percent ts k acc (w.clk s.ticks)
      (phaseLen I { s with ticks := s.ticks + 1 } k) { s with ticks := s.ticks + 1 } 0 0 (hQ.ticks s _ hs) (by simp)
    have hpl := phase_len_ticks I s (s.ticks + 1) k
    rw [hpl] at q1 q2 h2
    rw [← List.range_eq_range'] at q1 q2 h2
    simp only [Nat.zero_add, List.range'_one, runPhases]
    rw [hpl]
    rcases hr : runVisits (phaseVisit I w (Int.fdiv interval 1000) percent ts k) (List.range (phaseLen I s k))
      { s with ticks := s.ticks + 1 } with ⟨s', gs, e⟩
    rw [hr] at q1 q2 h2
    cases e with
    | some e =>
      simp only at h2 ⊢
      exact ⟨_, h1.trans h2, q1⟩
    | none =>
      simp only [Nat.zero_add] at q2 h2 ⊢
      have hk4 : ¬ k < 4 := by omega
      have h3 : micro I w s' ⟨interval, percent, .inPhase k ts acc (w.clk s.ticks) (phaseLen I s k) (phaseLen I s k) gs.length []⟩ =
        ({ s' with ticks := s'.ticks + 1 }, ⟨interval, percent, .sumInit ts
          (acc ++ [(phaseName k, gs.length, Num.flt (rnd (w.clk s'.ticks - w.clk s.ticks)))])
          [numStatsPoint I (acc ++ [(phaseName k, gs.length, Num.flt (rnd (w.clk s'.ticks - w.clk s.ticks)))]) ts]⟩, none) := by
        unfold micro
        simp only [q2, ne_eq, not_true_eq_false, if_false, lt_irrefl, hk4]
      refine ⟨1 + m + 1, ?_, hQ.ticks s' _ q1⟩
      · have h4 := (h1.trans h2).trans (Reach.one h3)
        simp only [Option.toList_none, List.append_nil, List.nil_append] at h4 ⊢
        exact h4
  | succ n ih =>
    intro k s acc hs hk
    have h1 : Reach I w s ⟨interval, percent, .phaseStart k ts acc⟩ 1 { s with ticks := s.ticks + 1 }
      ⟨interval, percent, .inPhase k ts acc (w.clk s.ticks) (phaseLen I s k) 0 0 []⟩ [] := Reach.one rfl
    obtain ⟨q1, q2, m, h2⟩ := loop_reach hQ interval percent ts k acc (w.clk s.ticks)
      (phaseLen I { s with ticks := s.ticks + 1 } k) { s with ticks := s.ticks + 1 } 0 0 (hQ.ticks s _ hs) (by simp)
    have hpl := phase_len_ticks I s (s.ticks + 1) k
    rw [hpl] at q1 q2 h2
    rw [← List.range_eq_range'] at q1 q2 h2
    rw [List.range'_succ, runPhases]
    simp only
    rw [hpl]
    rcases hr : runVisits (phaseVisit I w (Int.fdiv interval 1000) percent ts k) (List.range (phaseLen I s k))
      { s with ticks := s.ticks + 1 } with ⟨s', gs, e⟩
    rw [hr] at q1 q2 h2
    cases e with
    | some e =>
      simp only at h2 ⊢
      exact ⟨_, h1.trans h2, q1⟩
    | none =>
      simp only [Nat.zero_add] at q2 h2 ⊢
      have hk4 : k < 4 := by omega
      have h3 : micro I w s' ⟨interval, percent, .inPhase k ts acc (w.clk s.ticks) (phaseLen I s k) (phaseLen I s k) gs.length []⟩ =
        ({ s' with ticks := s'.ticks + 1 }, ⟨interval, percent, .phaseStart (k + 1) ts
          (acc ++ [(phaseName k, gs.length, Num.flt (rnd (w.clk s'.ticks - w.clk s.ticks)))])⟩, none) := by
        unfold micro
        simp only [q2, ne_eq, not_true_eq_false, if_false, lt_irrefl, hk4, if_true]
      obtain ⟨m', h5, q5⟩ := ih (k + 1) { s' with ticks := s'.ticks + 1 }
        (acc ++ [(phaseName k, gs.length, Num.flt (rnd (w.clk s'.ticks - w.clk s.ticks)))]) (hQ.ticks s' _ q1) (by omega)
      refine ⟨1 + m + 1 + m', ?_, q5⟩
      · have h4 := ((h1.trans h2).trans (Reach.one h3)).trans h5
        simp only [Option.toList_none, List.append_nil, List.nil_append] at h4 ⊢
        exact h4

theorem per_reach (interval percent ts : ℤ) (todo : List PerMetric) : ∀ (s : PS C T G PF PM),
    ∃ m, Reach I w s ⟨interval, percent, .sumPer ts todo none []⟩ m
      { s with lastFlush := todo.foldl (fun (a : Num) (p : PerMetric) => a.add p.2.2) s.lastFlush }
      ⟨interval, percent, .sumPer ts [] none []⟩ (todo.flatMap (perMetricPoints I ts)) := by
  induction todo with
  | nil => intro s; exact ⟨0, .refl _ _⟩
  | cons p todo ih =>
    intro s
    obtain ⟨m, h⟩ := ih { s with lastFlush := s.lastFlush.add p.2.2 }
    obtain ⟨m', hd⟩ := drain_per (I := I) (w := w) s interval percent ts todo (some p.2.2) (perMetricPoints I ts p)
    have h1 : Reach I w s ⟨interval, percent, .sumPer ts (p :: todo) none []⟩ 1 s
      ⟨interval, percent, .sumPer ts todo (some p.2.2) (perMetricPoints I ts p)⟩ [] := Reach.one rfl
    have h2 : Reach I w s ⟨interval, percent, .sumPer ts todo (some p.2.2) []⟩ 1
      { s with lastFlush := s.lastFlush.add p.2.2 } ⟨interval, percent, .sumPer ts todo none []⟩ [] := Reach.one rfl
    have := ((h1.trans hd).trans h2).trans h
    simp only [List.nil_append, List.append_nil] at this
    exact ⟨_, this⟩

theorem recv_reach (interval percent ts : ℤ) (rest : Dict Num) : ∀ (s : PS C T G PF PM) (pre : Dict Num),
    s.processTimings = pre ++ rest →
    let r := runReceive I ts s.byType rest s.lastProcess
    ∃ m, Reach I w s ⟨interval, percent, .sumRecv ts s.processTimings.length pre.length none []⟩ m
      (match r.2.2 with
        | none => { s with lastProcess := r.2.1, processTimings := [], byType := [] }
        | some _ => { s with lastProcess := r.2.1 })
      ⟨interval, percent, match r.2.2 with
        | none => .done
        | some e => .crashed e⟩ r.1 := by
  induction rest with
  | nil =>
    intro s pre hs
    simp only [runReceive]
    refine ⟨1, Reach.one (d := none) ?_⟩
    have hl : s.processTimings[pre.length]? = none := by rw [hs]; simp
    unfold micro
    simp only [ne_eq, not_true_eq_false, if_false, hl]
  | cons p rest ih =>
    intro s pre hs
    obtain ⟨t, d⟩ := p
    have hl : s.processTimings[pre.length]? = some (t, d) := by rw [hs]; simp
    simp only [runReceive]
    cases hb : s.byType.find t with
    | none =>
      simp only
      refine ⟨1, Reach.one (d := none) ?_⟩
      unfold micro
      simp only [ne_eq, not_true_eq_false, if_false, hl, hb]
    | some n =>
      simp only
      have h1 : micro I w s ⟨interval, percent, .sumRecv ts s.processTimings.length pre.length none []⟩ =
        (s, ⟨interval, percent, .sumRecv ts s.processTimings.length (pre.length + 1) (some (t, d)) (receivePoints I ts t n d)⟩, none) := by
        unfold micro
        simp only [ne_eq, not_true_eq_false, if_false, hl, hb]
      obtain ⟨m', hd⟩ := drain_recv (I := I) (w := w) s interval percent ts s.processTimings.length (pre.length + 1) (some (t, d))
        (receivePoints I ts t n d)
      have hh : s.byType.has t = true := by rw [Dict.has_iff, ← Dict.find_isSome_iff, hb]; rfl
      have h2 : micro I w s ⟨interval, percent, .sumRecv ts s.processTimings.length (pre.length + 1) (some (t, d)) []⟩ =
        ({ s with lastProcess := s.lastProcess.add d }, ⟨interval, percent, .sumRecv ts s.processTimings.length (pre.length + 1) none []⟩, none) := by
        unfold micro
        simp only [hh, if_true]
      obtain ⟨m, h⟩ := ih { s with lastProcess := s.lastProcess.add d } (pre ++ [(t, d)]) (by simp [hs])
      have h4 := (((Reach.one h1).trans hd).trans (Reach.one h2)).trans (by simpa using h)
      simp only [List.nil_append, List.append_nil, Option.toList_none] at h4
      exact ⟨_, h4⟩

/-- The generator, advanced without interruption, does what `flush` does. -/
theorem flush_reach (hQ : Steady I w Q) (interval percent : ℤ) (s : PS C T G PF PM) (hs : Q s) :
    let r := flush I w interval percent s
    ∃ m, Reach I w s ⟨interval, percent, .fresh⟩ m r.1
      ⟨interval, percent, match r.2.2 with
        | none => .done
        | some e => .crashed e⟩ r.2.1 := by
  have h1 : Reach I w s ⟨interval, percent, .fresh⟩ 1 { s with ticks := s.ticks + 1 }
    ⟨interval, percent, .phaseStart 0 (truncQ (w.clk s.ticks)) []⟩ [] := Reach.one rfl
  obtain ⟨m, h2, q2⟩ := phases_reach hQ interval percent (truncQ (w.clk s.ticks)) 4 0 { s with ticks := s.ticks + 1 } []
    (hQ.ticks s _ hs) rfl
  have hr5 : List.range' 0 (4 + 1) = [0, 1, 2, 3, 4] := rfl
  rw [hr5] at h2
  unfold flush
  simp only
  rcases hp : runPhases I w (Int.fdiv interval 1000) percent (truncQ (w.clk s.ticks)) [0, 1, 2, 3, 4] []
    { s with ticks := s.ticks + 1 } with ⟨s', ps, e | acc⟩
  · rw [hp] at h2
    simp only at h2 ⊢
    exact ⟨_, by simpa using h1.trans h2⟩
  · rw [hp] at h2
    simp only at h2 ⊢
    obtain ⟨m3, h3⟩ := drain_init (I := I) (w := w) s' interval percent (truncQ (w.clk s.ticks)) acc [numStatsPoint I acc (truncQ (w.clk s.ticks))]
    have h4 : Reach I w s' ⟨interval, percent, .sumInit (truncQ (w.clk s.ticks)) acc []⟩ 1 { s' with lastFlush := .int 0 }
      ⟨interval, percent, .sumPer (truncQ (w.clk s.ticks)) acc none []⟩ [] := Reach.one rfl
    obtain ⟨m5, h5⟩ := per_reach (I := I) (w := w) interval percent (truncQ (w.clk s.ticks)) acc { s' with lastFlush := .int 0 }
    obtain ⟨lf, hlf⟩ : ∃ lf, lf = acc.foldl (fun (a : Num) (p : PerMetric) => a.add p.2.2) (.int 0) := ⟨_, rfl⟩
    simp only [← hlf] at h5
    have h6 : Reach I w { s' with lastFlush := lf } ⟨interval, percent, .sumPer (truncQ (w.clk s.ticks)) [] none []⟩ 1
      { s' with lastFlush := lf, lastProcess := .int 0 }
      ⟨interval, percent, .sumRecv (truncQ (w.clk s.ticks)) s'.processTimings.length 0 none []⟩ [] := Reach.one rfl
    obtain ⟨m7, h7⟩ := recv_reach (I := I) (w := w) interval percent (truncQ (w.clk s.ticks)) s'.processTimings
      { s' with lastFlush := lf, lastProcess := .int 0 } [] rfl
    have h8 := (((((h1.trans h2).trans h3).trans h4).trans h5).trans h6).trans h7
    simp only [runSummary, ← hlf]
    rcases hrr : runReceive I (truncQ (w.clk s.ticks)) s'.byType s'.processTimings (.int 0) with ⟨qs, lp, e⟩
    simp only [hrr] at h8
    refine ⟨1 + m + m3 + 1 + m5 + 1 + m7, ?_⟩
    · cases e <;>
      · simp only [List.nil_append, List.append_nil, List.append_assoc, List.singleton_append] at h8 ⊢
        exact h8

/-! ## In a server -/

theorem advance_run (w : World) (v : Server C T G PF PM) {i : Nat} {g : Gen} (hg : v.gens[i]? = some g) {n s' g' out}
    (h : Reach I w v.ps g n s' g' out) :
    v.run I w (List.replicate n (.advance i)) = { ps := s', gens := v.gens.set i g', out := v.out ++ out } := by
  generalize hs : v.ps = s at h
  induction h generalizing v with
  | refl s g =>
    subst hs
    simp only [List.replicate_zero, Server.run, List.foldl_nil, List.append_nil]
    have : v.gens.set i g = v.gens := by
      rw [List.getElem?_eq_some_iff] at hg
      obtain ⟨hlt, rfl⟩ := hg
      exact List.set_getElem_self hlt
    rw [this]
  | @step s g s1 g1 d n s2 g2 out h1 _ ih =>
    subst hs
    rw [List.replicate_succ, run_cons]
    have hlt : i < v.gens.length := (List.getElem?_eq_some_iff.1 hg).1
    have e : v.step I w (.advance i) = { ps := s1, gens := v.gens.set i g1, out := v.out ++ d.toList } := by
      simp only [Server.step, hg, h1]
    rw [e, ih { ps := s1, gens := v.gens.set i g1, out := v.out ++ d.toList } (by simp [hlt]) rfl]
    simp

end

section
variable [Rounding] {PF PM : Type}

theorem mp_steady (ops : PluginOps PF PM) (w : World) : Steady (messageProcessor ops) w (MPWf ops) where
  ticks := fun s n h => ⟨⟨h.shared.1, h.shared.2, h.shared.3, h.shared.4, h.shared.5⟩, h.counters, h.timers, h.meterPre, h.came⟩
  visit := fun secs percent ts k s i h =>
    ⟨(visit_frame ops w secs percent ts k h i).wf, frame_len ops (visit_frame ops w secs percent ts k h i) k⟩

/-! ## No new names: no abort -/

/-- The generator will find its collections as it left them. -/
def Undisturbed (I : Impl Num (List PyFloat) (List (PyFloat × Str)) PF PM) (s : MPState PF PM) : Pc → Prop
  | .inPhase k _ _ _ size _ _ _ => phaseLen I s k = size
  | .sumRecv _ size _ cur _ => s.processTimings.length = size ∧ ∀ p, cur = some p → p.1 ∈ s.byType.keys
  | _ => True

theorem undisturbed_micro (ops : PluginOps PF PM) (w : World) {s : MPState PF PM} (hs : MPWf ops s) {g : Gen}
    (hg : Undisturbed (messageProcessor ops) s g.pc) :
    let r := micro (messageProcessor ops) w s g
    Undisturbed (messageProcessor ops) r.1 r.2.1.pc ∧
    (∀ e, r.2.1.pc = .crashed e → g.pc = .crashed e ∨ ∃ k ts c s0, MPWf ops s0 ∧
      (phaseVisit (messageProcessor ops) w (Int.fdiv g.interval 1000) g.percent ts k s0 c).2 = .error e) := by
  intro r
  have hr : r = micro (messageProcessor ops) w s g := rfl
  obtain ⟨interval, percent, pc⟩ := g
  cases pc with
  | fresh => exact ⟨trivial, fun e h => by cases h⟩
  | phaseStart k ts acc => exact ⟨phase_len_ticks _ _ _ _, fun e h => by cases h⟩
  | inPhase k ts acc start size cursor events pend =>
    cases pend with
    | cons d pend => exact ⟨hg, fun e h => by cases h⟩
    | nil =>
      have h1 : ¬ phaseLen (messageProcessor ops) s k ≠ size := fun h => h hg
      by_cases h2 : cursor < size
      · have hr' : r = match phaseVisit (messageProcessor ops) w (Int.fdiv interval 1000) percent ts k s cursor with
          | (s, .error e) => (s, ⟨interval, percent, .crashed e⟩, none)
          | (s, .ok none) => (s, ⟨interval, percent, .inPhase k ts acc start size (cursor + 1) events []⟩, none)
          | (s, .ok (some ds)) =>
            (s, ⟨interval, percent, .inPhase k ts acc start size (cursor + 1) (events + 1) ds⟩, none) := by
          rw [hr]; unfold micro; simp only [if_neg h1, if_pos h2]
          rcases phaseVisit (messageProcessor ops) w (Int.fdiv interval 1000) percent ts k s cursor with ⟨s', e | (_ | ds)⟩ <;> rfl
        have hf := frame_len ops (visit_frame ops w (Int.fdiv interval 1000) percent ts k hs cursor) k
        rcases hv : phaseVisit (messageProcessor ops) w (Int.fdiv interval 1000) percent ts k s cursor with ⟨s', x⟩
        rw [hv] at hr' hf
        have hg' : phaseLen (messageProcessor ops) s k = size := hg
        rcases x with e | (_ | ds)
        · rw [hr']
          refine ⟨trivial, fun e' h => ?_⟩
          simp only [Pc.crashed.injEq] at h; subst h
          exact Or.inr ⟨k, ts, cursor, s, hs, by rw [hv]⟩
        · rw [hr']; exact ⟨hf.trans hg', fun e h => by cases h⟩
        · rw [hr']; exact ⟨hf.trans hg', fun e h => by cases h⟩
      · by_cases h3 : k < 4
        · have : r = ({ s with ticks := s.ticks + 1 }, ⟨interval, percent, .phaseStart (k + 1) ts
            (acc ++ [(phaseName k, events, Num.flt (rnd (w.clk s.ticks - start)))])⟩, none) := by
            rw [hr]; unfold micro; simp only [if_neg h1, if_neg h2, if_pos h3]
          rw [this]; exact ⟨trivial, fun e h => by cases h⟩
        · have : r = ({ s with ticks := s.ticks + 1 }, ⟨interval, percent, .sumInit ts
            (acc ++ [(phaseName k, events, Num.flt (rnd (w.clk s.ticks - start)))])
            [numStatsPoint (messageProcessor ops) (acc ++ [(phaseName k, events, Num.flt (rnd (w.clk s.ticks - start)))]) ts]⟩, none) := by
            rw [hr]; unfold micro; simp only [if_neg h1, if_neg h2, if_neg h3]
          rw [this]; exact ⟨trivial, fun e h => by cases h⟩
  | sumInit ts acc pend =>
    cases pend with
    | cons d pend => exact ⟨trivial, fun e h => by cases h⟩
    | nil => exact ⟨trivial, fun e h => by cases h⟩
  | sumPer ts todo cur pend =>
    cases pend with
    | cons d pend => exact ⟨trivial, fun e h => by cases h⟩
    | nil =>
      cases cur with
      | some d => exact ⟨trivial, fun e h => by cases h⟩
      | none =>
        cases todo with
        | cons p todo => exact ⟨trivial, fun e h => by cases h⟩
        | nil => exact ⟨⟨rfl, fun p h => by cases h⟩, fun e h => by cases h⟩
  | sumRecv ts size cursor cur pend =>
    cases pend with
    | cons d pend => exact ⟨hg, fun e h => by cases h⟩
    | nil =>
      obtain ⟨hg1, hg2⟩ := hg
      cases cur with
      | some p =>
        obtain ⟨t, d⟩ := p
        have hh : s.byType.has t = true := by rw [Dict.has_iff]; exact hg2 _ rfl
        have hr' : r = ({ s with lastProcess := s.lastProcess.add d }, ⟨interval, percent, .sumRecv ts size cursor none []⟩, none) := by
          rw [hr]; unfold micro; simp only [hh, if_true]
        rw [hr']; exact ⟨⟨hg1, fun p h => by cases h⟩, fun e h => by cases h⟩
      | none =>
        have h1 : ¬ s.processTimings.length ≠ size := fun h => h hg1
        cases hc : s.processTimings[cursor]? with
        | none =>
          have : r = ({ s with processTimings := [], byType := [] }, ⟨interval, percent, .done⟩, none) := by
            rw [hr]; unfold micro; simp only [if_neg h1, hc]
          rw [this]; exact ⟨trivial, fun e h => by cases h⟩
        | some p =>
          obtain ⟨t, d⟩ := p
          have hk : t ∈ s.byType.keys := by
            rw [hs.shared.recv]; exact Dict.mem_keys_of_mem (List.mem_of_getElem? hc)
          obtain ⟨n, hb⟩ : ∃ n, s.byType.find t = some n := by
            rw [← Dict.find_isSome_iff] at hk; exact Option.isSome_iff_exists.1 hk
          have : r = (s, ⟨interval, percent, .sumRecv ts size (cursor + 1) (some (t, d))
            (receivePoints (messageProcessor ops) ts t n d)⟩, none) := by
            rw [hr]; unfold micro; simp only [if_neg h1, hc, hb]
          rw [this]
          refine ⟨⟨hg1, fun p h => ?_⟩, fun e h => by cases h⟩
          simp only [Option.some.injEq] at h; subst h; exact hk
  | done => exact ⟨trivial, fun e h => by cases h⟩
  | crashed e => exact ⟨trivial, fun e' h => Or.inl h⟩

/-! ## Collections never shrink -/

theorem phaseLen_process (ops : PluginOps PF PM) (w : World) (s : MPState PF PM) (m : Str) (k : Nat) :
    phaseLen (messageProcessor ops) s k ≤ phaseLen (messageProcessor ops) (process (messageProcessor ops) w s m).1 k := by
  unfold phaseLen
  split
  · rw [process_counters]; unfold applyCounter
    split
    · exact le_rfl
    · split_ifs
      · exact le_rfl
      · exact Dict.length_put_le _ _ _
    · exact Dict.length_put_le _ _ _
  · rw [process_timers]; unfold applyTimer
    split
    · exact le_rfl
    · exact Dict.length_put_le _ _ _
  · rw [process_gauges]; unfold applyGauge
    split
    · exact le_rfl
    · simp [messageProcessor]
  · rw [process_meters]; unfold applyMeter
    split
    · exact le_rfl
    · exact Dict.length_put_le _ _ _
  · rw [process_obs obs_pluginMetrics]
    cases hp : parseMessage m with
    | none => exact le_rfl
    | some mt =>
      simp only
      cases hd : dispatch (messageProcessor ops) w { s with ticks := s.ticks + 1 } m mt with
      | none => exact le_rfl
      | some r =>
        simp only
        unfold dispatch at hd
        split_ifs at hd
        · simp only [Option.some.injEq] at hd; subst hd
          rw [((mp_local ops).counter w { s with ticks := s.ticks + 1 } mt.key mt.fields m).pluginMetrics]
        · simp only [Option.some.injEq] at hd; subst hd
          unfold processTimer; split
          · exact le_rfl
          · rw [((mp_local ops).timer w { s with ticks := s.ticks + 1 } mt.key _).pluginMetrics]
        · simp only [Option.some.injEq] at hd; subst hd
          unfold processGauge; simp only; split_ifs
          · exact le_rfl
          · split
            · exact le_rfl
            · rw [((mp_local ops).gauge { s with ticks := s.ticks + 1 } mt.key _).pluginMetrics]
        · simp only [Option.some.injEq] at hd; subst hd
          unfold processMeter composeMeter; simp only; split_ifs
          · exact le_rfl
          · split
            · exact le_rfl
            · split <;> exact le_rfl
        · cases hf : s.plugins.find mt.mtype with
          | none => simp [hf] at hd
          | some f =>
            simp only [hf, Option.some.injEq] at hd; subst hd
            unfold processPlugin; simp only
            split <;> split
            · exact le_rfl
            · exact Dict.length_put_le _ _ _
            · exact Dict.length_put_le _ _ _
            · exact le_trans (Dict.length_put_le _ _ _) (Dict.length_put_le _ _ _)

theorem phaseLen_stepFrame (ops : PluginOps PF PM) {s s' : MPState PF PM} (h : StepFrame ops s s') (j : Nat) :
    phaseLen (messageProcessor ops) s' j = phaseLen (messageProcessor ops) s j := by
  have h0 := congrArg List.length h.keys0
  have h1 := congrArg List.length h.keys1
  have h3 := congrArg List.length h.keys3
  have h4 := congrArg List.length h.keys4
  simp only [Dict.keys, List.length_map] at h0 h1 h3 h4
  unfold phaseLen
  split
  · exact h0
  · exact h1
  · rw [h.gauges]
  · exact h3
  · exact h4

theorem phaseLen_step (ops : PluginOps PF PM) (w : World) {v : Server Num (List PyFloat) (List (PyFloat × Str)) PF PM}
    (hv : MPWf ops v.ps) (e : Event) (k : Nat) :
    phaseLen (messageProcessor ops) v.ps k ≤ phaseLen (messageProcessor ops) (v.step (messageProcessor ops) w e).ps k := by
  cases e with
  | arrive m => exact phaseLen_process ops w v.ps m k
  | spawn i p => exact le_rfl
  | advance i =>
    unfold Server.step
    simp only
    cases hg : v.gens[i]? with
    | none => exact le_rfl
    | some g => exact le_of_eq (phaseLen_stepFrame ops (micro_frame ops w hv g) k).symm

/-- The recorded size is never above the real one. -/
def Behind (ops : PluginOps PF PM) (v : Server Num (List PyFloat) (List (PyFloat × Str)) PF PM) : Prop :=
  ∀ g ∈ v.gens, ∀ k ts acc start size cursor events pend,
    g.pc = .inPhase k ts acc start size cursor events pend → size ≤ phaseLen (messageProcessor ops) v.ps k

theorem micro_size {C T G : Type} (I : Impl C T G PF PM) (w : World) (s : PS C T G PF PM) (g : Gen)
    {k ts acc start size cursor events pend}
    (h : (micro I w s g).2.1.pc = .inPhase k ts acc start size cursor events pend) :
    size = phaseLen I s k ∨ ∃ cursor' events' pend', g.pc = .inPhase k ts acc start size cursor' events' pend' := by
  obtain ⟨interval, percent, pc⟩ := g
  cases pc with
  | fresh => simp [micro] at h
  | phaseStart k' ts' acc' =>
    simp only [micro, Pc.inPhase.injEq] at h
    left; obtain ⟨rfl, _, _, _, rfl, _⟩ := h; rfl
  | inPhase k' ts' acc' start' size' cursor' events' pend' =>
    right
    cases pend' with
    | cons d pend' =>
      simp only [micro, Pc.inPhase.injEq] at h
      obtain ⟨rfl, rfl, rfl, rfl, rfl, rfl, rfl, rfl⟩ := h
      exact ⟨_, _, _, rfl⟩
    | nil =>
      unfold micro at h
      simp only at h
      split_ifs at h
      · rcases hv : phaseVisit I w (Int.fdiv interval 1000) percent ts' k' s cursor' with ⟨s', e | (_ | ds)⟩ <;>
          simp only [hv] at h
        · cases h
        · simp only [Pc.inPhase.injEq] at h
          obtain ⟨rfl, rfl, rfl, rfl, rfl, rfl, rfl, rfl⟩ := h
          exact ⟨_, _, _, rfl⟩
        · simp only [Pc.inPhase.injEq] at h
          obtain ⟨rfl, rfl, rfl, rfl, rfl, rfl, rfl, rfl⟩ := h
          exact ⟨_, _, _, rfl⟩
  | sumInit ts acc pend => cases pend <;> simp [micro] at h
  | sumPer ts todo cur pend =>
    cases pend with
    | cons d pend => simp [micro] at h
    | nil =>
      cases cur with
      | some d => simp [micro] at h
      | none => cases todo <;> simp [micro] at h
  | sumRecv ts size cursor cur pend =>
    cases pend with
    | cons d pend => simp [micro] at h
    | nil =>
      cases cur with
      | some p =>
        obtain ⟨t, d⟩ := p
        unfold micro at h
        simp only at h
        split_ifs at h
      | none =>
        unfold micro at h
        simp only at h
        split_ifs at h
        split at h
        · split at h <;> cases h
        · cases h
  | done => simp [micro] at h
  | crashed e => simp [micro] at h

theorem behind_step (ops : PluginOps PF PM) (w : World) {v : Server Num (List PyFloat) (List (PyFloat × Str)) PF PM}
    (hv : MPWf ops v.ps) (hb : Behind ops v) (e : Event) : Behind ops (v.step (messageProcessor ops) w e) := by
  have hmono := phaseLen_step ops w hv e
  intro g hg k ts acc start size cursor events pend hpc
  cases e with
  | arrive m => exact le_trans (hb g hg _ _ _ _ _ _ _ _ hpc) (hmono k)
  | spawn i p =>
    simp only [Server.step, List.mem_append, List.mem_singleton] at hg
    rcases hg with hg | rfl
    · exact hb g hg _ _ _ _ _ _ _ _ hpc
    · cases hpc
  | advance i =>
    revert hg hmono
    unfold Server.step
    simp only
    cases hgi : v.gens[i]? with
    | none => intro hmono hg; exact hb g hg _ _ _ _ _ _ _ _ hpc
    | some g0 =>
      intro hmono hg
      simp only at hg hmono
      rcases List.mem_or_eq_of_mem_set hg with h | rfl
      · exact le_trans (hb g h _ _ _ _ _ _ _ _ hpc) (hmono k)
      · rcases micro_size _ w v.ps g0 hpc with rfl | ⟨c, ev, pe, h0⟩
        · exact hmono k
        · exact le_trans (hb g0 (List.mem_of_getElem? hgi) _ _ _ _ _ _ _ _ h0) (hmono k)

theorem behind_run (ops : PluginOps PF PM) (w : World) {v : Server Num (List PyFloat) (List (PyFloat × Str)) PF PM}
    (hv : MPWf ops v.ps) (hb : Behind ops v) (es : List Event) : Behind ops (v.run (messageProcessor ops) w es) := by
  induction es generalizing v with
  | nil => exact hb
  | cons e es ih => rw [run_cons]; exact ih (mpwf_step ops w hv e) (behind_step ops w hv hb e)

/-- A generator whose collection has grown hands out what it has and aborts. -/
theorem doomed_run (ops : PluginOps PF PM) (w : World) (i : Nat) (es : List Event) :
    ∀ (v : Server Num (List PyFloat) (List (PyFloat × Str)) PF PM), MPWf ops v.ps →
    ∀ interval percent k ts acc start size cursor events pend,
    v.gens[i]? = some ⟨interval, percent, .inPhase k ts acc start size cursor events pend⟩ →
    size < phaseLen (messageProcessor ops) v.ps k →
    emits (messageProcessor ops) w i v es <+: pend ∧
    ((es.filter fun e => match e with | .advance j => decide (j = i) | _ => false).length > pend.length →
      emits (messageProcessor ops) w i v es = pend ∧
      (v.run (messageProcessor ops) w es).gens[i]? = some ⟨interval, percent, .crashed .runtimeError⟩) := by
  have hcr : ∀ (es : List Event) (v : Server Num (List PyFloat) (List (PyFloat × Str)) PF PM) interval percent,
      v.gens[i]? = some ⟨interval, percent, .crashed .runtimeError⟩ →
      emits (messageProcessor ops) w i v es = [] ∧
      (v.run (messageProcessor ops) w es).gens[i]? = some ⟨interval, percent, .crashed .runtimeError⟩ := by
    intro es
    induction es with
    | nil => intro v interval percent h; exact ⟨rfl, h⟩
    | cons e es ih =>
      intro v interval percent h
      have hlt : i < v.gens.length := (List.getElem?_eq_some_iff.1 h).1
      rw [run_cons]
      cases e with
      | arrive m => simp only [emits, List.nil_append]; exact ih _ _ _ h
      | spawn a b =>
        simp only [emits, List.nil_append]
        refine ih _ interval percent ?_
        simp only [Server.step]
        rw [List.getElem?_append_left hlt]; exact h
      | advance j =>
        by_cases hj : j = i
        · subst hj
          have e1 : v.step (messageProcessor ops) w (.advance j) =
              { ps := v.ps, gens := v.gens.set j ⟨interval, percent, .crashed .runtimeError⟩, out := v.out ++ [] } := by
            simp only [Server.step, h, micro]; rfl
          simp only [emits, h, micro, if_true, Option.toList_none, List.nil_append]
          rw [e1]
          refine ih _ interval percent ?_
          simp [hlt]
        · simp only [emits, h, hj, if_false, List.nil_append]
          refine ih _ interval percent ?_
          simp only [Server.step]
          cases v.gens[j]? with
          | none => exact h
          | some g => simp only; rw [List.getElem?_set_ne hj]; exact h
  induction es with
  | nil =>
    intro v hv interval percent k ts acc start size cursor events pend h hs
    exact ⟨List.nil_prefix, fun h => by simp at h⟩
  | cons e es ih =>
    intro v hv interval percent k ts acc start size cursor events pend h hs
    have hlt : i < v.gens.length := (List.getElem?_eq_some_iff.1 h).1
    have hmono := lt_of_lt_of_le hs (phaseLen_step ops w hv e k)
    have hwf := mpwf_step ops w hv e
    rw [run_cons]
    cases e with
    | arrive m =>
      simp only [emits, List.nil_append]
      exact ih _ hwf interval percent k ts acc start size cursor events pend h hmono
    | spawn a b =>
      simp only [emits, List.nil_append]
      refine ih _ hwf interval percent k ts acc start size cursor events pend ?_ hmono
      simp only [Server.step]
      rw [List.getElem?_append_left hlt]; exact h
    | advance j =>
      by_cases hj : j = i
      · subst hj
        cases pend with
        | cons d pend =>
          have e1 : v.step (messageProcessor ops) w (.advance j) =
              { ps := v.ps, gens := v.gens.set j ⟨interval, percent, .inPhase k ts acc start size cursor events pend⟩, out := v.out ++ [d] } := by
            simp only [Server.step, h, micro]; rfl
          simp only [emits, h, micro, if_true, Option.toList_some, List.singleton_append]
          rw [e1]
          rw [e1] at hmono hwf
          obtain ⟨h1, h2⟩ := ih { ps := v.ps, gens := v.gens.set j ⟨interval, percent, .inPhase k ts acc start size cursor events pend⟩, out := v.out ++ [d] }
            hwf interval percent k ts acc start size cursor events pend (by simp [hlt]) hmono
          refine ⟨by rw [List.cons_prefix_cons]; exact ⟨rfl, h1⟩, fun hn => ?_⟩
          simp only [List.filter_cons, decide_true, if_true, List.length_cons] at hn
          obtain ⟨h3, h4⟩ := h2 (by omega)
          exact ⟨by rw [h3], h4⟩
        | nil =>
          have hne : phaseLen (messageProcessor ops) v.ps k ≠ size := by omega
          have hm : micro (messageProcessor ops) w v.ps ⟨interval, percent, .inPhase k ts acc start size cursor events []⟩ =
              (v.ps, ⟨interval, percent, .crashed .runtimeError⟩, none) := by
            unfold micro; simp only [if_pos hne]
          have e1 : v.step (messageProcessor ops) w (.advance j) =
              { ps := v.ps, gens := v.gens.set j ⟨interval, percent, .crashed .runtimeError⟩, out := v.out ++ [] } := by
            simp only [Server.step, h, hm]; rfl
          simp only [emits, h, hm, if_true, Option.toList_none, List.nil_append]
          rw [e1]
          obtain ⟨h1, h2⟩ := hcr es { ps := v.ps, gens := v.gens.set j ⟨interval, percent, .crashed .runtimeError⟩, out := v.out ++ [] }
            interval percent (by simp [hlt])
          exact ⟨by rw [h1], fun _ => ⟨h1, h2⟩⟩
      · have hf : (List.filter (fun e => match e with | .advance j => decide (j = i) | _ => false) (Event.advance j :: es)) =
            List.filter (fun e => match e with | .advance j => decide (j = i) | _ => false) es := by
          simp [List.filter_cons, hj]
        rw [hf]
        simp only [emits, h, hj, if_false, List.nil_append]
        refine ih _ hwf interval percent k ts acc start size cursor events pend ?_ hmono
        simp only [Server.step]
        cases v.gens[j]? with
        | none => exact h
        | some g => simp only; rw [List.getElem?_set_ne hj]; exact h

end
end Txstatsd
