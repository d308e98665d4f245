import Verif.Spec.Inspector
import Verif.Lemmas.Report
import Mathlib.Data.List.Induction

/-!
# C141: starting and stopping the reactor inspector
-/

set_option linter.unusedVariables false

namespace Txstatsd
open Spec

theorem inspSvc_snoc (s : InspSvc) (evs : List (ℚ × InspSvcAct)) (e : ℚ × InspSvcAct) :
    s.run (evs ++ [e]) = (s.run evs).step e.1 e.2 := by simp [InspSvc.run]

theorem inspSvc_append (s : InspSvc) (a b : List (ℚ × InspSvcAct)) : s.run (a ++ b) = (s.run a).run b := by simp [InspSvc.run]

theorem inspSvc_inv (evs : List (ℚ × InspSvcAct)) :
    (({} : InspSvc).run evs).threads = (if (({} : InspSvc).run evs).running then 1 else 0) ∧
    ((({} : InspSvc).run evs).running = true ↔ Started evs) ∧ ((({} : InspSvc).run evs).stopped = true ↔ Stopped evs) ∧
    ((({} : InspSvc).run evs).over = true → (({} : InspSvc).run evs).stopped = true) := by
  induction evs using List.reverseRecOn with
  | nil => simp [InspSvc.run, Started, Stopped]
  | append_singleton evs e ih =>
    obtain ⟨h1, h2, h3, h4⟩ := ih
    have hs : Started (evs ++ [e]) ↔ Started evs ∨ ∃ ident, e.2 = .start ident := by
      simp only [Started, List.mem_append, List.mem_singleton]
      constructor
      · rintro ⟨x, hx | rfl, i, hi⟩
        · exact Or.inl ⟨x, hx, i, hi⟩
        · exact Or.inr ⟨i, hi⟩
      · rintro (⟨x, hx, i, hi⟩ | ⟨i, hi⟩)
        · exact ⟨x, Or.inl hx, i, hi⟩
        · exact ⟨e, Or.inr rfl, i, hi⟩
    have hp : Stopped (evs ++ [e]) ↔ Stopped evs ∨ e.2 = .stop := by
      simp only [Stopped, List.mem_append, List.mem_singleton]
      constructor
      · rintro ⟨x, hx | rfl, hi⟩
        · exact Or.inl ⟨x, hx, hi⟩
        · exact Or.inr hi
      · rintro (⟨x, hx, hi⟩ | hi)
        · exact ⟨x, Or.inl hx, hi⟩
        · exact ⟨e, Or.inr rfl, hi⟩
    rw [inspSvc_snoc, hs, hp, ← h2, ← h3]
    generalize ({} : InspSvc).run evs = s at *
    obtain ⟨t, a⟩ := e
    cases a with
    | start ident =>
      simp only [InspSvc.step, InspSvc.start]
      split <;> rename_i hr
      · simp_all
      · simp_all
    | stop => exact ⟨h1, by simp [InspSvc.step, InspSvc.stop], by simp [InspSvc.step, InspSvc.stop], fun _ => rfl⟩
    | begin =>
      simp only [InspSvc.step, InspSvc.begin]
      split <;> simp_all
    | act a =>
      simp only [InspSvc.step, InspSvc.act]
      split
      · simp_all
      · rename_i th hth
        cases a with
        | exec i => simp_all
        | request =>
          dsimp only
          split
          · simp_all
          · split <;> simp_all
        | check => dsimp only; split <;> simp_all
        | clean => dsimp only; split <;> simp_all

/-- C141: however often the service is started, there is never more than one thread, and one as soon as it was started once. -/
theorem C141_one_thread (evs : List (ℚ × InspSvcAct)) :
    (({} : InspSvc).run evs).threads ≤ 1 ∧ ((({} : InspSvc).run evs).threads = 1 ↔ Started evs) := by
  obtain ⟨h1, h2, -, -⟩ := inspSvc_inv evs
  rw [← h2, h1]
  split <;> simp_all

/-- C141: the service counts as running exactly after a start that no stop followed. -/
theorem C141_service (evs : List (ℚ × InspSvcAct)) : (({} : InspSvc).run evs).service = true ↔ Up evs := by
  induction evs using List.reverseRecOn with
  | nil => simp [InspSvc.run, Up]
  | append_singleton evs e ih =>
    have hup : Up (evs ++ [e]) ↔ (∃ ident, e.2 = .start ident) ∨ Up evs ∧ e.2 ≠ .stop := by
      constructor
      · rintro ⟨b, t, i, a, h, hn⟩
        rcases List.eq_nil_or_concat a with rfl | ⟨a', x, rfl⟩
        · have := List.append_inj_right' h rfl
          simp only [List.cons.injEq, and_true] at this
          exact Or.inl ⟨i, by rw [this]⟩
        · rw [List.concat_eq_append, ← List.cons_append, ← List.append_assoc] at h
          obtain ⟨h1, h2⟩ := List.append_inj' h rfl
          simp only [List.cons.injEq, and_true] at h2
          subst h2
          exact Or.inr ⟨⟨b, t, i, a', h1, fun y hy => hn y (by simp [hy])⟩, hn e (by simp)⟩
      · rintro (⟨i, hi⟩ | ⟨⟨b, t, i, a, h, hn⟩, hs⟩)
        · exact ⟨evs, e.1, i, [], by rw [← hi], by simp⟩
        · refine ⟨b, t, i, a ++ [e], by rw [h]; simp, fun y hy => ?_⟩
          rcases List.mem_append.1 hy with hy | hy
          · exact hn y hy
          · rw [List.mem_singleton] at hy; rw [hy]; exact hs
    rw [inspSvc_snoc, hup, ← ih]
    generalize ({} : InspSvc).run evs = s
    obtain ⟨t, a⟩ := e
    cases a with
    | start ident => simp only [InspSvc.step, InspSvc.start]; split <;> simp
    | stop => simp [InspSvc.step, InspSvc.stop]
    | begin => simp only [InspSvc.step, InspSvc.begin]; split <;> simp
    | act a =>
      simp only [InspSvc.step, InspSvc.act]
      split
      · simp
      · cases a with
        | exec i => simp
        | request => dsimp only; split <;> [skip; split] <;> simp
        | check => dsimp only; split <;> simp
        | clean => dsimp only; split <;> simp

/-- The loop of a thread that nobody stops. -/
theorem inspSvc_loop (t0 : ℚ) (s : InspSvc) (evs : List (ℚ × InspSvcAct)) (t : Insp) (ht : s.thread = some t) (hs : s.stopped = false)
    (ho : s.over = false) (hn : ¬ Stopped evs) : (s.run evs).thread = some (t.run (loopActs evs)) := by
  induction evs generalizing s t with
  | nil => simpa [InspSvc.run, Insp.run, loopActs] using ht
  | cons e evs ih =>
    have hn' : ¬ Stopped evs := fun ⟨x, hx, h⟩ => hn ⟨x, by simp [hx], h⟩
    have hne : e.2 ≠ .stop := fun h => hn ⟨e, by simp, h⟩
    obtain ⟨now, a⟩ := e
    show ((s.step now a).run evs).thread = _
    cases a with
    | stop => exact absurd rfl hne
    | start ident =>
      refine (ih (s.step now (.start ident)) t ?_ ?_ ?_ hn')
      · simp only [InspSvc.step, InspSvc.start]; split <;> exact ht
      · simp only [InspSvc.step, InspSvc.start]; split <;> exact hs
      · simp only [InspSvc.step, InspSvc.start]; split <;> exact ho
    | begin =>
      have : s.step now .begin = s := by simp [InspSvc.step, InspSvc.begin, ht]
      rw [this]
      exact ih s t ht hs ho hn'
    | act a =>
      have key : s.step now (.act a) = { s with thread := some (t.step now a) } := by
        simp only [InspSvc.step, InspSvc.act, ht, ho, hs]
        cases a <;> simp
      rw [key]
      exact ih _ (t.step now a) rfl hs ho hn'

/-- C141 (partial): as long as nobody stops the service, further starts change nothing: from the moment its thread begins, the readings are
those of the loop alone (C74, C90). Missing for the full claim (`C141_restart_refuted`): after a stop. -/
theorem C141_loop_partial (before after : List (ℚ × InspSvcAct)) (t0 : ℚ) (hb : Started before) (hbb : ∀ e ∈ before, e.2 ≠ .begin)
    (hn : ¬ Stopped (before ++ after)) :
    (({} : InspSvc).run (before ++ (t0, .begin) :: after)).readings = (({ oldest := t0 } : Insp).run (loopActs after)).log := by
  have hnb : ¬ Stopped before := fun ⟨x, hx, h⟩ => hn ⟨x, by simp [hx], h⟩
  have hna : ¬ Stopped after := fun ⟨x, hx, h⟩ => hn ⟨x, by simp [hx], h⟩
  obtain ⟨h1, h2, h3, h4⟩ := inspSvc_inv before
  have hth : (({} : InspSvc).run before).thread = none := by
    clear hb hn hnb h1 h2 h3 h4
    induction before using List.reverseRecOn with
    | nil => rfl
    | append_singleton l e ih =>
      have := ih fun e he => hbb e (by simp [he])
      rw [inspSvc_snoc]
      have hne := hbb e (by simp)
      obtain ⟨now, a⟩ := e
      cases a with
      | start i => simp only [InspSvc.step, InspSvc.start]; split <;> exact this
      | stop => exact this
      | begin => exact absurd rfl hne
      | act a => simp [InspSvc.step, InspSvc.act, this]
  have hst : (({} : InspSvc).run before).stopped = false := by rw [← Bool.not_eq_true, h3]; exact hnb
  have hov : (({} : InspSvc).run before).over = false := by
    rw [← Bool.not_eq_true]; intro h; rw [h4 h] at hst; cases hst
  have hthr : 0 < (({} : InspSvc).run before).threads := by rw [h1, h2.2 hb]; simp
  rw [inspSvc_append]
  have e : (({} : InspSvc).run before).step t0 .begin = { ({} : InspSvc).run before with thread := some { oldest := t0 } } := by
    simp only [InspSvc.step, InspSvc.begin]
    rw [if_pos ⟨hthr, hth⟩]
  show InspSvc.readings (((({} : InspSvc).run before).step t0 .begin).run after) = _
  rw [e]
  unfold InspSvc.readings
  have := inspSvc_loop t0 { ({} : InspSvc).run before with thread := some { oldest := t0 } } after { oldest := t0 } rfl hst hov hna
  rw [this]

theorem stopped_step (s : InspSvc) (hs : s.stopped = true) (now : ℚ) (a : InspSvcAct) : (s.step now a).stopped = true := by
  cases a with
  | start i => simp only [InspSvc.step, InspSvc.start]; split <;> exact hs
  | stop => rfl
  | begin => simp only [InspSvc.step, InspSvc.begin]; split <;> exact hs
  | act a =>
    simp only [InspSvc.step, InspSvc.act]
    split
    · exact hs
    · cases a with
      | exec i => exact hs
      | request => dsimp only; split; exact hs; split <;> exact hs
      | check => dsimp only; split <;> exact hs
      | clean => dsimp only; split <;> exact hs

/-- How many readings can still come. -/
def remaining (s : InspSvc) : ℕ :=
  match s.thread with
  | none => 0
  | some t => if t.phase = .asleep then 1 else 0

theorem stopped_remaining (s : InspSvc) (hs : s.stopped = true) (now : ℚ) (a : InspSvcAct) :
    (s.step now a).readings.length + remaining (s.step now a) ≤ s.readings.length + remaining s ∧ s.readings <+: (s.step now a).readings := by
  cases a with
  | start i => simp only [InspSvc.step, InspSvc.start]; split <;> simp [InspSvc.readings, remaining]
  | stop => simp [InspSvc.step, InspSvc.stop, InspSvc.readings, remaining]
  | begin =>
    simp only [InspSvc.step, InspSvc.begin]
    split
    · rename_i h
      simp [InspSvc.readings, remaining, h.2]
    · simp
  | act a =>
    simp only [InspSvc.step, InspSvc.act]
    split
    · simp
    · rename_i t ht
      cases a with
      | exec i =>
        have e1 : (t.step now (.exec i)).log = t.log := by simp only [Insp.step, Insp.exec]; split <;> rfl
        have e2 : (t.step now (.exec i)).phase = t.phase := by simp only [Insp.step, Insp.exec]; split <;> rfl
        simp [InspSvc.readings, remaining, ht, e1, e2]
      | request =>
        dsimp only
        split
        · simp
        · split
          · simp [InspSvc.readings, remaining, ht]
          · rename_i h1 h2
            have hp : t.phase ≠ .idle := fun h => h2 ⟨h, hs⟩
            have e : t.step now .request = t := by simp [Insp.step, hp]
            simp [InspSvc.readings, remaining, ht, e]
      | check =>
        dsimp only
        split
        · simp
        · simp only [Insp.step]
          split
          · rename_i h
            simp only [InspSvc.readings, remaining, ht, Insp.check, h.2]
            split
            · simp
            · split
              · simp
              · split <;> simp
          · simp [InspSvc.readings, remaining, ht]
      | clean =>
        dsimp only
        split
        · simp
        · simp only [Insp.step]
          split
          · rename_i h
            simp only [InspSvc.readings, remaining, ht, Insp.clean, h.2]
            split <;> simp
          · simp [InspSvc.readings, remaining, ht]

/-- C141: after the service was stopped there is at most one more reading - the one of a round that had begun - whatever happens later,
further starts included. -/
theorem C141_after_stop (before after : List (ℚ × InspSvcAct)) (t : ℚ) :
    ∃ more, (({} : InspSvc).run (before ++ (t, .stop) :: after)).readings = (({} : InspSvc).run before).readings ++ more ∧ more.length ≤ 1 := by
  have key : ∀ (evs : List (ℚ × InspSvcAct)) (s : InspSvc), s.stopped = true →
      (s.run evs).readings.length + remaining (s.run evs) ≤ s.readings.length + remaining s ∧ s.readings <+: (s.run evs).readings := by
    intro evs
    induction evs with
    | nil => intro s _; exact ⟨le_refl _, List.prefix_refl _⟩
    | cons e evs ih =>
      intro s hs
      obtain ⟨h1, h2⟩ := stopped_remaining s hs e.1 e.2
      obtain ⟨h3, h4⟩ := ih _ (stopped_step s hs e.1 e.2)
      exact ⟨h3.trans h1, h2.trans h4⟩
  rw [inspSvc_append]
  obtain ⟨h1, h2⟩ := key after ((({} : InspSvc).run before).step t .stop) rfl
  obtain ⟨more, hm⟩ := h2
  refine ⟨more, hm.symm, ?_⟩
  have hr : remaining ((({} : InspSvc).run before).step t .stop) ≤ 1 := by
    unfold remaining; split; omega; split <;> omega
  rw [← hm, List.length_append] at h1
  omega

/-- C141, refuted: a service that was stopped and started again should go on inspecting: with the service up, a request answered by the
reactor and a check should make a reading. They do not. -/
theorem C141_restart_refuted : ¬ ∀ (evs : List (ℚ × InspSvcAct)) (t : ℚ), Up evs →
    (({} : InspSvc).run evs).readings.length <
      (({} : InspSvc).run (evs ++ [(t, .begin), (t, .act .request), (t, .act (.exec 0)), (t + 3, .act .check)])).readings.length := by
  intro h
  have := h [(0, .start 1), (0, .begin), (1, .stop), (2, .start 1)] 3 ⟨[(0, .start 1), (0, .begin), (1, .stop)], 2, 1, [], rfl, by simp⟩
  revert this
  decide +kernel

/-- C141: an unresponsive reactor makes a dump of every other thread, once, in order, and the one that started the inspector is the one
marked as the reactor's. -/
theorem C141_dump (evs : List (ℚ × InspSvcAct)) (t : ℚ) (ident current pid : ℕ) (frames : List (ℕ × Str)) (after : List (ℚ × InspSvcAct))
    (ha : ∀ e ∈ after, ∀ i, e.2 ≠ .start i) :
    List.Forall₂ (fun (f : ℕ × Str) line => f.1 ≠ current ∧ ∃ title, line = title ++ c!" " ++ natStr f.1 ++ c!" (pid: " ++ natStr pid ++
          c!"):\n" ++ f.2 ∧ (title = c!"Dumping Python frame for reactor main thread" ∧ f.1 = ident ∨
            title = c!"Dumping Python frame" ∧ f.1 ≠ ident))
      (frames.filter fun f => f.1 ≠ current)
      (dumpFrames current (({} : InspSvc).run (evs ++ (t, .start ident) :: after)).reactorThread pid frames) := by
  have hr : (({} : InspSvc).run (evs ++ (t, .start ident) :: after)).reactorThread = some ident := by
    rw [inspSvc_append]
    show (((({} : InspSvc).run evs).step t (.start ident)).run after).reactorThread = some ident
    have h0 : ((({} : InspSvc).run evs).step t (.start ident)).reactorThread = some ident := by
      simp only [InspSvc.step, InspSvc.start]; split <;> rfl
    generalize (({} : InspSvc).run evs).step t (.start ident) = s at *
    induction after generalizing s with
    | nil => exact h0
    | cons e after ih =>
      refine ih (fun e he => ha e (by simp [he])) (s.step e.1 e.2) ?_
      have hne := ha e (by simp)
      obtain ⟨now, a⟩ := e
      cases a with
      | start i => exact absurd rfl (hne i)
      | stop => exact h0
      | begin => simp only [InspSvc.step, InspSvc.begin]; split <;> exact h0
      | act a =>
        simp only [InspSvc.step, InspSvc.act]
        split
        · exact h0
        · cases a with
          | exec i => exact h0
          | request => dsimp only; split; exact h0; split <;> exact h0
          | check => dsimp only; split <;> exact h0
          | clean => dsimp only; split <;> exact h0
  rw [hr]
  unfold dumpFrames
  rw [List.forall₂_map_right_iff]
  apply List.forall₂_same.2
  intro f hf
  refine ⟨by simpa using (List.mem_filter.1 hf).2, _, rfl, ?_⟩
  by_cases h : f.1 = ident
  · left; simp [h]
  · right; simp [h]

/-! ## Examples -/

example : (({} : InspSvc).run [(0, .start 1), (0, .begin), (0, .act .request), (1, .act (.exec 0)), (1, .start 2), (3, .act .check)]).readings
    = [.ok 0 1] := by decide +kernel

example : (({} : InspSvc).run [(0, .start 1), (0, .begin), (0, .act .request), (1, .stop), (2, .start 1), (3, .act .check),
    (3, .act .request), (6, .act .check)]).readings = [.unresponsive 0 3] := by decide +kernel

example : dumpFrames 7 (some 1) 42 [(1, c!"a"), (7, c!"b"), (9, c!"c")] =
    [c!"Dumping Python frame for reactor main thread 1 (pid: 42):\na", c!"Dumping Python frame 9 (pid: 42):\nc"] := by decide +kernel

end Txstatsd
