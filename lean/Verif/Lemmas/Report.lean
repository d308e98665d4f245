import Verif.Spec.Report
import Mathlib.Data.List.Induction
import Mathlib.Tactic.Linarith

/-! Lemmas about reporting. -/

set_option linter.unusedSimpArgs false
set_option linter.unusedVariables false

namespace Txstatsd
open Spec

/-! ## The reporting service -/

section
variable {V : Type}

theorem reportMetrics_spec (inst : Str) (bad : Str → V → Bool) : ∀ (ms : List (Str × V)) (calls : List (Str × V)),
    (reportMetrics inst (recorder bad) calls ms).1
        = calls ++ upTo (fun c => bad c.1 c.2) (ms.map fun c => (reportedAs inst c.1, c.2)) ∧
    ((reportMetrics inst (recorder bad) calls ms).2 = none ↔ ∀ c ∈ ms, bad (reportedAs inst c.1) c.2 = false)
  | [], calls => by simp [reportMetrics, upTo]
  | (n, v) :: ms, calls => by
    have hn : (if inst ≠ [] then inst ++ c!"." ++ n else n) = reportedAs inst n := by
      cases inst <;> rfl
    rw [reportMetrics]
    simp only [hn, recorder, List.map_cons, upTo]
    cases hb : bad (reportedAs inst n) v
    · obtain ⟨h1, h2⟩ := reportMetrics_spec inst bad ms (calls ++ [(reportedAs inst n, v)])
      simp only [Bool.false_eq_true, if_false]
      refine ⟨by rw [h1]; simp, by rw [h2]; simp [hb]⟩
    · simp [hb]

theorem wrapperRun_spec (inst : Str) (bad : Str → V → Bool) (calls : List (Str × V)) (x : Except PyErr (Dict V)) :
    (wrapperRun inst (recorder bad) calls x).1 = calls ++ callsOf inst bad x := by
  cases x with
  | error e => simp [wrapperRun, callsOf]
  | ok ms =>
    have h := (reportMetrics_spec inst bad ms calls).1
    rw [wrapperRun, callsOf]
    rcases hr : reportMetrics inst (recorder bad) calls ms with ⟨s, _ | e⟩
    · rw [hr] at h; exact h
    · rw [hr] at h; exact h

theorem wrapperRuns_spec (inst : Str) (bad : Str → V → Bool) : ∀ (xs : List (Except PyErr (Dict V)))
    (calls : List (Str × V)),
    (wrapperRuns inst (recorder bad) calls xs).1 = calls ++ (xs.map (callsOf inst bad)).flatten
  | [], calls => by simp [wrapperRuns]
  | x :: xs, calls => by
    rw [wrapperRuns]
    simp only
    rw [wrapperRuns_spec inst bad xs, wrapperRun_spec]
    simp

end

theorem startTasks_ok : ∀ (ts : List LoopTask), (∀ t ∈ ts, t.running = false) →
    startTasks ts = (ts.map fun t => { t with running := true }, none)
  | [], _ => rfl
  | t :: ts, h => by
    rw [startTasks, if_neg (by simp [h t (by simp)]), startTasks_ok ts fun t ht => h t (by simp [ht])]
    rfl

theorem stopTasks_ok : ∀ (ts : List LoopTask), (∀ t ∈ ts, t.running = true) →
    stopTasks ts = (ts.map fun t => { t with running := false }, none)
  | [], _ => rfl
  | t :: ts, h => by
    rw [stopTasks, if_pos (h t (by simp)), stopTasks_ok ts fun t ht => h t (by simp [ht])]
    rfl

theorem fire_wrapped {t : LoopTask} (h : t.wrapped = true) (raises : Bool) : t.fire raises = t := by
  unfold LoopTask.fire
  rw [if_neg (by simp [h])]

theorem modify_id {α : Type} (f : α → α) : ∀ (l : List α) (i : ℕ), (∀ x ∈ l, f x = x) → l.modify i f = l
  | [], i, _ => by simp
  | x :: l, 0, h => by simp [h x (by simp)]
  | x :: l, i + 1, h => by simp [modify_id f l i fun y hy => h y (by simp [hy])]

theorem svc_run_spec : ∀ (es : List SvcEvent) (s : ReportSvc), ProperHistory s.running es →
    (∀ t ∈ s.tasks, t.wrapped = true ∧ t.running = s.running) →
    (s.run es).2 = [] ∧ ∀ t ∈ (s.run es).1.tasks, t.wrapped = true ∧ t.running = (s.run es).1.running
  | [], s, _, hs => ⟨rfl, hs⟩
  | e :: es, s, hp, hs => by
    have key : ∀ s', s.step e = (s', none) → ProperHistory s'.running es →
        (∀ t ∈ s'.tasks, t.wrapped = true ∧ t.running = s'.running) →
        (s.run (e :: es)).2 = [] ∧
          ∀ t ∈ (s.run (e :: es)).1.tasks, t.wrapped = true ∧ t.running = (s.run (e :: es)).1.running := by
      intro s' h1 h2 h3
      obtain ⟨h4, h5⟩ := svc_run_spec es s' h2 h3
      rw [ReportSvc.run, h1]
      exact ⟨by simpa using h4, h5⟩
    cases e with
    | schedule w r =>
      obtain ⟨rfl, hp⟩ := hp
      refine key { s with tasks := s.tasks ++ [{ wrapped := true, running := s.running }] } ?_ hp ?_
      · unfold ReportSvc.step
        cases hr : s.running <;> simp [LoopTask.fire]
      · intro t ht
        rcases List.mem_append.mp ht with ht | ht
        · exact hs t ht
        · rw [List.mem_singleton] at ht
          subst ht
          exact ⟨rfl, rfl⟩
    | start =>
      obtain ⟨hr, hp⟩ := hp
      refine key { tasks := s.tasks.map fun t => { t with running := true }, running := true } ?_ hp ?_
      · unfold ReportSvc.step
        rw [startTasks_ok _ fun t ht => by rw [(hs t ht).2, hr]]
      · intro t ht
        obtain ⟨t', ht', rfl⟩ := List.mem_map.mp ht
        exact ⟨(hs t' ht').1, rfl⟩
    | stop =>
      obtain ⟨hr, hp⟩ := hp
      refine key { tasks := s.tasks.map fun t => { t with running := false }, running := false } ?_ hp ?_
      · unfold ReportSvc.step
        rw [stopTasks_ok _ fun t ht => by rw [(hs t ht).2, hr]]
      · intro t ht
        obtain ⟨t', ht', rfl⟩ := List.mem_map.mp ht
        exact ⟨(hs t' ht').1, rfl⟩
    | fire i r =>
      refine key s ?_ hp hs
      unfold ReportSvc.step
      simp only
      rw [modify_id _ _ _ fun t ht => fire_wrapped (hs t ht).1 r]

/-! ## The inspector -/

theorem insp_run_append (s : Insp) (a b : List (ℚ × InspAct)) : s.run (a ++ b) = (s.run a).run b := by
  unfold Insp.run
  rw [List.foldl_append]

theorem executed_append (s : Insp) (a b : List (ℚ × InspAct)) :
    executed s (a ++ b) = executed s a ++ executed (s.run a) b := by
  induction a generalizing s with
  | nil => rfl
  | cons e a ih =>
    rw [List.cons_append, executed, executed, ih, List.append_assoc]
    rfl

/-- What holds of the inspector after the events. -/
structure InspInv (t0 : ℚ) (evs : List (ℚ × InspAct)) (s : Insp) : Prop where
  alive : s.failed = false
  pend : ∀ p ∈ s.pending, (p.2, InspAct.request) ∈ evs ∧ p.1 ≤ s.msgId ∧ (s.phase = .idle → p.1 < s.msgId)
  que : ∀ q ∈ s.queue, q ∈ executed { oldest := t0 } evs ∧ q.1 ≤ s.msgId ∧ (s.phase = .idle → q.1 < s.msgId)
  exe : ∀ q ∈ executed { oldest := t0 } evs, (q.2.1, InspAct.request) ∈ evs
  oks : ∀ id d, InspEntry.ok id d ∈ s.log → ∃ t ts, (id, t, ts) ∈ executed { oldest := t0 } evs ∧ d = ts - t
  lates : ∀ c g d, InspEntry.late c g d ∈ s.log → g < c ∧
    ∃ t ts, (g, t, ts) ∈ executed { oldest := t0 } evs ∧ d = ts - t
  count : s.log.length = s.msgId + (if s.phase = .cleaning then 1 else 0)

theorem insp_inv (t0 : ℚ) (evs : List (ℚ × InspAct)) : InspInv t0 evs (({ oldest := t0 } : Insp).run evs) := by
  induction evs using List.reverseRecOn with
  | nil =>
    refine ⟨rfl, ?_, ?_, ?_, ?_, ?_, rfl⟩ <;> simp [Insp.run, executed]
  | append_singleton evs e ih =>
    rw [insp_run_append]
    set s := ({ oldest := t0 } : Insp).run evs with hs
    have hex : executed { oldest := t0 } (evs ++ [e]) = executed { oldest := t0 } evs ++ executes s e.1 e.2 := by
      rw [executed_append, ← hs]
      simp [executed]
    have hrun : s.run [e] = s.step e.1 e.2 := rfl
    rw [hrun]
    -- facts that survive
    have hpend : ∀ p ∈ s.pending, (p.2, InspAct.request) ∈ evs ++ [e] := fun p hp => by
      simp [(ih.pend p hp).1]
    have hexe' : ∀ q ∈ executed { oldest := t0 } (evs ++ [e]), (q.2.1, InspAct.request) ∈ evs ++ [e] := by
      intro q hq
      rw [hex, List.mem_append] at hq
      rcases hq with hq | hq
      · simp [ih.exe q hq]
      · obtain ⟨now, act⟩ := e
        cases act with
        | exec i =>
          simp only [executes, List.mem_map, Option.mem_toList] at hq
          obtain ⟨p, hp, rfl⟩ := hq
          exact hpend p (List.mem_of_getElem? hp)
        | _ => simp [executes] at hq
    have hmono : ∀ q, q ∈ executed { oldest := t0 } evs → q ∈ executed { oldest := t0 } (evs ++ [e]) := by
      intro q hq; rw [hex]; simp [hq]
    have hoks : ∀ id d, InspEntry.ok id d ∈ s.log → ∃ t ts,
        (id, t, ts) ∈ executed { oldest := t0 } (evs ++ [e]) ∧ d = ts - t := by
      intro id d h
      obtain ⟨t, ts, h1, h2⟩ := ih.oks id d h
      exact ⟨t, ts, hmono _ h1, h2⟩
    have hlates : ∀ c g d, InspEntry.late c g d ∈ s.log → g < c ∧
        ∃ t ts, (g, t, ts) ∈ executed { oldest := t0 } (evs ++ [e]) ∧ d = ts - t := by
      intro c g d h
      obtain ⟨h0, t, ts, h1, h2⟩ := ih.lates c g d h
      exact ⟨h0, t, ts, hmono _ h1, h2⟩
    have hstay : InspInv t0 (evs ++ [e]) s :=
      ⟨ih.alive, fun p hp => ⟨hpend p hp, (ih.pend p hp).2⟩, fun q hq => ⟨hmono q (ih.que q hq).1, (ih.que q hq).2⟩,
        hexe', hoks, hlates, ih.count⟩
    obtain ⟨now, act⟩ := e
    cases act with
    | exec i =>
      simp only [Insp.step, Insp.exec]
      split
      · exact hstay
      · rename_i id tini hi
        have hmem := List.mem_of_getElem? hi
        refine ⟨ih.alive, fun p hp => ?_, fun q hq => ?_, hexe', hoks, hlates, ih.count⟩
        · have hp' := List.mem_of_mem_eraseIdx hp
          exact ⟨hpend p hp', (ih.pend p hp').2⟩
        · rcases List.mem_append.mp hq with hq | hq
          · exact ⟨hmono q (ih.que q hq).1, (ih.que q hq).2⟩
          · rw [List.mem_singleton] at hq
            subst hq
            refine ⟨?_, (ih.pend _ hmem).2⟩
            rw [hex]
            simp [executes, hi]
    | request =>
      simp only [Insp.step]
      split
      · rename_i hc
        refine ⟨ih.alive, fun p hp => ?_, fun q hq => ⟨hmono q (ih.que q hq).1, (ih.que q hq).2.1, by simp⟩,
          hexe', hoks, hlates, ?_⟩
        · rcases List.mem_append.mp hp with hp | hp
          · exact ⟨hpend p hp, (ih.pend p hp).2.1, by simp⟩
          · rw [List.mem_singleton] at hp
            subst hp
            exact ⟨by simp, le_refl _, by simp⟩
        · have := ih.count
          rw [hc.2] at this
          simpa using this
      · exact hstay
    | check =>
      simp only [Insp.step]
      split
      · rename_i hc
        have hcount := ih.count
        rw [hc.2] at hcount
        simp at hcount
        unfold Insp.check
        split
        · refine ⟨ih.alive, fun p hp => ⟨hpend p hp, ?_, fun _ => ?_⟩, fun q hq => ?_, hexe', ?_, ?_, ?_⟩
          · have := (ih.pend p hp).2.1
            simp only
            omega
          · have := (ih.pend p hp).2.1
            simp only
            omega
          · rename_i hq0
            simp only [hq0] at hq
            simp at hq
          · intro id d h
            simp at h
            exact hoks id d h
          · intro c g d h
            simp at h
            exact hlates c g d h
          · simp [hcount]
        · rename_i id tini tsent rest hq
          have hq1 := ih.que (id, tini, tsent) (by rw [hq]; simp)
          have hrest : ∀ q ∈ rest, q ∈ s.queue := fun q h => by rw [hq]; simp [h]
          split
          · rename_i hlt
            refine ⟨ih.alive, fun p hp => ⟨hpend p hp, (ih.pend p hp).2.1, by simp⟩,
              fun q hq' => ⟨hmono q (ih.que q (hrest q hq')).1, (ih.que q (hrest q hq')).2.1, by simp⟩, hexe', ?_, ?_, ?_⟩
            · intro id' d h
              simp at h
              exact hoks id' d h
            · intro c g d h
              simp only [List.mem_append, List.mem_singleton, InspEntry.late.injEq] at h
              rcases h with h | ⟨rfl, rfl, rfl⟩
              · exact hlates c g d h
              · exact ⟨hlt, tini, tsent, hmono _ hq1.1, rfl⟩
            · simp [hcount]
          · rename_i hnlt
            split
            · rename_i heq
              refine ⟨ih.alive, fun p hp => ⟨hpend p hp, ?_, fun _ => ?_⟩,
                fun q hq' => ⟨hmono q (ih.que q (hrest q hq')).1, ?_, fun _ => ?_⟩, hexe', ?_, ?_, ?_⟩
              · have := (ih.pend p hp).2.1
                simp only
                omega
              · have := (ih.pend p hp).2.1
                simp only
                omega
              · have := (ih.que q (hrest q hq')).2.1
                simp only
                omega
              · have := (ih.que q (hrest q hq')).2.1
                simp only
                omega
              · intro id' d h
                simp only [List.mem_append, List.mem_singleton, InspEntry.ok.injEq] at h
                rcases h with h | ⟨rfl, rfl⟩
                · exact hoks id' d h
                · exact ⟨tini, tsent, hmono _ hq1.1, rfl⟩
              · intro c g d h
                simp at h
                exact hlates c g d h
              · simp [hcount]
            · rename_i hne
              have := hq1.2.1
              simp only at this
              omega
      · exact hstay
    | clean =>
      simp only [Insp.step]
      split
      · rename_i hc
        have hcount := ih.count
        rw [hc.2] at hcount
        simp at hcount
        unfold Insp.clean
        split
        · refine ⟨ih.alive, fun p hp => ⟨hpend p hp, ?_, fun _ => ?_⟩, fun q hq => ?_, hexe', hoks, hlates, ?_⟩
          · have := (ih.pend p hp).2.1
            simp only
            omega
          · have := (ih.pend p hp).2.1
            simp only
            omega
          · rename_i hq0
            simp only [hq0] at hq
            simp at hq
          · simp [hcount]
        · rename_i x rest hq
          have hrest : ∀ q ∈ rest, q ∈ s.queue := fun q h => by rw [hq]; simp [h]
          refine ⟨ih.alive, fun p hp => ⟨hpend p hp, (ih.pend p hp).2⟩,
            fun q hq' => ⟨hmono q (ih.que q (hrest q hq')).1, (ih.que q (hrest q hq')).2⟩, hexe', hoks, hlates, ?_⟩
          rw [hc.2]
          simpa using hcount
      · exact hstay

/-- What holds if the reactor executes in order, the clock does not go back and no answer was late. -/
structure AgeInv (now : ℚ) (s : Insp) : Prop where
  alive : s.failed = false
  phase : s.phase ≠ .cleaning
  past : s.oldest ≤ now
  pend : ∀ p ∈ s.pending, s.oldest ≤ p.2
  ids : (s.queue.map (·.1) ++ s.pending.map (·.1)).Pairwise (· < ·)
  top : ∀ i ∈ s.queue.map (·.1) ++ s.pending.map (·.1), i ≤ s.msgId ∧ (s.phase = .idle → i < s.msgId)

theorem age_step {now t : ℚ} {s : Insp} {a : InspAct} (h : AgeInv now s) (ht : now ≤ t)
    (hf : ∀ i, a = .exec i → i = 0) (hl : ∀ x ∈ (s.step t a).log, ¬ IsLate x) : AgeInv t (s.step t a) := by
  have hstay : AgeInv t s := ⟨h.alive, h.phase, le_trans h.past ht, h.pend, h.ids, h.top⟩
  cases a with
  | exec i =>
    have := hf i rfl
    subst this
    simp only [Insp.step, Insp.exec]
    cases hp : s.pending with
    | nil => simpa using hstay
    | cons p ps =>
      simp only [List.getElem?_cons_zero, List.eraseIdx_cons_zero]
      have hids := h.ids
      have htop := h.top
      rw [hp] at hids htop
      refine ⟨h.alive, h.phase, le_trans h.past ht, fun q hq => h.pend q (by rw [hp]; simp [hq]), ?_, ?_⟩
      · simpa using hids
      · intro i hi
        refine htop i ?_
        simpa using hi
  | request =>
    simp only [Insp.step]
    split
    · rename_i hc
      refine ⟨h.alive, by simp, le_trans h.past ht, ?_, ?_, ?_⟩
      · intro p hp
        rcases List.mem_append.mp hp with hp | hp
        · exact h.pend p hp
        · rw [List.mem_singleton] at hp
          subst hp
          exact le_trans h.past ht
      · simp only [List.map_append, List.map_cons, List.map_nil, ← List.append_assoc]
        rw [List.pairwise_append]
        refine ⟨h.ids, by simp, fun a ha b hb => ?_⟩
        rw [List.mem_singleton] at hb
        subst hb
        exact (h.top a ha).2 hc.2
      · intro i hi
        simp only [List.map_append, List.map_cons, List.map_nil, ← List.append_assoc] at hi
        rcases List.mem_append.mp hi with hi | hi
        · exact ⟨(h.top i hi).1, by simp⟩
        · rw [List.mem_singleton] at hi
          subst hi
          exact ⟨le_refl _, by simp⟩
    · exact hstay
  | check =>
    simp only [Insp.step] at hl ⊢
    split
    · rename_i hc
      rw [if_pos hc] at hl
      unfold Insp.check at hl ⊢
      split
      · rename_i hq
        refine ⟨h.alive, by simp, le_trans h.past ht, h.pend, ?_, ?_⟩
        · simpa [hq] using h.ids
        · intro i hi
          have := (h.top i (by simpa [hq] using hi)).1
          simp only
          exact ⟨by omega, fun _ => by omega⟩
      · rename_i id tini tsent rest hq
        simp only [hq] at hl
        split
        · rename_i hlt
          rw [if_pos hlt] at hl
          exact absurd trivial (hl (.late s.msgId id (tsent - tini)) (by simp))
        · split
          · rename_i heq
            -- the head of the queue is the last request: nothing else is outstanding
            have hids := h.ids
            have htop := h.top
            rw [hq] at hids htop
            simp only [List.map_cons, List.cons_append, List.pairwise_cons] at hids htop
            have hnone : rest.map (·.1) ++ s.pending.map (·.1) = [] := by
              rw [List.eq_nil_iff_forall_not_mem]
              intro i hi
              have h1 := hids.1 i hi
              have h2 := (htop i (List.mem_cons_of_mem _ hi)).1
              omega
            rw [List.append_eq_nil_iff, List.map_eq_nil_iff, List.map_eq_nil_iff] at hnone
            refine ⟨h.alive, by simp, le_refl _, ?_, ?_, ?_⟩
            · simp [hnone.2]
            · simp [hnone.1, hnone.2]
            · simp [hnone.1, hnone.2]
          · rename_i hnlt hne
            have h1 := (h.top id (by rw [hq]; simp)).1
            omega
    · exact hstay
  | clean =>
    simp only [Insp.step]
    rw [if_neg (fun hc => h.phase hc.2)]
    exact hstay

theorem log_step_mono (s : Insp) (t : ℚ) (a : InspAct) : ∃ l, (s.step t a).log = s.log ++ l := by
  cases a with
  | exec i =>
    simp only [Insp.step, Insp.exec]
    split
    · exact ⟨[], by simp⟩
    · exact ⟨[], by simp⟩
  | request => simp only [Insp.step]; split <;> exact ⟨[], by simp⟩
  | check =>
    simp only [Insp.step]
    split
    · unfold Insp.check
      split
      · exact ⟨_, rfl⟩
      · split
        · exact ⟨_, rfl⟩
        · split
          · exact ⟨_, rfl⟩
          · exact ⟨[], by simp⟩
    · exact ⟨[], by simp⟩
  | clean =>
    simp only [Insp.step]
    split
    · unfold Insp.clean
      split <;> exact ⟨[], by simp⟩
    · exact ⟨[], by simp⟩

theorem log_run_mono : ∀ (evs : List (ℚ × InspAct)) (s : Insp), ∃ l, (s.run evs).log = s.log ++ l
  | [], s => ⟨[], by simp [Insp.run]⟩
  | e :: evs, s => by
    obtain ⟨l1, h1⟩ := log_step_mono s e.1 e.2
    obtain ⟨l2, h2⟩ := log_run_mono evs (s.step e.1 e.2)
    refine ⟨l1 ++ l2, ?_⟩
    rw [show s.run (e :: evs) = (s.step e.1 e.2).run evs from rfl, h2, h1, List.append_assoc]

theorem age_run : ∀ (evs : List (ℚ × InspAct)) {now : ℚ} {s : Insp}, AgeInv now s →
    List.IsChain (· ≤ ·) (now :: evs.map (·.1)) → Fifo evs → (∀ x ∈ (s.run evs).log, ¬ IsLate x) →
    AgeInv ((now :: evs.map (·.1)).getLast (by simp)) (s.run evs)
  | [], now, s, h, _, _, _ => h
  | e :: evs, now, s, h, hc, hf, hl => by
    rw [List.map_cons, List.isChain_cons_cons] at hc
    have hrun : s.run (e :: evs) = (s.step e.1 e.2).run evs := rfl
    rw [hrun] at hl ⊢
    have h1 := age_step h hc.1 (hf e (by simp)) fun x hx => by
      obtain ⟨l, hl'⟩ := log_run_mono evs (s.step e.1 e.2)
      exact hl x (by rw [hl']; simp [hx])
    exact age_run evs h1 hc.2 (fun e' he => hf e' (by simp [he])) hl

end Txstatsd
