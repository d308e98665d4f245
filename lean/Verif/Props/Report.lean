import Verif.Lemmas.Report

/-!
# C74, C75, C90, C91: reporting
-/

set_option linter.unusedVariables false

namespace Txstatsd
open Spec

/-! ## C74: the inspector's bookkeeping -/

/-- C74: whatever the reactor does and whenever, the assertion never fails. -/
theorem C74_assertion (t0 : ℚ) (evs : List (ℚ × InspAct)) :
    (({ oldest := t0 } : Insp).run evs).failed = false := (insp_inv t0 evs).alive

/-- C74: `ok` is logged only for a probe the reactor executed, with the time that took since its request. -/
theorem C74_ok (t0 : ℚ) (evs : List (ℚ × InspAct)) (id : ℕ) (d : ℚ)
    (h : .ok id d ∈ (({ oldest := t0 } : Insp).run evs).log) :
    ∃ t ts, (id, t, ts) ∈ executed { oldest := t0 } evs ∧ (t, .request) ∈ evs ∧ d = ts - t := by
  obtain ⟨t, ts, h1, h2⟩ := (insp_inv t0 evs).oks id d h
  exact ⟨t, ts, h1, (insp_inv t0 evs).exe _ h1, h2⟩

/-- C74: likewise a late answer, which is one to an earlier probe than the current. -/
theorem C74_late (t0 : ℚ) (evs : List (ℚ × InspAct)) (c g : ℕ) (d : ℚ)
    (h : .late c g d ∈ (({ oldest := t0 } : Insp).run evs).log) :
    g < c ∧ ∃ t ts, (g, t, ts) ∈ executed { oldest := t0 } evs ∧ (t, .request) ∈ evs ∧ d = ts - t := by
  obtain ⟨h0, t, ts, h1, h2⟩ := (insp_inv t0 evs).lates c g d h
  exact ⟨h0, t, ts, h1, (insp_inv t0 evs).exe _ h1, h2⟩

/-- C74: each round of the loop logs one line and sets the gauge once. -/
theorem C74_one_per_round (t0 : ℚ) (evs : List (ℚ × InspAct))
    (h : (({ oldest := t0 } : Insp).run evs).phase ≠ .cleaning) :
    (({ oldest := t0 } : Insp).run evs).log.length = (({ oldest := t0 } : Insp).run evs).msgId := by
  have := (insp_inv t0 evs).count
  rw [if_neg h] at this
  exact this

/-- The reactor blocks for a while, then catches up. -/
def exInspection : List (ℚ × InspAct) :=
  [(0, .request), (1, .exec 0), (3, .check), (3, .request), (6, .check), (6, .request), (7, .exec 0), (9, .check),
   (9, .clean), (9, .request)]

example : (({ oldest := 0 } : Insp).run exInspection).log
    = [.ok 0 1, .unresponsive 1 3, .late 2 1 4] := by decide +kernel

/-! ## C90: the delay of an unresponsive reactor -/

/-- C90 (partial): as long as no answer was late, with probes executed in order and a clock that does not go
back, an inspector that finds the queue empty logs a delay at least the age of every outstanding probe. Missing
for the full claim (`C90_refuted`): the same after a late answer. -/
theorem C90_delay_partial (t0 t : ℚ) (evs : List (ℚ × InspAct)) (hc : List.IsChain (· ≤ ·) (t0 :: evs.map (·.1)))
    (hf : Fifo evs) (hl : ∀ x ∈ (({ oldest := t0 } : Insp).run evs).log, ¬ IsLate x)
    (hq : (({ oldest := t0 } : Insp).run evs).queue = [])
    (hp : (({ oldest := t0 } : Insp).run evs).phase = .asleep) :
    ∃ id d, (({ oldest := t0 } : Insp).run (evs ++ [(t, .check)])).log
        = (({ oldest := t0 } : Insp).run evs).log ++ [.unresponsive id d] ∧
      ∀ p ∈ (({ oldest := t0 } : Insp).run evs).pending, t - p.2 ≤ d := by
  have hinv := age_run evs (now := t0) (s := { oldest := t0 })
    ⟨rfl, by simp, le_refl _, by simp, by simp, by simp⟩ hc hf hl
  refine ⟨(({ oldest := t0 } : Insp).run evs).msgId, t - (({ oldest := t0 } : Insp).run evs).oldest, ?_,
    fun p hpm => ?_⟩
  · rw [insp_run_append]
    show ((({ oldest := t0 } : Insp).run evs).step t .check).log = _
    rw [Insp.step, if_pos ⟨hinv.alive, hp⟩]
    unfold Insp.check
    rw [hq]
  · have := hinv.pend p hpm
    linarith

/-- C90, refuted: after a late answer the delay is counted from the time of the check, although the current
probe is still outstanding: at time 9 the inspector says 3, while a probe has been waiting for 6. -/
theorem C90_refuted : ¬ ∀ (t0 t : ℚ) (evs : List (ℚ × InspAct)), List.IsChain (· ≤ ·) (t0 :: evs.map (·.1)) → Fifo evs →
    ∀ id d, (({ oldest := t0 } : Insp).run (evs ++ [(t, .check)])).log
        = (({ oldest := t0 } : Insp).run evs).log ++ [.unresponsive id d] →
      ∀ p ∈ (({ oldest := t0 } : Insp).run evs).pending, t - p.2 ≤ d := by
  intro h
  have := h 0 9 [(0, .request), (3, .check), (3, .request), (4, .exec 0), (6, .check), (6, .clean), (6, .request)]
    (by decide +kernel) (by
      intro e he i hi
      simp only [List.mem_cons, List.not_mem_nil, or_false] at he
      rcases he with rfl | rfl | rfl | rfl | rfl | rfl | rfl <;> simp_all) 2 3 (by decide +kernel) (1, 3)
    (by decide +kernel)
  norm_num at this

example : (({ oldest := 0 } : Insp).run [(0, .request), (3, .check), (3, .request), (6, .check)]).log
    = [.unresponsive 0 3, .unresponsive 1 6] := by decide +kernel

/-! ## C75: the reporting service -/

section
variable {V : Type}

/-- C75: over any sequence of outcomes of the wrapped function, the report function is called with exactly the
metrics of the successful ones, in order, under the instance name if set - in each run up to a call that
raises. -/
theorem C75_calls (inst : Str) (bad : Str → V → Bool) (xs : List (Except PyErr (Dict V))) :
    (wrapperRuns inst (recorder bad) [] xs).1 = (xs.map (callsOf inst bad)).flatten := by
  rw [wrapperRuns_spec]
  simp

/-- C75: with a report function that does not raise, each metric is reported exactly once. -/
theorem C75_each_once (inst : Str) (xs : List (Except PyErr (Dict V))) :
    (wrapperRuns inst (recorder fun _ _ => false) [] xs).1
      = (xs.map fun x => match x with
          | .error _ => []
          | .ok metrics => metrics.map fun c => (reportedAs inst c.1, c.2)).flatten := by
  rw [C75_calls]
  congr 1
  refine List.map_congr_left fun x _ => ?_
  cases x with
  | error e => rfl
  | ok ms =>
    rw [callsOf]
    have : ∀ l : List (Str × V), upTo (fun c => (fun _ _ => false : Str → V → Bool) c.1 c.2) l = l := by
      intro l
      induction l with
      | nil => rfl
      | cons a l ih => rw [upTo]; simpa using ih
    exact this _

/-- C75: a failing source reports nothing and does not change what the later runs report. -/
theorem C75_failure (inst : Str) (bad : Str → V → Bool) (a b : List (Except PyErr (Dict V))) (e : PyErr) :
    (wrapperRuns inst (recorder bad) [] (a ++ .error e :: b)).1 = (wrapperRuns inst (recorder bad) [] (a ++ b)).1 := by
  rw [C75_calls, C75_calls]
  simp [callsOf]

end

example : (wrapperRuns c!"host" (recorder fun n _ => n == c!"host.b") []
      [.ok [(c!"a", 1), (c!"b", 2), (c!"c", 3)], .error .valueError, .ok [(c!"c", 4)]])
    = ([(c!"host.a", 1), (c!"host.b", 2), (c!"host.c", 4)], [true, true, false]) := by decide

/-! ## C91: stopping the service -/

/-- C91 (partial): a service whose tasks all have report functions, started and stopped in turn, never fails,
and all its tasks run exactly while it runs. Missing for the full claim (`C91_refuted`): tasks scheduled without
a report function. -/
theorem C91_stop_partial (es : List SvcEvent) (h : ProperHistory false es) :
    (({} : ReportSvc).run es).2 = [] ∧
      ∀ t ∈ (({} : ReportSvc).run es).1.tasks, t.running = (({} : ReportSvc).run es).1.running := by
  obtain ⟨h1, h2⟩ := svc_run_spec es {} h (by simp)
  exact ⟨h1, fun t ht => (h2 t ht).2⟩

/-- C91, refuted: after a function scheduled without a report function has raised, stopping the service fails
and leaves the other tasks running. -/
theorem C91_refuted : ¬ ∀ es, InTurn false (es ++ [.stop]) →
    (({} : ReportSvc).run (es ++ [.stop])).2 = [] ∧
      ∀ t ∈ (({} : ReportSvc).run (es ++ [.stop])).1.tasks, t.running = false := by
  intro h
  have := (h [.schedule false false, .schedule true false, .start, .fire 0 true] (by simp [InTurn])).1
  revert this
  decide

theorem stopTasks_split (before after : List LoopTask) (t : LoopTask) (hb : ∀ x ∈ before, x.running = true) (ht : t.running = false) :
    stopTasks (before ++ t :: after) = (before.map (fun x => { x with running := false }) ++ t :: after, some .assertionError) := by
  induction before with
  | nil => simp [stopTasks, ht]
  | cons x before ih => simp [stopTasks, hb x (by simp), ih fun y hy => hb y (by simp [hy])]

theorem startTasks_split (before after : List LoopTask) (t : LoopTask) (hb : ∀ x ∈ before, x.running = false) (ht : t.running = true) :
    startTasks (before ++ t :: after) = (before.map (fun x => { x with running := true }) ++ t :: after, some .assertionError) := by
  induction before with
  | nil => simp [startTasks, ht]
  | cons x before ih => simp [startTasks, hb x (by simp), ih fun y hy => hb y (by simp [hy])]

/-- C91: stopping a service gives up at the first task that is not running: those before it are stopped, the others are left as they
are, and the service counts as running. -/
theorem C91_stop_aborts (s : ReportSvc) (before after : List LoopTask) (t : LoopTask) (hs : s.tasks = before ++ t :: after)
    (hb : ∀ x ∈ before, x.running = true) (ht : t.running = false) :
    s.step .stop = ({ tasks := before.map (fun x => { x with running := false }) ++ t :: after, running := s.running }, some .assertionError) := by
  simp only [ReportSvc.step, hs, stopTasks_split before after t hb ht]

/-- C91: starting a service gives up at the first task that is running already; the service counts as running. -/
theorem C91_start_aborts (s : ReportSvc) (before after : List LoopTask) (t : LoopTask) (hs : s.tasks = before ++ t :: after)
    (hb : ∀ x ∈ before, x.running = false) (ht : t.running = true) :
    s.step .start = ({ tasks := before.map (fun x => { x with running := true }) ++ t :: after, running := true }, some .assertionError) := by
  simp only [ReportSvc.step, hs, startTasks_split before after t hb ht]

example : ({ tasks := [⟨true, true⟩, ⟨false, false⟩, ⟨true, true⟩], running := true } : ReportSvc).step .stop
    = ({ tasks := [⟨true, false⟩, ⟨false, false⟩, ⟨true, true⟩], running := true }, some .assertionError) := by decide

/-- C91: the state after that. -/
theorem C91_left_running :
    ({} : ReportSvc).run [.schedule false false, .schedule true false, .start, .fire 0 true, .stop]
      = ({ tasks := [⟨false, false⟩, ⟨true, true⟩], running := true }, [.assertionError]) := by decide

example : ProperHistory false [.schedule true false, .start, .fire 0 true, .schedule true true, .stop] := by
  simp [ProperHistory]

end Txstatsd
