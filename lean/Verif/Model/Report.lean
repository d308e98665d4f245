import Verif.Model.Base
import Mathlib.Data.Rat.Defs
import Mathlib.Algebra.Order.Ring.Rat

/-!
# Reporting (report.py)
-/

namespace Txstatsd

/-! ## The reporting service -/

section
variable {S V : Type}

/-- `report_metrics` (report.py:66-72): one call of the report function per metric, until one raises. -/
def reportMetrics (inst : Str) (report : S → Str → V → S × Option PyErr) (s : S) : List (Str × V) → S × Option PyErr
  | [] => (s, none)
  | (name, value) :: rest =>
    let name := if inst ≠ [] then inst ++ c!"." ++ name else name
    match report s name value with
    | (s, some e) => (s, some e)
    | (s, none) => reportMetrics inst report s rest

/-- `wrapper` (report.py:74-82) given the outcome of the wrapped function; the flag says whether a failure was
logged. The wrapper itself does not raise. -/
def wrapperRun (inst : Str) (report : S → Str → V → S × Option PyErr) (s : S) :
    Except PyErr (Dict V) → S × Bool
  | .error _ => (s, true)
  | .ok metrics =>
    match reportMetrics inst report s metrics with
    | (s, none) => (s, false)
    | (s, some _) => (s, true)

/-- Successive runs of the wrapper (report.py:75-81). -/
def wrapperRuns (inst : Str) (report : S → Str → V → S × Option PyErr) (s : S) :
    List (Except PyErr (Dict V)) → S × List Bool
  | [] => (s, [])
  | x :: xs =>
    let (s, b) := wrapperRun inst report s x
    let (s, bs) := wrapperRuns inst report s xs
    (s, b :: bs)

end

/-- A scheduled task (report.py:46-63): whether it was given a report function, and whether its
`LoopingCall` is running. -/
structure LoopTask where
  wrapped : Bool
  running : Bool := false
  deriving DecidableEq

/-- `ReportingService`: its tasks and `Service.running` (report.py:41-44). -/
structure ReportSvc where
  tasks : List LoopTask := []
  running : Bool := false
  deriving DecidableEq

/-- `task.start(interval, …)` of every task (report.py:86-87): a running one fails its assertion. -/
def startTasks : List LoopTask → List LoopTask × Option PyErr
  | [] => ([], none)
  | t :: ts =>
    if t.running then (t :: ts, some .assertionError)
    else match startTasks ts with
      | (ts, e) => ({ t with running := true } :: ts, e)

/-- `task.stop()` of every task (report.py:90-91): one that is not running fails its assertion. -/
def stopTasks : List LoopTask → List LoopTask × Option PyErr
  | [] => ([], none)
  | t :: ts =>
    if t.running then
      match stopTasks ts with
      | (ts, e) => ({ t with running := false } :: ts, e)
    else (t :: ts, some .assertionError)

/-- What happens to the service: a task is scheduled (whose first, immediate run raises or not), the service
starts or stops, or the `i`-th task runs, its function raising or not (report.py:46-63, 84-92). -/
inductive SvcEvent
  | schedule (wrapped : Bool) (raises : Bool)
  | start
  | stop
  | fire (i : ℕ) (raises : Bool)
  deriving DecidableEq

/-- A run of a `LoopingCall`: an exception that leaves the call stops the loop; a wrapped one lets none out
(report.py:58-63, 87). -/
def LoopTask.fire (t : LoopTask) (raises : Bool) : LoopTask :=
  if t.running ∧ raises = true ∧ t.wrapped = false then { t with running := false } else t

/-- `schedule` (report.py:46-63), `startService` (84-87), `stopService` (89-92), and the runs of the tasks. -/
def ReportSvc.step (s : ReportSvc) : SvcEvent → ReportSvc × Option PyErr
  | .schedule wrapped raises =>
    let t : LoopTask := { wrapped }
    let t := if s.running then ({ t with running := true } : LoopTask).fire raises else t
    ({ s with tasks := s.tasks ++ [t] }, none)
  | .start =>
    match startTasks s.tasks with
    | (ts, e) => ({ tasks := ts, running := true }, e)
  | .stop =>
    match stopTasks s.tasks with
    | (ts, none) => ({ tasks := ts, running := false }, none)
    | (ts, some e) => ({ s with tasks := ts }, some e)
  | .fire i raises => ({ s with tasks := s.tasks.modify i (·.fire raises) }, none)

/-- The service after some events, with the errors on the way (report.py:46-63, 84-92). -/
def ReportSvc.run (s : ReportSvc) : List SvcEvent → ReportSvc × List PyErr
  | [] => (s, [])
  | e :: es =>
    let (s, x) := s.step e
    let (s, xs) := s.run es
    (s, x.toList ++ xs)

/-! ## The reactor inspector -/

/-- A line of the inspector's log (report.py:155-183), each with its gauge value. Times are rationals, their
differences exact. -/
inductive InspEntry
  | unresponsive (current : ℕ) (delay : ℚ)
  | late (current got : ℕ) (delay : ℚ)
  | ok (id : ℕ) (delay : ℚ)
  deriving DecidableEq

/-- Where the inspector's thread is in its loop (report.py:146-186): before the request, asleep after it, or
emptying the queue. -/
inductive InspPhase
  | idle
  | asleep
  | cleaning
  deriving DecidableEq

/-- The inspector (report.py:95-186): the local variables of `run`, the probes the reactor has not executed yet,
the queue of answers, the log, and whether the assertion failed. -/
structure Insp where
  phase : InspPhase := .idle
  msgId : ℕ := 0
  oldest : ℚ
  lastResponsive : ℚ := 0
  pending : List (ℕ × ℚ) := []
  queue : List (ℕ × ℚ × ℚ) := []
  log : List InspEntry := []
  failed : Bool := false
  deriving DecidableEq

/-- What happens: the inspector's thread requests a probe, wakes up and checks, or takes one more step of the
emptying loop; or the reactor executes the `i`-th outstanding probe (the reactor works in another thread)
(report.py:146-186). -/
inductive InspAct
  | request
  | check
  | clean
  | exec (i : ℕ)
  deriving DecidableEq

/-- The reactor executes a probe (report.py:147-149). -/
def Insp.exec (s : Insp) (now : ℚ) (i : ℕ) : Insp :=
  match s.pending[i]? with
  | none => s
  | some (id, tini) => { s with pending := s.pending.eraseIdx i, queue := s.queue ++ [(id, tini, now)] }

/-- The thread wakes up (report.py:151-186). A failed assertion ends the thread (`failed`). -/
def Insp.check (s : Insp) (now : ℚ) : Insp :=
  match s.queue with
  | [] =>
    { s with log := s.log ++ [.unresponsive s.msgId (now - s.oldest)], phase := .idle, msgId := s.msgId + 1 }
  | (id, tini, tsent) :: rest =>
    if s.msgId > id then
      { s with queue := rest, log := s.log ++ [.late s.msgId id (tsent - tini)], phase := .cleaning }
    else if s.msgId = id then
      { s with queue := rest, log := s.log ++ [.ok id (tsent - tini)], phase := .idle, msgId := s.msgId + 1,
               oldest := now, lastResponsive := now }
    else { s with queue := rest, failed := true }

/-- A step of the emptying loop (report.py:171-174). -/
def Insp.clean (s : Insp) (now : ℚ) : Insp :=
  match s.queue with
  | [] => { s with oldest := now, phase := .idle, msgId := s.msgId + 1 }
  | _ :: rest => { s with queue := rest }

/-- One event at a time; an act of the thread that does not fit its place in the loop does not happen (report.py:146-186). -/
def Insp.step (s : Insp) (now : ℚ) : InspAct → Insp
  | .exec i => s.exec now i
  | .request =>
    if s.failed = false ∧ s.phase = .idle then { s with pending := s.pending ++ [(s.msgId, now)], phase := .asleep } else s
  | .check => if s.failed = false ∧ s.phase = .asleep then s.check now else s
  | .clean => if s.failed = false ∧ s.phase = .cleaning then s.clean now else s

/-- A run of the two threads (report.py:141-186). -/
def Insp.run (s : Insp) (evs : List (ℚ × InspAct)) : Insp := evs.foldl (fun s e => s.step e.1 e.2) s

end Txstatsd
