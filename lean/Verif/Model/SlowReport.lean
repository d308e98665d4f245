import Verif.Model.FlushTask
import Verif.Model.System

/-!
# Reports that take their time (report.py:41-92)

A scheduled function may return a Deferred. `wrapped` (report.py:74-82) waits for its result and returns the Deferred, so that the
`LoopingCall` waits as well before it plans its next call.
-/

namespace Txstatsd
variable [Rounding]

/-- A task of a `ReportingService` (report.py:58-63): whether its `LoopingCall` runs and since when; the calls planned with the reactor,
each with a number and a time; the number of the one that the loop knows of; how many were planned so far; how many calls of the function
are waiting for a result; when it was called; what was reported; and how many failures were logged. -/
structure SlowTask where
  running : Bool := false
  startTime : ℚ := 0
  planned : List (ℕ × ℚ) := []
  known : Option ℕ := none
  count : ℕ := 0
  waiting : ℕ := 0
  made : List ℚ := []
  reported : List (Dict Num) := []
  logged : ℕ := 0

/-- The next call is planned (`LoopingCall._reschedule`) (for the loop of report.py:58, 87). -/
def SlowTask.plan (p : ℤ) (t : SlowTask) (now : ℚ) : SlowTask :=
  { t with planned := t.planned ++ [(t.count, nextCall t.startTime p now)], known := some t.count, count := t.count + 1 }

/-- A result is there: it is reported, or a failure is logged, and then the loop goes on if it runs (report.py:66-82). -/
def SlowTask.finish (p : ℤ) (t : SlowTask) (now : ℚ) (res : Except PyErr (Dict Num)) : SlowTask :=
  let t := match res with
    | .ok d => { t with reported := t.reported ++ [d] }
    | .error _ => { t with logged := t.logged + 1 }
  if t.running then t.plan p now else t

/-- The function is called (report.py:76-82); `f n` is what it returns the n-th time, nothing if the result comes later. -/
def SlowTask.call (p : ℤ) (f : ℕ → Option (Except PyErr (Dict Num))) (t : SlowTask) (now : ℚ) : SlowTask :=
  let n := t.made.length
  let t := { t with made := t.made ++ [now], known := none }
  match f n with
  | some res => t.finish p now res
  | none => { t with waiting := t.waiting + 1 }

/-- What happens: the service is started or stopped, the reactor looks at the clock, or a result arrives (report.py:66-92). -/
inductive SlowEvent
  | start
  | stop
  | clock
  | arrive (res : Except PyErr (Dict Num))

/-- One event (report.py:66-92). -/
def SlowTask.step (p : ℤ) (f : ℕ → Option (Except PyErr (Dict Num))) (t : SlowTask) (now : ℚ) : SlowEvent → SlowTask × Option PyErr
  | .start =>
    if t.running then (t, some .assertionError)
    else if p < 0 then (t, some .valueError)
    else (SlowTask.plan p { t with running := true, startTime := now } now, none)
  | .stop =>
    if t.running then
      match t.known with
      | some n => ({ t with running := false, known := none, planned := t.planned.filter fun e => e.1 ≠ n }, none)
      | none => ({ t with running := false }, none)
    else (t, some .assertionError)
  | .clock =>
    ((t.planned.filter fun e => e.2 ≤ now).foldl
      (fun t e => SlowTask.call p f { t with planned := t.planned.filter fun e' => e'.1 ≠ e.1 } now) t, none)
  | .arrive res => if t.waiting = 0 then (t, none) else (SlowTask.finish p { t with waiting := t.waiting - 1 } now res, none)

/-- A run (report.py:66-92). -/
def SlowTask.run (p : ℤ) (f : ℕ → Option (Except PyErr (Dict Num))) (t : SlowTask) (es : List (ℚ × SlowEvent)) : SlowTask :=
  es.foldl (fun t e => (t.step p f e.1 e.2).1) t

end Txstatsd
