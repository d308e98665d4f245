import Verif.Model.HostService
import Verif.Model.FlushTask

/-!
# When the reports are made (report.py:41-92, service.py:310-333)

Each scheduled report has a `LoopingCall` of its own, which the `ReportingService` starts and stops. What is due at a reading of the clock
is called in the order of scheduling (Twisted calls in the order of the times that they were due), all of it finding the machine as it is
at this reading.
-/

namespace Txstatsd

/-- A report with its period in seconds and its `LoopingCall` (report.py:58-63, service.py:310-333): whether it runs, since when, and when the
next call is due. -/
structure ReportLoop where
  report : HostReport
  period : ℤ
  running : Bool := false
  startTime : ℚ := 0
  due : Option ℚ := none

/-- `task.start(interval, now=False)` of every task (report.py:84-87): it fails its assertion on a running one and raises ValueError on a
negative period. -/
def startLoops (now : ℚ) : List ReportLoop → List ReportLoop × Option PyErr
  | [] => ([], none)
  | l :: ls =>
    if l.running then (l :: ls, some .assertionError)
    else if l.period < 0 then (l :: ls, some .valueError)
    else
      let r := startLoops now ls
      ({ l with running := true, startTime := now, due := some (nextCall now l.period now) } :: r.1, r.2)

/-- `task.stop()` of every task (report.py:89-91): it fails its assertion on one that does not run. -/
def stopLoops : List ReportLoop → List ReportLoop × Option PyErr
  | [] => ([], none)
  | l :: ls =>
    if l.running then
      let r := stopLoops ls
      ({ l with running := false, due := none } :: r.1, r.2)
    else (l :: ls, some .assertionError)

/-- Whether the clock has reached the time of the next call (for the loops of report.py:58, 87). -/
def ReportLoop.isDue (l : ReportLoop) (now : ℚ) : Bool :=
  match l.due with
  | none => false
  | some d => decide (d ≤ now)

/-- The loop after a call: a wrapped report raises nothing and is called again (report.py:74-82, 87). -/
def ReportLoop.called (l : ReportLoop) (now : ℚ) : ReportLoop := { l with due := some (nextCall l.startTime l.period now) }

/-- What happens: the service is started or stopped, the reactor looks at the clock, a message arrives, or a flush is made
(report.py:84-92, service.py:218-233). -/
inductive HostEvent
  | start
  | stop
  | clock
  | msg (m : Str)
  | flush (interval percent : ℤ)

variable [Rounding] {C T G PF PM : Type}

/-- The reports with their loops, and the service (service.py:286-333). -/
structure TimedHost (C T G PF PM : Type) where
  loops : List ReportLoop
  host : HostState C T G PF PM

/-- One event at its time; `env` is the machine and the process at each time (report.py:66-92, service.py:218-233). -/
def TimedHost.step (I : Impl C T G PF PM) (w : World) (fmt : PyFloat → Str) (inst : Str) (env : ℚ → HostMoment)
    (v : TimedHost C T G PF PM) (now : ℚ) : HostEvent → TimedHost C T G PF PM × Option PyErr
  | .start =>
    let r := startLoops now v.loops
    ({ v with loops := r.1 }, r.2)
  | .stop =>
    let r := stopLoops v.loops
    ({ v with loops := r.1 }, r.2)
  | .clock =>
    ({ loops := v.loops.map fun l => if l.isDue now then l.called now else l
       host := (v.loops.filter fun l => l.isDue now).foldl (fun h l => h.step I w fmt inst (.report (env now) l.report)) v.host }, none)
  | .msg m => ({ v with host := v.host.step I w fmt inst (.msg m) }, none)
  | .flush i p => ({ v with host := v.host.step I w fmt inst (.flush i p) }, none)

/-- A run (report.py:66-92, service.py:218-233). -/
def TimedHost.run (I : Impl C T G PF PM) (w : World) (fmt : PyFloat → Str) (inst : Str) (env : ℚ → HostMoment)
    (v : TimedHost C T G PF PM) (es : List (ℚ × HostEvent)) : TimedHost C T G PF PM :=
  es.foldl (fun v e => (v.step I w fmt inst env e.1 e.2).1) v

end Txstatsd
