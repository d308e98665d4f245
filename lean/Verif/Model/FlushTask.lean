import Verif.Model.App
import Mathlib.Data.Rat.Floor

/-!
# Starting and stopping the flushing (service.py:207-240)

`flushProcessor` is called by a `LoopingCall` of Twisted, which the service starts and stops. As Twisted has it, `start` fails its
assertion on a running loop and raises ValueError on a negative period; calls are made, not before they are due, at multiples of the
period after the start, and those that were missed are skipped; `stop` cancels the next call.
-/

namespace Txstatsd

/-- The `LoopingCall` of a `StatsDService` (service.py:209-216): whether it runs, since when, and when the next call is due. `calls` is
a log of the calls made, each with the start before it. -/
structure FlushTask where
  running : Bool := false
  startTime : ℚ := 0
  due : Option ℚ := none
  calls : List (ℚ × ℚ) := []
  deriving DecidableEq

/-- When the call after `now` is due (`LoopingCall._reschedule`) (for the loop of service.py:236). -/
def nextCall (startTime : ℚ) (period : ℤ) (now : ℚ) : ℚ :=
  if period = 0 then now else startTime + period * (⌊(now - startTime) / period⌋ + 1)

/-- `startService` (service.py:235-236), that is `start(flush_interval / 1000, False)`. -/
def FlushTask.start (t : FlushTask) (flushInterval : ℤ) (now : ℚ) : FlushTask × Option PyErr :=
  if t.running then (t, some .assertionError)
  else if flushPeriod flushInterval < 0 then (t, some .valueError)
  else ({ t with running := true, startTime := now, due := some (nextCall now (flushPeriod flushInterval) now) }, none)

/-- `stopService` (service.py:238-240). -/
def FlushTask.stop (t : FlushTask) : FlushTask :=
  if t.running then { t with running := false, due := none } else t

/-- What happens to a service: it is started or stopped, the reactor looks at the clock and makes the call that is due, or anything
else goes on (service.py:218-240). -/
inductive TaskEvent
  | start (now : ℚ)
  | stop
  | clock (now : ℚ)
  | other (e : AppEvent)

/-- The service and its loop (service.py:207-240). -/
structure Life (S : Type) where
  task : FlushTask := {}
  app : App S

variable [Rounding] {S R : Type}

/-- One event. A call of `flushProcessor` hands a new flush to the cooperator and raises nothing (service.py:218-240); the event `tick`
of the service happens in no other way. -/
def Life.step (P : Proc S) (cf : AppConf R) (w : World) (v : Life S) : TaskEvent → Life S × Option PyErr
  | .start now =>
    let r := v.task.start cf.flushInterval now
    ({ v with task := r.1 }, r.2)
  | .stop => ({ v with task := v.task.stop }, none)
  | .clock now =>
    match v.task.due with
    | none => (v, none)
    | some t =>
      if t ≤ now then
        ({ task := { v.task with
             due := some (nextCall v.task.startTime (flushPeriod cf.flushInterval) now)
             calls := v.task.calls ++ [(v.task.startTime, now)] },
           app := v.app.step P cf w .tick }, none)
      else (v, none)
  | .other .tick => (v, none)
  | .other e => ({ v with app := v.app.step P cf w e }, none)

/-- A run (service.py:207-240). -/
def Life.run (P : Proc S) (cf : AppConf R) (w : World) (v : Life S) (es : List TaskEvent) : Life S :=
  es.foldl (fun v e => (v.step P cf w e).1) v

end Txstatsd
