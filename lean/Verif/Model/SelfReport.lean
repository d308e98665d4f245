import Verif.Model.Metrics
import Verif.Model.Report

/-!
# The service's reports about itself (service.py:286-333, report.py:46-82)

A scheduled report computes a dict of metrics; the wrapper hands each of them to `metrics.gauge`, whose connection is the
`InternalClient`, which calls `process` of the router. Without rules that is `process` of the processor (C92).
-/

namespace Txstatsd
variable [Rounding] {C T G PF PM : Type}

/-- `metrics.gauge` as the report function (service.py:288-315, metrics.py:87-95, client.py:102-104): the client and the processor
afterwards, and the exception that leaves the call. A gauge uses neither clock nor (at rate 1) a random draw. -/
def gaugeInto (I : Impl C T G PF PM) (w : World) (fmt : PyFloat → Str) (s : Client × PS C T G PF PM) (name : Str) (value : Num) :
    (Client × PS C T G PF PM) × Option PyErr :=
  let r := s.1.call fmt (.fin 0) 0 (.gauge (some name) (.num value) (.int 1))
  match r.2.out with
  | none => ((r.1, s.2), r.2.exc)
  | some text =>
    let p := process I w s.2 text
    ((r.1, p.1), p.2.exc)

/-- What happens to a service that reports about itself: a report runs (its function returns or raises), a message arrives, or a
flush is made (service.py:313-333; report.py:66-81). -/
inductive SelfOp
  | report (reading : Except PyErr (Dict Num))
  | msg (m : Str)
  | flush (interval percent : ℤ)

/-- The service: client of the reports, processor, everything sent to graphite, and whether each report logged a failure
(service.py:290-301). -/
structure SelfState (C T G PF PM : Type) where
  client : Client
  ps : PS C T G PF PM
  out : List Datapoint := []
  failures : List Bool := []

/-- One event; `inst` is the instance name of the `ReportingService`
(report.py:66-81; client.py:102-104; service.py:218-233). -/
def SelfState.step (I : Impl C T G PF PM) (w : World) (fmt : PyFloat → Str) (inst : Str) (v : SelfState C T G PF PM) :
    SelfOp → SelfState C T G PF PM
  | .report reading =>
    let r := wrapperRun inst (gaugeInto I w fmt) (v.client, v.ps) reading
    { v with client := r.1.1, ps := r.1.2, failures := v.failures ++ [r.2] }
  | .msg m => { v with ps := (process I w v.ps m).1 }
  | .flush i p =>
    let r := Txstatsd.flush I w i p v.ps
    { v with ps := r.1, out := v.out ++ r.2.1 }

/-- A history (report.py:66-81; client.py:102-104; service.py:218-233). -/
def SelfState.run (I : Impl C T G PF PM) (w : World) (fmt : PyFloat → Str) (inst : Str) (v : SelfState C T G PF PM)
    (os : List SelfOp) : SelfState C T G PF PM := os.foldl (SelfState.step I w fmt inst) v

end Txstatsd
