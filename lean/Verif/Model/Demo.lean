import Verif.Model.Client
import Verif.Model.Metrics
import Verif.Model.Report
import Verif.Model.System

/-!
# The example client (example-stats-client.tac:37-73)

It counts random walks, times normally distributed durations and reports about its process, all through `Metrics` and the Twisted client
(protocol.py, metrics/metrics.py, report.py, process.py). `listenUDP` starts the protocol, which connects the client, before the first loop
runs, and the host is an IP address, so that the client is connected from the start.
-/

namespace Txstatsd

/-- What happens: a walker moves (a draw of `random.random()`), a duration is timed (a draw of `normalvariate`), the report of the process
runs (what `psutil` gives; process.py:111-121), or the reactor makes a scheduled write (example-stats-client.tac:48-69; report.py:74-82;
protocol.py:96-111). -/
inductive DemoEvent
  | walk (n : ℕ) (draw : ℚ)
  | normal (n : ℕ) (x : PyFloat)
  | report (memory : List Num) (cpu percent : Num) (threads : Option Num)
  | turn (result : Except PyErr Nat)

/-- The client: `metrics`, `statsd_client`, and whether each report failed (example-stats-client.tac:41-46; report.py:74-82). -/
structure Demo where
  metrics : Client
  udp : TwistedClient
  failures : List Bool := []

/-- The objects the file makes (example-stats-client.tac:37-49, 72-73; metrics/metrics.py:42-55; protocol.py:117-148, 179-185); `hostname` is
`socket.gethostname()`. -/
def demoInit (hostname : Str) : Demo where
  metrics := { conn := true, namespc := some (hostname ++ c!".example-client"), ext := false }
  udp := (TwistedClient.init c!"127.0.0.1" true [] []).connect (some 0)

/-- A call of `metrics`, whose connection is `statsd_client` (example-stats-client.tac:41-43; metrics/metric.py:49-67; protocol.py:193-203). -/
def Demo.call [Rounding] (fmt : PyFloat → Str) (d : Demo) (c : Call) : Demo × Option PyErr :=
  let r := d.metrics.call fmt (.fin 0) 0 c
  ({ d with
    metrics := r.1
    udp := match r.2.out with
      | none => d.udp
      | some text => d.udp.write ⟨text, none⟩ }, r.2.exc)

/-- One event (example-stats-client.tac:48-69; report.py:64-82; process.py:111-121, 207-208; protocol.py:96-111). -/
def Demo.step [Rounding] (fmt : PyFloat → Str) (d : Demo) : DemoEvent → Demo
  -- example-stats-client.tac:51-56
  | .walk n draw =>
    let name := some (c!"walker" ++ natStr n)
    if 1 / 2 < draw then (d.call fmt (.increment name (.num (.int 1)) (.int 1))).1
    else (d.call fmt (.decrement name (.num (.int 1)) (.int 1))).1
  -- example-stats-client.tac:58-60
  | .normal n x => (d.call fmt (.timing (some (c!"normal" ++ natStr n)) (some (.num (.flt x))) (.int 1))).1
  -- example-stats-client.tac:48-49
  | .report memory cpu percent threads =>
    let r := wrapperRun [] (fun d name (v : Num) => Demo.call fmt d (.increment (some name) (.num v) (.int 1))) d
      (getMemoryAndCpu c!"proc" memory cpu percent threads)
    { r.1 with failures := r.1.failures ++ [r.2] }
  | .turn result => { d with udp := d.udp.turn (fun _ _ => none) result }

/-- A history (example-stats-client.tac:48-69; report.py:74-82). -/
def Demo.run [Rounding] (fmt : PyFloat → Str) (d : Demo) (es : List DemoEvent) : Demo := es.foldl (Demo.step fmt) d

end Txstatsd
