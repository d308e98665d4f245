import Verif.Model.Demo
import Verif.Spec.Balance

/-!
# What the example client should send
-/

namespace Txstatsd.Spec

/-- What `psutil` gives about the process, by name. -/
def processReadings (memory : List Num) (cpu percent : Num) (threads : Option Num) : List (Str × Num) :=
  match memory with
  | [vsize, rss] => [(c!"proc.cpu.percent", cpu), (c!"proc.memory.percent", percent), (c!"proc.memory.vsize", vsize),
      (c!"proc.memory.rss", rss)] ++ (threads.map fun n => (c!"proc.threads", n)).toList
  | _ => []

/-- The texts for one event: a step up or down, the milliseconds, each reading as a count. -/
def demoTexts [Rounding] (fmt : PyFloat → Str) (ns : Str) : DemoEvent → List Str
  | .walk n draw => [ns ++ c!".walker" ++ natStr n ++ (if 1 / 2 < draw then c!":1|c" else c!":-1|c")]
  | .normal n x => [ns ++ c!".normal" ++ natStr n ++ c!":" ++ ((Num.flt x).mul (.int 1000)).render fmt ++ c!"|ms"]
  | .report memory cpu percent threads => (processReadings memory cpu percent threads).map fun p =>
      ns ++ c!"." ++ p.1 ++ c!":" ++ p.2.render fmt ++ c!"|c"
  | .turn _ => []

/-- The texts of the datagrams sent. -/
def demoSent (d : Demo) : List Str := d.udp.sent.map fun s => s.msg.data

/-- The texts of those scheduled. -/
def demoScheduled (d : Demo) : List Str := d.udp.reactor.map fun p => p.2.data

/-- The steps of a walker: up for a draw above one half. -/
def steps (n : ℕ) (es : List DemoEvent) : List ℤ := es.filterMap fun e => match e with
  | .walk m draw => if m = n then some (if 1 / 2 < draw then 1 else -1) else none
  | _ => none

/-- The sizes of the process that were reported. -/
def vsizes (es : List DemoEvent) : List ℤ := es.filterMap fun e => match e with
  | .report [.int v, _] _ _ _ => some v
  | _ => none

end Txstatsd.Spec
