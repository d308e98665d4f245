import Verif.Model.SysService

/-!
# A service with all the reports that it can be told to send (service.py:313-333, process.py:182-243)

Those about the machine (Model/SysService.lean), and those about the process, its connections and the reactor. The client is the
service's own.
-/

namespace Txstatsd
variable [Rounding] {C T G PF PM : Type}

/-- What a report finds (process.py:38, 113-120, 125, 133-135, 146, 190, 216-217): the files and CPU times of the machine, and what `psutil`
and the reactor say about the process. -/
structure HostMoment where
  sys : Moment
  memory : List Num
  cpu : Num
  percent : Num
  threads : Option Num
  times : List Num
  io : Option (List Num)
  conns : Option (List (Bool × Str))
  readers : ℕ
  writers : ℕ

/-- The reports that are scheduled (service.py:322-333, process.py:183-186, 231-243). -/
inductive HostReport
  | sys (k : SysReport)
  | process | cpuCounters | io | connections | reactor
  deriving DecidableEq

/-- The generators behind four of them (process.py:163-177, 184-185, 241-242). -/
structure HostGens where
  sys : SysGens := {}
  cpu : CounterGen := {}
  io : CounterGen := {}

/-- A call of one of them (process.py:111-155, 176-177, 183-186, 215-217, 239-243). -/
def HostGens.call (g : HostGens) (m : HostMoment) : HostReport → HostGens × Except PyErr (Dict Num)
  | .sys k =>
    let r := g.sys.call m.sys k
    ({ g with sys := r.1 }, r.2)
  | .process => (g, getMemoryAndCpu c!"proc" m.memory m.cpu m.percent m.threads)
  | .cpuCounters =>
    let r := g.cpu.next (getCpuCounters c!"proc" m.times)
    ({ g with cpu := r.1 }, r.2)
  | .io =>
    let r := g.io.next (getIoCounters c!"proc.io" m.io)
    ({ g with io := r.1 }, r.2)
  | .connections => (g, .ok ((getNetStats c!"proc.net" m.conns).map fun p => (p.1, Num.int (p.2 : ℤ))))
  | .reactor => (g, .ok (reactorStats c!"reactor" m.readers m.writers))

/-- Any sequence of calls (service.py:322-333). -/
def HostGens.run (g : HostGens) : List (HostMoment × HostReport) → List (HostReport × Except PyErr (Dict Num))
  | [] => []
  | (m, k) :: rest => (k, (g.call m k).2) :: HostGens.run (g.call m k).1 rest

/-- What happens: a report runs, a message arrives, or a flush is made (service.py:313-333). -/
inductive HostOp
  | report (m : HostMoment) (k : HostReport)
  | msg (m : Str)
  | flush (interval percent : ℤ)

/-- The generators of the reports and the service (service.py:286-333). -/
structure HostState (C T G PF PM : Type) where
  gens : HostGens := {}
  self : SelfState C T G PF PM

/-- One event (service.py:313-333; report.py:66-81). -/
def HostState.step (I : Impl C T G PF PM) (w : World) (fmt : PyFloat → Str) (inst : Str) (v : HostState C T G PF PM) :
    HostOp → HostState C T G PF PM
  | .report m k =>
    let r := v.gens.call m k
    { gens := r.1, self := v.self.step I w fmt inst (.report r.2) }
  | .msg m => { v with self := v.self.step I w fmt inst (.msg m) }
  | .flush i p => { v with self := v.self.step I w fmt inst (.flush i p) }

/-- A history (service.py:313-333). -/
def HostState.run (I : Impl C T G PF PM) (w : World) (fmt : PyFloat → Str) (inst : Str) (v : HostState C T G PF PM)
    (os : List HostOp) : HostState C T G PF PM := os.foldl (HostState.step I w fmt inst) v

end Txstatsd
