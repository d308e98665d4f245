import Verif.Model.Files
import Verif.Model.SelfReport

/-!
# A service that reports about its machine (service.py:286-333, process.py:223-243)

The functions of `SYSTEM_STATS` are called by the reports of the service (Model/SelfReport.lean); what they return goes through the
gauges of the client into the processor.
-/

namespace Txstatsd
variable [Rounding] {C T G PF PM : Type}

/-- What happens: a report of `SYSTEM_STATS` runs, a message arrives, or a flush is made (service.py:313-333, process.py:239-243). -/
inductive SysOp
  | report (m : Moment) (k : SysReport)
  | msg (m : Str)
  | flush (interval percent : ℤ)

/-- The generators of the reports and the service (service.py:286-333, process.py:239-243). -/
structure SysState (C T G PF PM : Type) where
  gens : SysGens := {}
  self : SelfState C T G PF PM

/-- One event (service.py:313-333; report.py:66-81; process.py:239-243). -/
def SysState.step (I : Impl C T G PF PM) (w : World) (fmt : PyFloat → Str) (inst : Str) (v : SysState C T G PF PM) :
    SysOp → SysState C T G PF PM
  | .report m k =>
    let r := v.gens.call m k
    { gens := r.1, self := v.self.step I w fmt inst (.report r.2) }
  | .msg m => { v with self := v.self.step I w fmt inst (.msg m) }
  | .flush i p => { v with self := v.self.step I w fmt inst (.flush i p) }

/-- A history (service.py:313-333). -/
def SysState.run (I : Impl C T G PF PM) (w : World) (fmt : PyFloat → Str) (inst : Str) (v : SysState C T G PF PM)
    (os : List SysOp) : SysState C T G PF PM := os.foldl (SysState.step I w fmt inst) v

end Txstatsd
