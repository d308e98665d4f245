import Verif.Model.SysService
import Verif.Spec.SelfReport
import Verif.Spec.Files
import Verif.Spec.FloatStr

/-! What the claims about a service that reports about its machine talk about. -/

namespace Txstatsd.Spec

/-- The calls of the reports, in order. -/
def sysCalls : List SysOp → List (Moment × SysReport)
  | [] => []
  | .report m k :: os => (m, k) :: sysCalls os
  | _ :: os => sysCalls os

/-- The messages from outside. -/
def sysOutside : List SysOp → List Str
  | [] => []
  | .msg m :: os => m :: sysOutside os
  | _ :: os => sysOutside os

/-- The last report of kind `k` was made at moment `m`. -/
def LastReport (os : List SysOp) (k : SysReport) (m : Moment) : Prop :=
  ∃ before after, sysCalls os = before ++ (m, k) :: after ∧ ∀ c ∈ after, c.2 ≠ k

variable [Rounding]

/-- The instance name and the names of network devices and of CPU times have legal characters only. (Those of the two other reports are
fixed.) -/
def LegalMachine (inst : Str) (os : List SysOp) : Prop :=
  (∀ c ∈ inst, Legal c) ∧ ∀ k d, (k, .ok d) ∈ ({} : SysGens).run (sysCalls os) → k = .netdev ∨ k = .cpu →
    ∀ n ∈ d.keys, ∀ c ∈ n, Legal c

end Txstatsd.Spec
