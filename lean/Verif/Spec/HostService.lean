import Verif.Model.HostService
import Verif.Spec.SysService

/-! What the claims about a service with all its reports talk about. -/

namespace Txstatsd.Spec

variable [Rounding]

/-- The calls of the reports, in order. -/
def hostCalls : List HostOp → List (HostMoment × HostReport)
  | [] => []
  | .report m k :: os => (m, k) :: hostCalls os
  | _ :: os => hostCalls os

/-- The messages from outside. -/
def hostOutside : List HostOp → List Str
  | [] => []
  | .msg m :: os => m :: hostOutside os
  | _ :: os => hostOutside os

/-- The last report of kind `k` was made at moment `m`. -/
def LastCall (os : List HostOp) (k : HostReport) (m : HostMoment) : Prop :=
  ∃ before after, hostCalls os = before ++ (m, k) :: after ∧ ∀ c ∈ after, c.2 ≠ k

/-- The instance name and the names of network devices, CPU times and states of connections have legal characters only. -/
def LegalHost (inst : Str) (os : List HostOp) : Prop :=
  (∀ c ∈ inst, Legal c) ∧ ∀ k d, (k, .ok d) ∈ ({} : HostGens).run (hostCalls os) →
    k = .sys .netdev ∨ k = .sys .cpu ∨ k = .connections → ∀ n ∈ d.keys, ∀ c ∈ n, Legal c

/-- How many of the connections are streams in a state. -/
def inState (conns : List (Bool × Str)) (status : Str) : ℕ :=
  (conns.filter fun c => c.1 = true ∧ c.2.map Char.toLower = status).length

end Txstatsd.Spec
