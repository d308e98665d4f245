import Verif.Model.ReportLoop
import Verif.Spec.HostService

/-! What the claims about the times of reports talk about. -/

namespace Txstatsd.Spec
variable [Rounding]

/-- The messages from outside. -/
def timedOutside : List (ℚ × HostEvent) → List Str
  | [] => []
  | (_, .msg m) :: es => m :: timedOutside es
  | _ :: es => timedOutside es

/-- The readings of the clock. -/
def clockReadings : List (ℚ × HostEvent) → List ℚ
  | [] => []
  | (t, .clock) :: es => t :: clockReadings es
  | _ :: es => clockReadings es

/-- Nobody stops the reports. -/
def NeverStopped (es : List (ℚ × HostEvent)) : Prop := ∀ e ∈ es, e.2 ≠ .stop

/-- The reports have been stopped after every start. -/
def StoppedAgain (es : List (ℚ × HostEvent)) : Prop := ∀ a t b, es = a ++ (t, .start) :: b → ¬ NeverStopped b

/-- Time does not go back. -/
def Forward (es : List (ℚ × HostEvent)) : Prop := (es.map Prod.fst).Pairwise (· ≤ ·)

/-- Whatever reports are made of such a machine, the names have legal characters only. -/
def LegalEnv (inst : Str) (env : ℚ → HostMoment) : Prop :=
  ∀ os : List HostOp, (∀ c ∈ hostCalls os, ∃ t, c.1 = env t) → LegalHost inst os

end Txstatsd.Spec
