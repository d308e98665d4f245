import Verif.Model.SelfReport
import Verif.Spec.Metrics
import Verif.Spec.Report
import Verif.Spec.History

/-!
# What reports about the service itself should do
-/

namespace Txstatsd.Spec
variable [Rounding]

/-- The message that stands for a reported metric. -/
def gaugeText (fmt : PyFloat → Str) (inst : Str) (m : Str × Num) : Str :=
  reportedAs inst m.1 ++ c!":" ++ m.2.render fmt ++ c!"|g"

/-- The history in which reports are replaced by their messages. -/
def plainOps (fmt : PyFloat → Str) (inst : Str) (os : List SelfOp) : List Op :=
  os.flatMap fun o => match o with
    | .report (.ok d) => d.map fun m => .msg (gaugeText fmt inst m)
    | .report (.error _) => []
    | .msg m => [.msg m]
    | .flush i p => [.flush i p]

/-- All names reported are made of legal characters. -/
def LegalReports (inst : Str) (os : List SelfOp) : Prop :=
  (∀ c ∈ inst, Legal c) ∧ ∀ d, SelfOp.report (.ok d) ∈ os → ∀ n ∈ d.keys, ∀ c ∈ n, Legal c

/-- Each report that ran, with whether its function raised. -/
def raised (os : List SelfOp) : List Bool :=
  os.filterMap fun o => match o with
    | .report (.ok _) => some false
    | .report (.error _) => some true
    | _ => none

/-- The values reported for a metric, in order. -/
def reportedValues (name : Str) (os : List SelfOp) : List Num :=
  os.flatMap fun o => match o with
    | .report (.ok d) => (d.filter fun m => decide (m.1 = name)).map (·.2)
    | _ => []

/-- The messages from outside. -/
def outside (os : List SelfOp) : List Str :=
  os.filterMap fun o => match o with
    | .msg m => some m
    | _ => none

end Txstatsd.Spec
