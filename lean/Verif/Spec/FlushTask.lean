import Verif.Model.FlushTask

/-!
# What is said of the times of the flushes (service.py:207-240)
-/

namespace Txstatsd.Spec

/-- The readings of the clock in a run (for service.py:235-240). -/
def readings : List TaskEvent → List ℚ
  | [] => []
  | .clock t :: es => t :: readings es
  | _ :: es => readings es

/-- Nobody stops the service (service.py:238-240). -/
def NoStop (es : List TaskEvent) : Prop := TaskEvent.stop ∉ es

/-- Nobody starts the service (service.py:235-236). -/
def NoStart (es : List TaskEvent) : Prop := ∀ now, TaskEvent.start now ∉ es

/-- `p` is the number of whole seconds in an interval of `i` milliseconds (service.py:236). -/
def SecondsIn (i p : ℤ) : Prop := p * 1000 ≤ i ∧ i < p * 1000 + 1000

end Txstatsd.Spec
