import Verif.Model.SlowReport

/-! What the claims about slow reports talk about. -/

namespace Txstatsd.Spec
variable [Rounding]

/-- The readings of the clock. -/
def slowReadings : List (ℚ × SlowEvent) → List ℚ
  | [] => []
  | (t, .clock) :: es => t :: slowReadings es
  | _ :: es => slowReadings es

/-- The service is never started while a result is awaited. -/
def NoRestart (p : ℤ) (f : ℕ → Option (Except PyErr (Dict Num))) (es : List (ℚ × SlowEvent)) : Prop :=
  ∀ a t b, es = a ++ (t, .start) :: b → (SlowTask.run p f {} a).waiting = 0

end Txstatsd.Spec
