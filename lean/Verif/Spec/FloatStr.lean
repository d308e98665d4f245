import Verif.Spec.Metrics

/-!
# Decimal numbers of twelve digits
-/

namespace Txstatsd.Spec

/-- A decimal number with at most twelve significant digits. -/
def Decimal12 (z : ℚ) : Prop := ∃ m k : ℤ, |m| < 10 ^ 12 ∧ z = m * 10 ^ k

/-- `y` is a nearest such number to `x`. -/
def Nearest12 (x y : ℚ) : Prop := Decimal12 y ∧ ∀ z, Decimal12 z → |y - x| ≤ |z - x|

end Txstatsd.Spec
