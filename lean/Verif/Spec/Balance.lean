import Verif.Spec.Relay
import Verif.Model.Metrics

/-!
# Counts that add up in the arithmetic at hand
-/

namespace Txstatsd.Spec
variable {PF PM : Type}

/-- The sum of the sizes of value/rate over increments. -/
def sizes (qs : List (ℚ × ℚ)) : ℚ := (qs.map fun p => |p.1 / p.2|).sum

/-- The numbers are all finite, and `x` is their exact sum. -/
def SumOf (vs : List Num) (x : ℚ) : Prop := ∃ qs : List ℚ, List.Forall₂ (fun v q => v.exact = .fin q) vs qs ∧ qs.sum = x

/-- The counts of a name that were sent to carbon, those under way in the flushes, and the stored one. -/
def countsAt (key : Str) (out : List Datapoint) (gens : List Gen) (s : MPState PF PM) : List Num :=
  (named (c!"stats_counts." ++ key) (out ++ underWay gens)).map Datapoint.value ++ [(s.counters.find key).getD (.int 0)]

/-- Zero, or of a size between 2^-400 and 2^400. -/
def Moderate (x : ℚ) : Prop := x = 0 ∨ (2 ^ (-400 : ℤ) ≤ |x| ∧ |x| ≤ 2 ^ (400 : ℤ))

/-- The arithmetic at hand adds up any selection of the increments, in any order, without overflow and with an error of at most
`c` times the sum of their sizes. -/
def AddsUp [Rounding] (c : ℚ) (qs : List (ℚ × ℚ)) : Prop :=
  ∀ b, b.Subperm qs → ∃ t, (total (b.map fun p => (.fin p.1, .fin p.2))).exact = .fin t ∧ |t - amount b| ≤ c * sizes b

end Txstatsd.Spec
