import Verif.Model.Ieee
import Verif.Spec.Histogram
import Verif.Spec.Timer

/-!
# Statements about double arithmetic
-/

namespace Txstatsd.Spec

/-- A double that is not negative, or infinity: what passes the test `duration >= 0`. -/
def Duration [Rounding] (v : PyFloat) : Prop := v = .inf false ∨ ∃ q, v = .fin q ∧ 0 ≤ q ∧ rnd q = .fin q

/-- Not negative (and not nan). -/
def NotNegative (v : PyFloat) : Prop := v = .inf false ∨ ∃ q, v = .fin q ∧ 0 ≤ q

/-- `points` is the summary of the durations `qs` of timer `key` in double arithmetic: count, least, greatest and greatest
kept are exact; the number kept is `percent` per cent of all, within a half (and the error of the multiplication); the mean
of the kept ones is right up to one unit in the 52nd bit per duration. -/
def DoubleSummary (percent ts : ℤ) (key : Str) (qs : List ℚ) (points : List Datapoint) : Prop :=
  ∃ (sorted kept : List ℚ) (lower upper threshold mean : ℚ),
    sorted.Perm qs ∧ sorted.Pairwise (· ≤ ·) ∧ kept <+: sorted ∧
    (qs.length = 1 → kept.length = 1) ∧
    (1 < qs.length → |(kept.length : ℚ) - percent / 100 * qs.length| ≤ 1 / 2 + qs.length / 2 ^ 52) ∧
    sorted.head? = some lower ∧ sorted.getLast? = some upper ∧ kept.getLast? = some threshold ∧
    0 ≤ mean ∧ |mean - meanOf kept| ≤ (kept.length : ℚ) / 2 ^ 52 * meanOf kept + 2 ^ (-1075 : ℤ) ∧
    points =
      [⟨c!"stats.timers." ++ key ++ c!".count", .int qs.length, ts⟩,
       ⟨c!"stats.timers." ++ key ++ c!".lower", .flt (.fin lower), ts⟩,
       ⟨c!"stats.timers." ++ key ++ c!".mean", .flt (.fin mean), ts⟩,
       ⟨c!"stats.timers." ++ key ++ c!".upper", .flt (.fin upper), ts⟩,
       ⟨c!"stats.timers." ++ key ++ c!".upper_" ++ intStr percent, .flt (.fin threshold), ts⟩]

end Txstatsd.Spec
