import Verif.Spec.Interleaved
import Verif.Spec.Float

/-!
# What timers should report in double arithmetic
-/

namespace Txstatsd.Spec

/-- `group` summarises the (non-empty) durations `ds` of timer `key` in double arithmetic: the five statistics in order, with
one timestamp; the first is the number of durations; if the durations are finite, not negative and not too large the others
are right as well. -/
def SummarisesDouble (percent ts : ℤ) (key : Str) (ds : List PyFloat) (group : List Datapoint) : Prop :=
  group.map Datapoint.name =
    [c!"stats.timers." ++ key ++ c!".count", c!"stats.timers." ++ key ++ c!".lower", c!"stats.timers." ++ key ++ c!".mean",
     c!"stats.timers." ++ key ++ c!".upper", c!"stats.timers." ++ key ++ c!".upper_" ++ intStr percent] ∧
  (∀ d ∈ group, d.ts = ts) ∧ group.head?.map Datapoint.value = some (.int ds.length) ∧
  ∀ qs : List ℚ, ds = qs.map PyFloat.fin → (∀ q ∈ qs, 0 ≤ q) → qs.sum ≤ 2 ^ (1000 : ℤ) → DoubleSummary percent ts key qs group

/-- `pts` reports, in double arithmetic, a timer with the durations `ds` of the period since the time `since`, and `n`
durations in all: the extremes and the number are right; the percentiles lie between the extremes, in order; the mean is
within `ds.length` units in the 52nd bit of the mean; the rate is the number of durations divided by the (rounded) length of
the period; the standard deviation is not negative. -/
def DoubleReport [Rounding] (pre name : Str) (ds : List ℚ) (n : Nat) (since : ℚ) (ts : ℤ) (pts : List Datapoint) : Prop :=
  n ≤ 2 ^ 52 → ds.sum ≤ 2 ^ (1000 : ℤ) →
  ∃ (lo hi p99 p999 mean : ℚ) (a b c d e f g : Num),
    (ds = [] → lo = 0 ∧ hi = 0 ∧ mean = 0) ∧ (ds ≠ [] → IsLeast' ds lo ∧ IsGreatest' ds hi) ∧
    lo ≤ p99 ∧ p99 ≤ p999 ∧ p999 ≤ hi ∧
    0 ≤ mean ∧ |mean - meanOf ds| ≤ (ds.length : ℚ) / 2 ^ 52 * meanOf ds + 2 ^ (-1075 : ℤ) ∧
    Printed6 p999 a ∧ Printed6 p99 b ∧ Printed6 hi c ∧ Printed6 mean d ∧ Printed6 lo e ∧
    (rnd (ts : ℚ) = .fin ts → rnd since = .fin since → ∀ l, rnd (ts - since) = .fin l →
      (l = 0 → f = .flt (.fin 0)) ∧ (l ≠ 0 → ∀ x, rnd (ds.length / l) = .fin x → Printed6 x f)) ∧
    (∃ s, NotNegative s ∧ g = .flt (round6 s)) ∧
    pts = [⟨prefixed pre name c!".999percentile", a, ts⟩, ⟨prefixed pre name c!".99percentile", b, ts⟩,
           ⟨prefixed pre name c!".count", .flt (.fin n), ts⟩, ⟨prefixed pre name c!".max", c, ts⟩,
           ⟨prefixed pre name c!".mean", d, ts⟩, ⟨prefixed pre name c!".min", e, ts⟩,
           ⟨prefixed pre name c!".rate", f, ts⟩, ⟨prefixed pre name c!".stddev", g, ts⟩]

end Txstatsd.Spec
