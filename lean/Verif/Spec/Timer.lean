import Verif.Spec.History
import Verif.Spec.Text

/-!
# What a timer flush should report
-/

namespace Txstatsd.Spec

/-- The values that the messages of a history contribute, in order, where `P msg v` says that `msg`
contributes `v`. -/
inductive Collect {α : Type} (P : Str → α → Prop) : List Str → List α → Prop
  | nil : Collect P [] []
  | hit {msg msgs v vs} : P msg v → Collect P msgs vs → Collect P (msg :: msgs) (v :: vs)
  | skip {msg msgs vs} : (∀ v, ¬ P msg v) → Collect P msgs vs → Collect P (msg :: msgs) vs

/-- `msg` is an accepted value `v` of type `mtype` for `key` (timers: `ms`; the value is the first field). -/
def Reading [Rounding] (mtype key msg : Str) (v : PyFloat) : Prop :=
  ∃ f0 rest, Parsed msg mtype key (f0 :: rest) ∧ parseFloat f0 = some v

/-- The messages received since the last flush. -/
def sinceFlush (os : List Op) : List Str :=
  os.foldl (fun acc o => match o with
    | .msg m => acc ++ [m]
    | .flush _ _ => []) []

/-- The number of the smallest durations that the percentile threshold keeps, out of `n`: all but
`n * (100 - percent) / 100`, rounded to the nearest integer, halves up. -/
def keep (percent : ℤ) (n : Nat) : Nat :=
  if n = 1 then 1 else ((n : ℤ) - ⌊((100 - percent : ℤ) : ℚ) / 100 * n + 1 / 2⌋).toNat

/-- `points` is the right summary of the (finite, non-empty) durations `qs` of timer `key`: with
`sorted` an ascending arrangement of them and `kept` its first `keep percent n` elements, the points are
count, least, mean of the kept ones, greatest, greatest kept. -/
def TimerSummary (percent ts : ℤ) (key : Str) (qs : List ℚ) (points : List Datapoint) : Prop :=
  ∃ (sorted kept : List ℚ) (lower upper threshold : ℚ),
    sorted.Perm qs ∧ sorted.Pairwise (· ≤ ·) ∧ kept = sorted.take (keep percent qs.length) ∧
    sorted.head? = some lower ∧ sorted.getLast? = some upper ∧ kept.getLast? = some threshold ∧
    points =
      [⟨c!"stats.timers." ++ key ++ c!".count", .int qs.length, ts⟩,
       ⟨c!"stats.timers." ++ key ++ c!".lower", .flt (.fin lower), ts⟩,
       ⟨c!"stats.timers." ++ key ++ c!".mean", .flt (.fin (kept.sum / kept.length)), ts⟩,
       ⟨c!"stats.timers." ++ key ++ c!".upper", .flt (.fin upper), ts⟩,
       ⟨c!"stats.timers." ++ key ++ c!".upper_" ++ intStr percent, .flt (.fin threshold), ts⟩]

end Txstatsd.Spec
