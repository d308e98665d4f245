import Verif.Model.Distinct

/-!
# The distinct counter in floats (metrics/distinctmetric.py)

Model/Distinct.lean computes totals, windows and estimates exactly; here every operation is one of floats.
-/

namespace Txstatsd

/-- `2 ** v` for a float `v` (distinctmetric.py:106), as the C library computes it: a parameter. For the `v` that occur (at most the
number of buckets) it does not overflow. -/
class FloatPow where
  pow2 : PyFloat → PyFloat

/-- What the theorems need of it: whole exponents give the powers of two, and greater exponents do not give smaller results
(distinctmetric.py:106). -/
class FloatPowLaws [FloatPow] : Prop where
  whole : ∀ k : ℕ, k ≤ 1023 → FloatPow.pow2 (.fin k) = .fin (2 ^ k)
  mono : ∀ {a b : ℚ}, a ≤ b → (FloatPow.pow2 (.fin a)).le (FloatPow.pow2 (.fin b)) = true

/-- The inner loop of `distinct` (distinctmetric.py:99-103) with a float `since`. The times in the buckets are readings of the clock,
compared as they are. -/
def HashRow.least0Float (since : PyFloat) (r : HashRow) : Nat := (r.buckets.takeWhile fun t => !((PyFloat.fin t).le since)).length

section
variable [Rounding]

/-- The outer loop of `distinct` (distinctmetric.py:97-104): ints are added to a float. -/
def DistinctCounter.totalFloat (c : DistinctCounter) (since : PyFloat) : PyFloat :=
  c.rows.foldl (fun total r => total.add (Num.toFloat (.int (r.least0Float since)))) (.fin 0)

/-- `int(w / 0.77351)` (distinctmetric.py:106). -/
def estimateFloat (w : PyFloat) : Except PyErr ℤ :=
  match w.div (rnd (77351 / 100000)) with
  | .error e => .error e
  | .ok x => truncNum (.flt x)

/-- `distinct` (distinctmetric.py:96-106). -/
def DistinctCounter.distinctFloat [FloatPow] (c : DistinctCounter) (since : PyFloat) : Except PyErr ℤ :=
  match (c.totalFloat since).div (Num.toFloat (.int c.rows.length)) with
  | .error e => .error e
  | .ok v => estimateFloat (FloatPow.pow2 v)

/-- `flush` (distinctmetric.py:143-153, 161-170) with the windows computed from a float clock. -/
def DistinctReporter.flushFloat [FloatPow] (r : DistinctReporter) (now : PyFloat) (ts : ℤ) : Except PyErr (List Datapoint) := do
  let all ← r.counter.distinctFloat (.fin 0)
  let min1 ← r.counter.distinctFloat (now.sub (Num.toFloat (.int 60)))
  let hour1 ← r.counter.distinctFloat (now.sub (Num.toFloat (.int (60 * 60))))
  let day1 ← r.counter.distinctFloat (now.sub (Num.toFloat (.int (60 * 60 * 24))))
  .ok [⟨r.pre ++ r.name ++ c!".count", .int all, ts⟩,
       ⟨r.pre ++ r.name ++ c!".count_1day", .int day1, ts⟩,
       ⟨r.pre ++ r.name ++ c!".count_1hour", .int hour1, ts⟩,
       ⟨r.pre ++ r.name ++ c!".count_1min", .int min1, ts⟩]

end
end Txstatsd
