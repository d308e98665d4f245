import Verif.Model.Processor

/-!
# The sliding distinct counter and its reporter (metrics/distinctmetric.py)

Times are exact rationals. `2 ** v` is an arbitrary function `pow2` (class `Power`); the division by
0.77351 that follows is exact. Items are byte strings: one character per byte.
-/

namespace Txstatsd

/-- `2 ** v` for a float `v` (distinctmetric.py:106). -/
class Power where
  pow2 : ℚ → ℚ

/-- What the theorems need of `2 ** v` (metrics/distinctmetric.py:106). -/
class PowerLaws [Power] : Prop where
  pow2_zero : Power.pow2 0 = 1
  pow2_mono : ∀ a b, a ≤ b → Power.pow2 a ≤ Power.pow2 b

/-- `SBoxHash.hash` (distinctmetric.py:51-57); `table` is the random table of line 49, indexed by a
byte. -/
def sboxHash (table : Nat → Nat) (data : Str) : Nat :=
  data.foldl (fun value c => ((value ^^^ table c.toNat) * 3) &&& 0xFFFFFFFF) 0

/-- `zeros` (distinctmetric.py:66-78). The loop variable `v = n >> i` is halved instead of
recomputed. -/
def zeros (n : Nat) : Nat :=
  if n = 0 then 0
  else if n % 2 = 1 then 0
  else zeros (n / 2) + 1
termination_by n
decreasing_by omega

/-- One hash function with its buckets: the lists `hashes` and `buckets` of distinctmetric.py:88-89 have
the same length and are indexed together. -/
structure HashRow where
  table : Nat → Nat
  buckets : List ℚ

/-- `SlidingDistinctCounter` (distinctmetric.py:81-89); `n_hashes` is `rows.length`. -/
structure DistinctCounter where
  nBuckets : Nat
  rows : List HashRow

/-- `SlidingDistinctCounter.__init__` (distinctmetric.py:84-89). -/
def DistinctCounter.init (nBuckets : Nat) (tables : List (Nat → Nat)) : DistinctCounter :=
  { nBuckets, rows := tables.map fun t => { table := t, buckets := List.replicate nBuckets 0 } }

/-- The bucket an item falls into (distinctmetric.py:94). With no buckets Python's index is -1, which is
out of range like the 0 here. -/
def HashRow.level (nBuckets : Nat) (r : HashRow) (item : Str) : Nat :=
  min (nBuckets - 1) (zeros (sboxHash r.table item))

/-- One iteration of the loop of `add` (distinctmetric.py:93-94). -/
def HashRow.add (nBuckets : Nat) (r : HashRow) (time : ℚ) (item : Str) : Except PyErr HashRow :=
  let i := r.level nBuckets item
  if i < r.buckets.length then .ok { r with buckets := r.buckets.set i time }
  else .error .indexError

/-- The loop of `add` over all rows; a list assignment that fails ends it (the rows changed before are
not kept, which no caller can observe: see C42) (metrics/distinctmetric.py:91-94). -/
def addRows (nBuckets : Nat) (time : ℚ) (item : Str) : List HashRow → Except PyErr (List HashRow)
  | [] => .ok []
  | r :: rs =>
    match r.add nBuckets time item with
    | .error e => .error e
    | .ok r =>
      match addRows nBuckets time item rs with
      | .error e => .error e
      | .ok rs => .ok (r :: rs)

/-- `add` (distinctmetric.py:91-94). -/
def DistinctCounter.add (c : DistinctCounter) (time : ℚ) (item : Str) : Except PyErr DistinctCounter :=
  match addRows c.nBuckets time item c.rows with
  | .error e => .error e
  | .ok rows => .ok { c with rows }

/-- The inner loop of `distinct` (distinctmetric.py:99-103): the number of buckets before the first one
that is not inside the window. -/
def HashRow.least0 (since : ℚ) (r : HashRow) : Nat := (r.buckets.takeWhile fun t => !(t ≤ since)).length

/-- `int((2 ** v) / 0.77351)` (distinctmetric.py:106). -/
def estimate [Power] (v : ℚ) : ℤ := truncQ (Power.pow2 v / (77351 / 100000))

/-- `distinct` (distinctmetric.py:96-106). The float total is a small integer, the quotient by 32 hashes is
exact; for other numbers of hashes its rounding is left out. -/
def DistinctCounter.distinct [Power] (c : DistinctCounter) (since : ℚ) : Except PyErr ℤ :=
  if c.rows.length = 0 then .error .zeroDivisionError
  else .ok (estimate (((c.rows.map (HashRow.least0 since)).sum : ℕ) / (c.rows.length : ℚ)))

/-- `DistinctMetricReporter` (distinctmetric.py:120-141). -/
structure DistinctReporter where
  name : Str
  pre : Str
  counter : DistinctCounter

/-- `DistinctMetricReporter.__init__` (distinctmetric.py:128-141), with the random tables of its 32
hashes. -/
def DistinctReporter.init (name pre : Str) (tables : Nat → Nat → Nat) : DistinctReporter :=
  { name
    pre := if pre = [] then [] else pre ++ c!"."
    counter := .init 32 ((List.range 32).map tables) }

/-- `update` at the time read from the clock (distinctmetric.py:158-159). -/
def DistinctReporter.update (r : DistinctReporter) (now : ℚ) (item : Str) :
    DistinctReporter × Option PyErr :=
  match r.counter.add now item with
  | .error e => (r, some e)
  | .ok c => ({ r with counter := c }, none)

/-- `process` (distinctmetric.py:155-156). The clock is read after `fields[0]`. -/
def DistinctReporter.process (r : DistinctReporter) (now : ℚ) :
    List Str → DistinctReporter × Nat × Option PyErr
  | [] => (r, 0, some .indexError)
  | item :: _ => ((r.update now item).1, 1, (r.update now item).2)

/-- `flush` (distinctmetric.py:161-170). The four windows are evaluated in the order of the dictionary
display; the reports are sorted by suffix. -/
def DistinctReporter.flush [Power] (r : DistinctReporter) (now : ℚ) (ts : ℤ) :
    Except PyErr (List Datapoint) := do
  let all ← r.counter.distinct 0
  let min1 ← r.counter.distinct (now - 60)
  let hour1 ← r.counter.distinct (now - 60 * 60)
  let day1 ← r.counter.distinct (now - 60 * 60 * 24)
  .ok [⟨r.pre ++ r.name ++ c!".count", .int all, ts⟩,
       ⟨r.pre ++ r.name ++ c!".count_1day", .int day1, ts⟩,
       ⟨r.pre ++ r.name ++ c!".count_1hour", .int hour1, ts⟩,
       ⟨r.pre ++ r.name ++ c!".count_1min", .int min1, ts⟩]

end Txstatsd
