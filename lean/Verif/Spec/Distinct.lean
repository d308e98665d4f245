import Verif.Model.Distinct

/-!
# What the distinct counter should do, said without its loops
-/

namespace Txstatsd.Spec

/-- The sightings were made with a clock that does not run backwards. -/
def Ordered (h : List (ℚ × Str)) : Prop := h.Pairwise fun a b => a.1 ≤ b.1

/-- The sightings strictly after `since`. -/
def within (since : ℚ) (h : List (ℚ × Str)) : List (ℚ × Str) := h.filter fun e => since < e.1

/-- The item was seen after `since`. -/
def SeenAfter (since : ℚ) (h : List (ℚ × Str)) (item : Str) : Prop := ∃ t, since < t ∧ (t, item) ∈ h

/-- A counter that has been given all the sightings, in order. -/
def feed (c : DistinctCounter) : List (ℚ × Str) → Except PyErr DistinctCounter
  | [] => .ok c
  | e :: rest =>
    match c.add e.1 e.2 with
    | .error x => .error x
    | .ok c => feed c rest

/-- `k` is the number of zeros at the right end of the binary representation of `n`; none are counted
for 0. -/
def TrailingZeros (n k : Nat) : Prop := (n = 0 ∧ k = 0) ∨ (n ≠ 0 ∧ 2 ^ k ∣ n ∧ ¬ 2 ^ (k + 1) ∣ n)

/-- Level `j` of `n` is the one the hash value `h` falls into: its trailing zeros, at most `n - 1`. -/
def FallsInto (n h j : Nat) : Prop := ∃ k, TrailingZeros h k ∧ ((k < n ∧ j = k) ∨ (n ≤ k ∧ j + 1 = n))

/-- Some item seen after `since` falls into level `j`. -/
def Hit (n : Nat) (table : Nat → Nat) (since : ℚ) (h : List (ℚ × Str)) (j : Nat) : Prop :=
  ∃ item, SeenAfter since h item ∧ FallsInto n (sboxHash table item) j

/-- `r` is the length of the unbroken run of hit levels that starts at level 0. -/
def IsRun (n : Nat) (table : Nat → Nat) (since : ℚ) (h : List (ℚ × Str)) (r : Nat) : Prop :=
  r ≤ n ∧ (∀ j < r, Hit n table since h j) ∧ (r < n → ¬ Hit n table since h r)

/-- What `SlidingDistinctCounter.__init__` establishes and `add` keeps. -/
def WellSized (c : DistinctCounter) : Prop := 0 < c.nBuckets ∧ ∀ r ∈ c.rows, r.buckets.length = c.nBuckets

end Txstatsd.Spec
