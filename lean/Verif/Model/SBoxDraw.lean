import Verif.Model.Distinct

/-!
# Where the tables of the hash come from (metrics/distinctmetric.py)

`rand i` is the result of the `i`-th call of `random.randint(0, 0xFFFFFFFF - 1)` in the process.
-/

namespace Txstatsd

/-- `SBoxHash.__init__` (distinctmetric.py:48-49) after `start` calls of `randint`: the table and the number of calls since. A list has
no entries beyond the 256th (an index beyond it would raise; bytes are no such indices). -/
def sboxInit (rand : ℕ → ℕ) (start : ℕ) : (Nat → Nat) × ℕ := (fun b => if b < 256 then rand (start + b) else 0, start + 256)

/-- The function `hash` of the module (distinctmetric.py:60-63). -/
def freshHash (rand : ℕ → ℕ) (start : ℕ) (data : Str) : ℕ × ℕ :=
  let p := sboxInit rand start
  (sboxHash p.1 data, p.2)

/-- `[SBoxHash() for i in range(n_hashes)]` (distinctmetric.py:88). -/
def drawHashes (rand : ℕ → ℕ) (start : ℕ) : ℕ → List (Nat → Nat) × ℕ
  | 0 => ([], start)
  | k + 1 =>
    let p := sboxInit rand start
    let q := drawHashes rand p.2 k
    (p.1 :: q.1, q.2)

/-- `SlidingDistinctCounter.__init__` (distinctmetric.py:84-89). -/
def drawCounter (rand : ℕ → ℕ) (start nHashes nBuckets : ℕ) : DistinctCounter × ℕ :=
  let p := drawHashes rand start nHashes
  (.init nBuckets p.1, p.2)

end Txstatsd
