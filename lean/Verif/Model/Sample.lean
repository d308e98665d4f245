import Verif.Model.Num

/-!
# `UniformSample` (stats/uniformsample.py)
-/

namespace Txstatsd

/-- `UniformSample` (uniformsample.py:26-45): `_values` and `_count`. `maxint` only bounds the random
draw, which is an argument of `update`. -/
structure UniformSample (α : Type) where
  values : List α
  count : Nat
  deriving Repr

namespace UniformSample
variable {α : Type}

/-- `__init__(reservoir_size)` (uniformsample.py:36-45); `zero` is the int `0`. -/
def init (zero : α) (reservoirSize : Nat) : UniformSample α :=
  { values := List.replicate reservoirSize zero, count := 0 }

/-- `clear` (uniformsample.py:47-49). -/
def clear (zero : α) (s : UniformSample α) : UniformSample α :=
  { values := List.replicate s.values.length zero, count := 0 }

/-- `size` (uniformsample.py:51-53). -/
def size (s : UniformSample α) : Nat :=
  if s.count > s.values.length then s.values.length else s.count

/-- `update` (uniformsample.py:55-62); `draw` is the result of `random.randint(1, self.maxint)`. -/
def update (s : UniformSample α) (draw : Nat) (value : α) : UniformSample α :=
  let count := s.count + 1
  if count ≤ s.values.length then
    { values := s.values.set (count - 1) value, count := count }
  else
    let r := draw % count
    if r < s.values.length then { values := s.values.set r value, count := count }
    else { s with count := count }

/-- `get_values` (uniformsample.py:64-66). -/
def getValues (s : UniformSample α) : List α := s.values.take s.size

end UniformSample

end Txstatsd
