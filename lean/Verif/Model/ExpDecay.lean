import Verif.Model.Bisect
import Mathlib.Algebra.Order.Field.Basic
import Mathlib.Analysis.SpecialFunctions.Exp

/-!
# `ExponentiallyDecayingSample` (stats/exponentiallydecayingsample.py)

Floats are replaced by an ordered field `K`, and `math.exp` by any function on `K` that is positive and turns sums into
products (`Real.exp` is one). The overflow of `math.exp` is not modelled.
-/

namespace Txstatsd

/-- What is used of `math.exp` (stats/exponentiallydecayingsample.py:86, 129). -/
structure ExpFn (K : Type) [Field K] [LinearOrder K] where
  exp : K → K
  pos : ∀ x, 0 < exp x
  add : ∀ x y, exp (x + y) = exp x * exp y

/-- The real exponential (stats/exponentiallydecayingsample.py:86, 129). -/
noncomputable def realExp : ExpFn ℝ := ⟨Real.exp, Real.exp_pos, Real.exp_add⟩

/-- `ExponentiallyDecayingSample` (exponentiallydecayingsample.py:46-69): entries are `(priority, value)`. -/
structure ExpDecay (K V : Type) where
  alpha : K
  reservoirSize : Nat
  values : List (K × V)
  count : Nat
  startTime : K
  nextScaleTime : K

namespace ExpDecay
variable {K V : Type} [Field K] [LinearOrder K] [LinearOrder V]

/-- `<` on tuples (stats/exponentiallydecayingsample.py:91-94, 130). -/
def entryLt (a b : K × V) : Bool := decide (a.1 < b.1 ∨ (a.1 = b.1 ∧ a.2 < b.2))

/-- `clear` (exponentiallydecayingsample.py:64-69); `t1`, `t2` are the two readings of the clock. -/
def clear (s : ExpDecay K V) (t1 t2 : K) : ExpDecay K V :=
  { s with values := [], count := 0, startTime := t1, nextScaleTime := t2 + 600 }

/-- `__init__` (exponentiallydecayingsample.py:46-62). -/
def init (reservoirSize : Nat) (alpha t1 t2 : K) : ExpDecay K V :=
  clear { alpha := alpha, reservoirSize := reservoirSize, values := [], count := 0, startTime := 0, nextScaleTime := 0 }
    t1 t2

/-- `size` (exponentiallydecayingsample.py:71-72). -/
def size (s : ExpDecay K V) : Nat := min s.reservoirSize s.count

/-- The loop of `rescale` (exponentiallydecayingsample.py:127-130). -/
def rescaleLoop (factor : K) : List (K × V) → List (K × V) → List (K × V)
  | [], acc => acc
  | (k, v) :: rest, acc => rescaleLoop factor rest (insort entryLt acc (k * factor, v))

/-- `rescale(now, next)` (exponentiallydecayingsample.py:102-131). -/
def rescale (E : ExpFn K) (s : ExpDecay K V) (now : K) : ExpDecay K V :=
  { s with
    nextScaleTime := now + 600
    startTime := now
    values := rescaleLoop (E.exp (-s.alpha * (now - s.startTime))) s.values [] }

/-- `update(value, timestamp)` (exponentiallydecayingsample.py:74-97). `timestamp` is the argument, or the clock reading
when there is none; `draw` is the result of `random()`. -/
def update (E : ExpFn K) (s : ExpDecay K V) (value : V) (timestamp draw : K) : ExpDecay K V × Option PyErr :=
  let s := if timestamp ≥ s.nextScaleTime then s.rescale E timestamp else s
  if draw = 0 then (s, some .zeroDivisionError)
  else
    let priority := E.exp (s.alpha * (timestamp - s.startTime)) / draw
    if s.count < s.reservoirSize then
      ({ s with count := s.count + 1, values := insort entryLt s.values (priority, value) }, none)
    else match s.values with
      | [] => (s, some .indexError)
      | first :: _ =>
        if first.1 < priority then
          ({ s with values := (insort entryLt s.values (priority, value)).tail }, none)
        else (s, none)

/-- `get_values` (exponentiallydecayingsample.py:99-100). -/
def getValues (s : ExpDecay K V) : List V := s.values.map Prod.snd

end ExpDecay
end Txstatsd
