import Verif.Model.Bisect
import Verif.Model.Histogram
import Verif.Model.Reporters

/-!
# `ExponentiallyDecayingSample` in floats (stats/exponentiallydecayingsample.py), and the histogram over it

Model/ExpDecay.lean computes in an ordered field; here every operation is one of floats, and `math.exp` may overflow (it raises)
and underflow (it gives 0).
-/

namespace Txstatsd

/-- `math.exp` (exponentiallydecayingsample.py:86, 129): an arbitrary function of the model. -/
class FloatExp where
  exp : PyFloat → Except PyErr PyFloat

/-- What is used of `math.exp` (exponentiallydecayingsample.py:86, 129). `math.exp(602) < 2 ** 900`; below -746 it underflows. -/
class ExpLaws [FloatExp] : Prop where
  ok : ∀ x : ℚ, x ≤ 602 → ∃ q, FloatExp.exp (.fin x) = .ok (.fin q) ∧ 0 ≤ q ∧ q ≤ 2 ^ (900 : ℤ)
  down : ∀ x : ℚ, x ≤ 0 → ∃ q, FloatExp.exp (.fin x) = .ok (.fin q) ∧ 0 ≤ q ∧ q ≤ 1
  zero : FloatExp.exp (.fin 0) = .ok (.fin 1)
  tiny : ∀ x : ℚ, x ≤ -746 → FloatExp.exp (.fin x) = .ok (.fin 0)
  minusInf : FloatExp.exp (.inf true) = .ok (.fin 0)

/-- `ExponentiallyDecayingSample` (exponentiallydecayingsample.py:46-69): entries are `(priority, value)`. -/
structure DecaySample where
  alpha : PyFloat
  reservoirSize : Nat
  values : List (PyFloat × PyFloat)
  count : Nat
  startTime : PyFloat
  nextScaleTime : PyFloat
  deriving DecidableEq, Repr

namespace DecaySample

/-- `<` on tuples: the first components that differ decide (exponentiallydecayingsample.py:91-94, 130). -/
def entryLt (a b : PyFloat × PyFloat) : Bool := if a.1 = b.1 ∧ a.1 ≠ .nan then a.2.lt b.2 else a.1.lt b.1

variable [Rounding]

/-- `clear` (exponentiallydecayingsample.py:64-69); `t1`, `t2` are the two readings of the clock. -/
def clear (s : DecaySample) (t1 t2 : ℚ) : DecaySample :=
  { s with values := [], count := 0, startTime := .fin t1, nextScaleTime := (PyFloat.fin t2).add (.fin 600) }

/-- `__init__` (exponentiallydecayingsample.py:46-62). -/
def init (reservoirSize : Nat) (alpha : PyFloat) (t1 t2 : ℚ) : DecaySample :=
  clear { alpha := alpha, reservoirSize := reservoirSize, values := [], count := 0, startTime := .fin 0, nextScaleTime := .fin 0 }
    t1 t2

variable [FloatExp]

/-- The loop of `rescale` (exponentiallydecayingsample.py:127-131); `math.exp` is called for each entry. -/
def rescaleLoop (shift : PyFloat) : List (PyFloat × PyFloat) → List (PyFloat × PyFloat) → Except PyErr (List (PyFloat × PyFloat))
  | [], acc => .ok acc
  | (k, v) :: rest, acc =>
    match FloatExp.exp shift with
    | .error e => .error e
    | .ok f => rescaleLoop shift rest (insort entryLt acc (k.mul f, v))

/-- `rescale(now, next)` (exponentiallydecayingsample.py:102-131). If `math.exp` raises, the times have been set already. -/
def rescale (s : DecaySample) (now : ℚ) : DecaySample × Option PyErr :=
  let s' := { s with nextScaleTime := (PyFloat.fin now).add (.fin 600), startTime := .fin now }
  match rescaleLoop (s.alpha.neg.mul ((PyFloat.fin now).sub s.startTime)) s.values [] with
  | .error e => (s', some e)
  | .ok vs => ({ s' with values := vs }, none)

/-- The second part of `update`, after the rescaling (exponentiallydecayingsample.py:86-97). -/
def insert (s : DecaySample) (value : PyFloat) (timestamp draw : ℚ) : DecaySample × Option PyErr :=
  match FloatExp.exp (s.alpha.mul ((PyFloat.fin timestamp).sub s.startTime)) with
  | .error e => (s, some e)
  | .ok x =>
    match x.div (.fin draw) with
    | .error e => (s, some e)
    | .ok priority =>
      if s.count < s.reservoirSize then
        ({ s with count := s.count + 1, values := insort entryLt s.values (priority, value) }, none)
      else match s.values with
        | [] => (s, some .indexError)
        | first :: _ =>
          if first.1.lt priority then ({ s with values := (insort entryLt s.values (priority, value)).tail }, none)
          else (s, none)

/-- `update(value, timestamp)` (exponentiallydecayingsample.py:74-97). `timestamp` is the argument, or the clock reading
when there is none; `draw` is the result of `random()`. -/
def update (s : DecaySample) (value : PyFloat) (timestamp draw : ℚ) : DecaySample × Option PyErr :=
  if s.nextScaleTime.le (.fin timestamp) then
    match s.rescale timestamp with
    | (s, some e) => (s, some e)
    | (s, none) => s.insert value timestamp draw
  else s.insert value timestamp draw

omit [Rounding] [FloatExp] in
/-- `get_values` (exponentiallydecayingsample.py:99-100). -/
def getValues (s : DecaySample) : List PyFloat := s.values.map Prod.snd

omit [Rounding] [FloatExp] in
/-- `size` (exponentiallydecayingsample.py:71-72). -/
def size (s : DecaySample) : Nat := min s.reservoirSize s.count

end DecaySample

/-! ## Histograms over a decaying sample -/

/-- `HistogramMetricReporter` over an `ExponentiallyDecayingSample` (histogrammetric.py:60-80). `nums` holds the numbers that do
not depend on the sample; the uniform sample in it plays no part. -/
structure DecayHistogram where
  sample : DecaySample
  nums : Histogram

/-- `report` of any histogram (histogrammetric.py:103-121), after percentiles and standard deviation are computed: the loop unpacks
each value of the dictionary into two variables, and numbers cannot be unpacked. -/
def unpackLoop : List PyFloat → Except PyErr (List Datapoint)
  | [] => .ok []
  | _ :: _ => .error .typeError

namespace Histogram
variable [Rounding]

/-- `report` (histogrammetric.py:103-121), with the same percentiles as the report of a timer; the order of the values is that of a dictionary, and plays no part. -/
def report (h : Histogram) : Except PyErr (List Datapoint) := do
  let ps ← h.percentiles timerPercentiles
  let sd ← h.stdDev
  unpackLoop ([h.min, h.max, h.mean, sd] ++ ps)

end Histogram

namespace DecayHistogram
variable [Rounding]

/-- `using_exponentially_decaying_sample` (histogrammetric.py:49-58, 60-80): 1028 entries, `alpha` 0.015. The sample is cleared by
its constructor and again by that of the histogram: `t1` to `t4` are the readings of the clock. -/
def init (t1 t2 t3 t4 : ℚ) : DecayHistogram :=
  { sample := (DecaySample.init 1028 (rnd (15 / 1000)) t1 t2).clear t3 t4, nums := Histogram.init 0 }

/-- `clear` (histogrammetric.py:82-89). -/
def clear (h : DecayHistogram) (t1 t2 : ℚ) : DecayHistogram := { sample := h.sample.clear t1 t2, nums := h.nums.clear }

/-- `update` (histogrammetric.py:91-101): the sample may raise when the count is already increased. -/
def update [FloatExp] (h : DecayHistogram) (value : PyFloat) (now draw : ℚ) : DecayHistogram × Option PyErr :=
  let n := { h.nums with count := h.nums.count + 1 }
  match h.sample.update value now draw with
  | (s, some e) => ({ sample := s, nums := n }, some e)
  | (s, none) =>
    let n := (n.setMax value).setMin value
    ({ sample := s, nums := ({ n with sum := n.sum.add (.flt value) } : Histogram).updateVariance value }, none)

/-- `get_values` (histogrammetric.py:193-195). -/
def getValues (h : DecayHistogram) : List PyFloat := h.sample.getValues

/-- `percentiles(*ps)` (histogrammetric.py:139-163). -/
def percentiles (h : DecayHistogram) (ps : List ℚ) : Except PyErr (List PyFloat) :=
  if h.nums.count > 0 then
    let values := sortFloats h.getValues
    ps.mapM (Histogram.percentile values)
  else .ok (List.replicate ps.length (.fin 0))

/-- `report` (histogrammetric.py:103-121). -/
def report (h : DecayHistogram) : Except PyErr (List Datapoint) := do
  let ps ← h.percentiles timerPercentiles
  let sd ← h.nums.stdDev
  unpackLoop ([h.nums.min, h.nums.max, h.nums.mean, sd] ++ ps)

end DecayHistogram

/-! ## The accessors of a timer -/

namespace TimerRep

/-- `max` (timermetric.py:93-95). -/
def max (t : TimerRep) : PyFloat := t.hist.max

/-- `min` (timermetric.py:97-99). -/
def min (t : TimerRep) : PyFloat := t.hist.min

/-- `get_values` (timermetric.py:123-125; histogrammetric.py:193-195). -/
def getValues (t : TimerRep) : List PyFloat := t.hist.sample.getValues

variable [Rounding]

/-- `mean` (timermetric.py:101-103). -/
def mean (t : TimerRep) : PyFloat := t.hist.mean

/-- `std_dev` (timermetric.py:105-107). -/
def stdDev (t : TimerRep) : Except PyErr PyFloat := t.hist.stdDev

/-- `percentiles` (timermetric.py:114-121). -/
def percentiles (t : TimerRep) (ps : List ℚ) : Except PyErr (List PyFloat) := t.hist.percentiles ps

end TimerRep
end Txstatsd
