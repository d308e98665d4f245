import Verif.Model.Sample
import Mathlib.Data.Nat.Log

/-!
# `HistogramMetricReporter` (metrics/histogrammetric.py), over a `UniformSample`

`report` (histogrammetric.py:103-121), which nothing calls, is in Model/DecayFloat.
-/

namespace Txstatsd

/-- `HistogramMetricReporter` (histogrammetric.py:60-80). `varM`, `varS` are `variance[0]`,
`variance[1]`. -/
structure Histogram where
  sample : UniformSample PyFloat
  count : Nat
  max' : Option PyFloat
  min' : Option PyFloat
  sum : Num
  varM : PyFloat
  varS : PyFloat
  deriving Repr

/-- `int(x)` of a float (metrics/histogrammetric.py:158, 186). -/
def toIntF : PyFloat → Except PyErr ℤ
  | .nan => .error .valueError
  | .inf _ => .error .overflowError
  | .fin q => .ok (truncQ q)

/-- `max(a, b)` of two Python numbers: the first one unless the second is greater (metrics/histogrammetric.py:181, 206). -/
def pyMax (a b : PyFloat) : PyFloat := if a.lt b then b else a

/-- `min(a, b)` of two Python numbers: the first one unless the second is smaller (metrics/histogrammetric.py:182, 212). -/
def pyMin (a b : PyFloat) : PyFloat := if b.lt a then b else a

/-- `values.sort()` / `sorted`: ascending and stable. On lists without nan this is what Python's sort
computes; with nan Python's order is unspecified and the model's choice is arbitrary
(metrics/histogrammetric.py:148; server/processor.py:304). -/
def sortFloats (l : List PyFloat) : List PyFloat := l.mergeSort (fun a b => !(b.lt a))

namespace Histogram

/-- `clear` (histogrammetric.py:82-89). -/
def clear (h : Histogram) : Histogram :=
  { sample := h.sample.clear (.fin 0), count := 0, max' := none, min' := none, sum := .int 0,
    varM := .fin (-1), varS := .fin 0 }

/-- `__init__` with a `UniformSample(n)` (histogrammetric.py:60-80). -/
def init (n : Nat) : Histogram :=
  clear { sample := UniformSample.init (.fin 0) n, count := 0, max' := some (.fin 0),
          min' := some (.fin 0), sum := .int 0, varM := .fin (-1), varS := .fin 0 }

/-- `min()` (histogrammetric.py:123-125). -/
def min (h : Histogram) : PyFloat := if h.count > 0 then h.min'.getD (.fin 0) else .fin 0

/-- `max()` (histogrammetric.py:127-129). -/
def max (h : Histogram) : PyFloat := if h.count > 0 then h.max'.getD (.fin 0) else .fin 0

/-- `set_max` (histogrammetric.py:202-206). -/
def setMax (h : Histogram) (v : PyFloat) : Histogram :=
  match h.max' with
  | none => { h with max' := some v }
  | some _ => { h with max' := some (pyMax h.max v) }

/-- `set_min` (histogrammetric.py:208-212). -/
def setMin (h : Histogram) (v : PyFloat) : Histogram :=
  match h.min' with
  | none => { h with min' := some v }
  | some _ => { h with min' := some (pyMin h.min v) }

variable [Rounding]

/-- `update_variance` (histogrammetric.py:214-230). -/
def updateVariance (h : Histogram) (value : PyFloat) : Histogram :=
  if h.varM = .fin (-1) then { h with varM := value, varS := .fin 0 }
  else
    let newM := h.varM.add ((value.sub h.varM).divInt h.count)
    let newS := h.varS.add ((value.sub h.varM).mul (value.sub newM))
    { h with varM := newM, varS := newS }

/-- `update` (histogrammetric.py:91-101); `draw` is the random draw of the reservoir. -/
def update (h : Histogram) (draw : Nat) (value : PyFloat) : Histogram :=
  let h := { h with count := h.count + 1 }
  let h := { h with sample := h.sample.update draw value }
  let h := h.setMax value
  let h := h.setMin value
  let h := { h with sum := h.sum.add (.flt value) }
  h.updateVariance value

/-- `mean()` (histogrammetric.py:131-133). -/
def mean (h : Histogram) : PyFloat :=
  if h.count > 0 then h.sum.toFloat.divInt h.count else .fin 0

/-- `get_variance` (histogrammetric.py:197-200). -/
def getVariance (h : Histogram) : PyFloat :=
  if h.count ≤ 1 then .fin 0 else h.varS.divInt ((h.count : ℤ) - 1)

/-- `math.sqrt`: `ValueError` on negative arguments (metrics/histogrammetric.py:137). -/
def sqrtF : PyFloat → Except PyErr PyFloat
  | .nan => .ok .nan
  | .inf true => .error .valueError
  | .inf false => .ok (.inf false)
  | .fin q => if q < 0 then .error .valueError else .ok (Rounding.sqrt q)

/-- `std_dev` (histogrammetric.py:135-137). -/
def stdDev (h : Histogram) : Except PyErr PyFloat :=
  if h.count > 0 then sqrtF h.getVariance else .ok (.fin 0)

/-- One score of `percentiles` (histogrammetric.py:151-161) over the sorted values. `p` is the exact
value of the float literal. -/
def percentile (values : List PyFloat) (p : ℚ) : Except PyErr PyFloat :=
  match rnd (p * ((values.length : ℚ) + 1)) with
  | .fin pos =>
    if pos < 1 then
      match values.head? with
      | some v => .ok v
      | none => .error .indexError
    else if pos ≥ (values.length : ℚ) then
      match values.getLast? with
      | some v => .ok v
      | none => .error .indexError
    else
      -- here `1 ≤ pos`, so `int(pos) - 1` is not negative
      match values[(truncQ pos - 1).toNat]?, values[(truncQ pos).toNat]? with
      | some lower, some upper =>
        .ok (lower.add ((rnd (pos - (⌊pos⌋ : ℚ))).mul (upper.sub lower)))
      | _, _ => .error .indexError
  | .inf false => match values.getLast? with
      | some v => .ok v
      | none => .error .indexError
  | .inf true => match values.head? with
      | some v => .ok v
      | none => .error .indexError
  | .nan => .error .valueError

/-- `percentiles(*ps)` (histogrammetric.py:139-163). -/
def percentiles (h : Histogram) (ps : List ℚ) : Except PyErr (List PyFloat) :=
  if h.count > 0 then
    let values := sortFloats h.sample.getValues
    ps.mapM (percentile values)
  else .ok (List.replicate ps.length (.fin 0))

/-- Sturges' number of bins (histogrammetric.py:176): `int(math.ceil(1 + math.log(count, 2)))`,
computed exactly here (the float logarithm can be off by one ulp at large powers of two, giving one
more bin). -/
def sturges (count : Nat) : Nat := 1 + Nat.clog 2 count

/-- `scores[pos] += 1` with Python indexing: `IndexError` when out of range. The bins are floats
holding small integers; they are modelled as naturals (metrics/histogrammetric.py:190). -/
def bump (scores : List Nat) (pos : ℤ) : Except PyErr (List Nat) :=
  let i := if pos < 0 then pos + scores.length else pos
  if 0 ≤ i ∧ i < scores.length then .ok (scores.modify i.toNat (· + 1)) else .error .indexError

/-- The loop of `histogram()` (histogrammetric.py:185-191). -/
def binLoop (nBins : Nat) (minV range : PyFloat) : List PyFloat → List Nat → Except PyErr (List Nat)
  | [], scores => .ok scores
  | v :: vs, scores => do
    let q ← (v.sub minV).div range
    let pos ← toIntF (q.mul (rnd (nBins : ℚ)))
    let pos := if pos = nBins then pos - 1 else pos
    let scores ← bump scores pos
    binLoop nBins minV range vs scores

/-- `histogram()` with a given number of bins (histogrammetric.py:165-191). -/
def histogramWith (h : Histogram) (nBins : Nat) : Except PyErr (List Nat) :=
  if ¬ h.count > 0 then .ok (List.replicate 10 0)
  else match h.sample.getValues with
    | [] => .error .valueError   -- max([])
    | v :: vs =>
      let maxV := vs.foldl pyMax v
      let minV := vs.foldl pyMin v
      binLoop nBins minV (maxV.sub minV) (v :: vs) (List.replicate nBins 0)

/-- `histogram()` (histogrammetric.py:165-191). -/
def histogram (h : Histogram) : Except PyErr (List Nat) := h.histogramWith (sturges h.count)

end Histogram

end Txstatsd
