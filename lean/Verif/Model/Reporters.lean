import Verif.Model.Histogram

/-!
# Server-side metric reporters

`CounterMetricReporter`, `GaugeMetricReporter`, `MeterMetricReporter`, `TimerMetricReporter`.
-/

namespace Txstatsd

/-- `if prefix: prefix += "."` (countermetric.py:78-80, gaugemetric.py:55-57, metermetric.py:65-67,
timermetric.py:69-71, distinctmetric.py:139-141). -/
def dotted (pre : Str) : Str := if pre.isEmpty then pre else pre ++ c!"."

/-- `CounterMetricReporter` (countermetric.py:68-81). `pre` is the stored `self.prefix`. -/
structure CounterRep where
  name : Str
  pre : Str
  count : Num
  deriving Repr

/-- `__init__` (countermetric.py:71-81). -/
def CounterRep.init (name pre : Str) : CounterRep := { name := name, pre := dotted pre, count := .int 0 }

/-- `mark` (countermetric.py:83-84). -/
def CounterRep.mark (c : CounterRep) (v : PyFloat) : CounterRep := { c with count := .flt v }

/-- `report` (countermetric.py:86-88). -/
def CounterRep.report (c : CounterRep) (ts : ℤ) : Except PyErr (List Datapoint) :=
  match truncNum c.count with
  | .ok z => .ok [⟨c.pre ++ c.name ++ c!".count", .int z, ts⟩]
  | .error e => .error e

/-- `GaugeMetricReporter` (gaugemetric.py:45-58). -/
structure GaugeRep where
  name : Str
  pre : Str
  value : Num
  deriving Repr

/-- `__init__` (gaugemetric.py:48-58). -/
def GaugeRep.init (name pre : Str) : GaugeRep := { name := name, pre := dotted pre, value := .int 0 }

/-- `mark` (gaugemetric.py:60-61). -/
def GaugeRep.mark (g : GaugeRep) (v : PyFloat) : GaugeRep := { g with value := .flt v }

/-- `report` (gaugemetric.py:63-64). -/
def GaugeRep.report (g : GaugeRep) (ts : ℤ) : List Datapoint :=
  [⟨g.pre ++ g.name ++ c!".value", g.value, ts⟩]

/-- `MeterMetricReporter` (metermetric.py:50-70). `pollTime` is a wall-clock reading first, then the
integer timestamp of the last report. -/
structure Meter where
  name : Str
  pre : Str
  value : Num
  count : Num
  pollTime : ℚ
  deriving Repr

/-- `__init__` (metermetric.py:56-70); `now` is the reading of `wall_time_func()`. -/
def Meter.init (name pre : Str) (now : ℚ) : Meter :=
  { name := name, pre := dotted pre, value := .int 0, count := .int 0, pollTime := now }

variable [Rounding]

/-- `mark` (metermetric.py:72-79). -/
def Meter.mark (m : Meter) (v : PyFloat) : Meter := { m with value := m.value.add (.flt v) }

/-- `report` (metermetric.py:81-105). The assignment of `poll_time` happens first and is kept if the
division raises. -/
def Meter.report (m : Meter) (ts : ℤ) : Meter × Except PyErr (List Datapoint) :=
  let prev := m.pollTime
  let m := { m with pollTime := (ts : ℚ) }
  if m.pollTime = prev then (m, .ok [])
  else match m.value.toFloat.div (rnd (m.pollTime - prev)) with
    | .error e => (m, .error e)
    | .ok rate =>
      let m := { m with count := m.count.add m.value, value := .int 0 }
      (m, .ok [⟨m.pre ++ m.name ++ c!".count", .flt (round6 m.count.toFloat), ts⟩,
               ⟨m.pre ++ m.name ++ c!".rate", .flt (round6 rate), ts⟩])

/-- `TimerMetricReporter` (timermetric.py:52-77). -/
structure TimerRep where
  name : Str
  pre : Str
  hist : Histogram
  count : Nat
  lastTime : PyFloat
  deriving Repr

/-- `clear(timestamp)` (timermetric.py:79-84); the argument is `float(timestamp)`. -/
def TimerRep.clear (t : TimerRep) (ts : PyFloat) : TimerRep :=
  { t with hist := t.hist.clear, lastTime := ts }

/-- `__init__` (timermetric.py:58-77) with its `UniformSample(1028)`; `now` is the clock reading. -/
def TimerRep.init (name pre : Str) (now : ℚ) : TimerRep :=
  TimerRep.clear { name := name, pre := dotted pre, hist := Histogram.init 1028, count := 0,
                   lastTime := .fin 0 } (.fin now)

/-- `update` (timermetric.py:127-134). -/
def TimerRep.update (t : TimerRep) (draw : Nat) (duration : PyFloat) : TimerRep :=
  let t := { t with count := t.count + 1 }
  if PyFloat.le (.fin 0) duration then { t with hist := t.hist.update draw duration } else t

/-- `rate(timestamp)` (timermetric.py:86-91). -/
def TimerRep.rate (t : TimerRep) (ts : ℤ) : Except PyErr Num :=
  let dt := (rnd (ts : ℚ)).sub t.lastTime
  if dt = .fin 0 then .ok (.int 0)
  else match (rnd (t.hist.count : ℚ)).div dt with
    | .ok r => .ok (.flt r)
    | .error e => .error e

/-- The exact values of the doubles 0.5, 0.75, 0.95, 0.98, 0.99 and 0.999 (timermetric.py:138). -/
def timerPercentiles : List ℚ :=
  [1/2, 3/4, 4278419646001971/4503599627370496, 2206763817411543/2251799813685248,
   4458563631096791/4503599627370496, 8998192055486251/9007199254740992]

/-- The values of `report` (timermetric.py:136-151), in the sorted order of their suffixes. -/
def TimerRep.reportItems (t : TimerRep) (ts : ℤ) : Except PyErr (List (Str × PyFloat)) := do
  let ps ← t.hist.percentiles timerPercentiles
  let sd ← t.hist.stdDev
  let r ← t.rate ts
  return [(c!".999percentile", ps.getD 5 (.fin 0)),
          (c!".99percentile", ps.getD 4 (.fin 0)),
          (c!".count", rnd (t.count : ℚ)),
          (c!".max", t.hist.max),
          (c!".mean", t.hist.mean),
          (c!".min", t.hist.min),
          (c!".rate", r.toFloat),
          (c!".stddev", sd)]

/-- `report` (timermetric.py:136-153). -/
def TimerRep.report (t : TimerRep) (ts : ℤ) : TimerRep × Except PyErr (List Datapoint) :=
  match t.reportItems ts with
  | .error e => (t, .error e)
  | .ok items =>
    (t.clear (rnd (ts : ℚ)),
     .ok (items.map fun p => ⟨t.pre ++ t.name ++ p.1, .flt (round6 p.2), ts⟩))

end Txstatsd
