import Verif.Spec.Schedule
import Verif.Spec.Timer
import Verif.Spec.Configurable
import Verif.Model.Ieee

/-!
# Timers, gauges and meters in schedules
-/

namespace Txstatsd.Spec

/-- The name of one of the statistics of timer `key`: the key, a dot, and a word without a dot. -/
def ofTimer (key : Str) (d : Datapoint) : Bool :=
  let pre := c!"stats.timers." ++ key ++ c!"."
  pre.isPrefixOf d.name && !(d.name.drop pre.length).contains '.'

/-- `group` summarises the (non-empty) durations `ds` of timer `key`: the five statistics in order, with one timestamp;
the first is the number of durations; if the durations are finite the others are right as well. -/
def Summarises (percent ts : ℤ) (key : Str) (ds : List PyFloat) (group : List Datapoint) : Prop :=
  group.map Datapoint.name =
    [c!"stats.timers." ++ key ++ c!".count", c!"stats.timers." ++ key ++ c!".lower", c!"stats.timers." ++ key ++ c!".mean",
     c!"stats.timers." ++ key ++ c!".upper", c!"stats.timers." ++ key ++ c!".upper_" ++ intStr percent] ∧
  (∀ d ∈ group, d.ts = ts) ∧ group.head?.map Datapoint.value = some (.int ds.length) ∧
  ∀ qs : List ℚ, ds = qs.map PyFloat.fin → TimerSummary percent ts key qs group

/-- No message counts anything under a name that begins with `pre`. -/
def NoCounter (pre : Str) (msgs : List Str) : Prop := ∀ m ∈ msgs, ∀ k fs, Parsed m c!"c" k fs → ¬ pre <+: k

/-- `v` is the sum of all accepted readings of meter `key`, rounded to six decimals, if they are all finite. -/
def TotalOf [Rounding] (key : Str) (msgs : List Str) (v : Num) : Prop :=
  ∀ qs : List ℚ, Collect (Reading c!"m" key) msgs (qs.map PyFloat.fin) → ∃ c, Near6 c qs.sum ∧ v = .flt (.fin c)

/-- `v` is the double nearest to `x` rounded to six decimals. -/
def Printed6 [Rounding] (x : ℚ) (v : Num) : Prop := ∃ d r, Near6 d x ∧ rnd d = .fin r ∧ v = .flt (.fin r)

/-- In double arithmetic: `v` is near the sum of all accepted readings of meter `key`, then rounded to six decimals. Each of the `n` readings takes part in at most two additions. -/
def NearTotalOf [Rounding] (key : Str) (msgs : List Str) (v : Num) : Prop :=
  ∀ qs : List ℚ, Collect (Reading c!"m" key) msgs (qs.map PyFloat.fin) → qs.length ≤ 2 ^ 51 →
    (qs.map abs).sum ≤ 2 ^ (1000 : ℤ) →
    ∃ c, |c - qs.sum| ≤ (qs.length : ℚ) / 2 ^ 51 * (qs.map abs).sum ∧ Printed6 c v

/-- `v` is the sum of all accepted readings of meter `key` if they are whole numbers that do not add up to more than
`2^53`. -/
def WholeTotalOf [Rounding] (key : Str) (msgs : List Str) (v : Num) : Prop :=
  ∀ zs : List ℤ, Collect (Reading c!"m" key) msgs (zs.map fun z : ℤ => PyFloat.fin z) → (zs.map abs).sum ≤ 2 ^ 53 →
    v = .flt (.fin zs.sum)

/-- The total of a meter, in the three kinds of arithmetic. -/
def MeterTotal [Rounding] (key : Str) (msgs : List Str) (v : Num) : Prop :=
  (Exact → TotalOf key msgs v) ∧ (Ieee → NearTotalOf key msgs v) ∧ (IntExact → WholeTotalOf key msgs v)

/-- What a datapoint of the configurable processor with prefix `pre` says about the messages `msgs`: it is the integer
part of the latest value of a counter, the latest value of a gauge, one of the statistics of a timer that was received,
the rate of a meter or its total, one of the processor's own statistics (under `self`), or made by
a plugin. -/
def AboutC [Rounding] (byPlugin : Datapoint → Prop) (pre self : Str) (msgs : List Str) (d : Datapoint) : Prop :=
  (∃ k q z, Latest c!"c" k msgs (.fin q) ∧ IntegerPart q z ∧ d.name = prefixed pre k c!".count" ∧ d.value = .int z) ∨
  (∃ k v, Latest c!"g" k msgs v ∧ d.name = prefixed pre k c!".value" ∧ d.value = .flt v) ∨
  (∃ k suffix, Received c!"ms" k msgs ∧ (c!"ms", suffix) ∈ suffixes ∧ d.name = prefixed pre k suffix) ∨
  (∃ k, Received c!"m" k msgs ∧ (d.name = prefixed pre k c!".rate" ∨
    d.name = prefixed pre k c!".count" ∧ MeterTotal k msgs d.value)) ∨
  self <+: d.name ∨ byPlugin d

/-- What a datapoint of the default processor says about the messages `msgs`: it belongs to a counter that was received,
to a timer that was received, it is an accepted reading of a gauge, the rate of a meter or its total, one of the processor's own statistics, or made by a plugin. -/
def AboutD [Rounding] (byPlugin : Datapoint → Prop) (msgs : List Str) (d : Datapoint) : Prop :=
  (∃ k, (∃ m ∈ msgs, ∃ fs, Parsed m c!"c" k fs) ∧ (d.name = c!"stats." ++ k ∨ d.name = c!"stats_counts." ++ k)) ∨
  (∃ k, Received c!"ms" k msgs ∧ ofTimer k d = true) ∨
  (∃ k v, (∃ m ∈ msgs, Reading c!"g" k m v) ∧ d.name = c!"stats.gauge." ++ k ++ c!".value" ∧ d.value = .flt v) ∨
  (∃ k, Received c!"m" k msgs ∧ (d.name = c!"stats.meter." ++ k ++ c!".rate" ∨
    d.name = c!"stats.meter." ++ k ++ c!".count" ∧ MeterTotal k msgs d.value)) ∨
  c!"statsd." <+: d.name ∨ byPlugin d

/-! ## Timers of the configurable processor -/

/-- One of the statistics the configurable processor makes of timer `key`. -/
def ofTimerC (pre key : Str) (d : Datapoint) : Bool :=
  suffixes.any fun p => decide (p.1 = c!"ms") && decide (d.name = prefixed pre key p.2)

/-- The reports of a timer with the given history: one for each time a report was asked for, of which `R` holds (`R` speaks
of the history before the report, the timestamp and the report). -/
inductive ReportsOf (R : List TimerOp → ℤ → List Datapoint → Prop) : List TimerOp → List (List Datapoint) → Prop
  | nil : ReportsOf R [] []
  | add {h gs} (q : ℚ) : ReportsOf R h gs → ReportsOf R (h ++ [.add q]) gs
  | report {h gs g} (ts : ℤ) : ReportsOf R h gs → R h ts g → ReportsOf R (h ++ [.report ts]) (gs ++ [g])

/-- The reports in exact arithmetic: each is about the durations since the report before, with the number of durations of the
whole history. -/
abbrev TimerReports [Rounding] (pre key : Str) (start : ℚ) : List TimerOp → List (List Datapoint) → Prop :=
  ReportsOf fun h ts g => TimerReport pre key (period h) (durations h).length (ts - periodStart start h) ts g

/-! ## Names of the configurable processor -/

/-- The same names are stored and the same types of messages were handled. -/
def SameNamesC {C T GV PF PM : Type} (s s' : PS C T (Dict GV) PF PM) : Prop :=
  s'.counters.keys = s.counters.keys ∧ s'.timers.keys = s.timers.keys ∧ s'.gauges.keys = s.gauges.keys ∧
  s'.meters.keys = s.meters.keys ∧ s'.pluginMetrics.keys = s.pluginMetrics.keys ∧
  s'.processTimings.keys = s.processTimings.keys

/-- No arrival in the schedule adds a name or a type. -/
def SettledC [Rounding] {C T GV PF PM : Type} (I : Impl C T (Dict GV) PF PM) (w : World) :
    Server C T (Dict GV) PF PM → List Event → Prop
  | _, [] => True
  | v, e :: es =>
    (match e with
      | .arrive m => SameNamesC v.ps (process I w v.ps m).1
      | _ => True) ∧ SettledC I w (v.step I w e) es

end Txstatsd.Spec
