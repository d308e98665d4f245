import Verif.Model.Reporters
import Verif.Model.Text
import Mathlib.Data.List.Dedup

/-!
# Message processors (server/processor.py)

The class hierarchy `MessageProcessor` / `ConfigurableMessageProcessor` / `LoggingMessageProcessor`
is modelled by one state type and a record `Impl` of the overridable methods.
-/

namespace Txstatsd

/-- Everything outside the program that processing a message can observe, indexed by the number of
clock readings made so far (`ticks`): the clock, the random draw of a reservoir, the random SBox
tables of a new distinct counter. Arbitrary functions, hence any clock and any random outcome
(server/processor.py:87 (`time_function`); stats/uniformsample.py:60; metrics/distinctmetric.py:49). -/
structure World where
  clk : Nat → ℚ
  rand : Nat → Nat
  sbox : Nat → Nat → Nat → Nat

/-- The observable effects of a call of `process` besides the state change: the messages logged as
"Bad line" (processor.py:72-74) and the exception that escapes, if any. -/
structure Outcome where
  bad : List Str := []
  exc : Option PyErr := none
  deriving DecidableEq, Repr

/-- What the processor uses of a plugin (itxstatsd.py:25-75): the factory's `metric_type` and `name`,
`build_metric`, and the metric's `process` and `flush`. A metric may read the clock: it is given the
world and the current number of readings and returns how many readings it made. -/
structure PluginOps (PF PM : Type) where
  mtype : PF → Str
  name : PF → Str
  build : World → Nat → PF → Str → Str → PM
  process : World → Nat → PM → List Str → PM × Nat × Option PyErr
  flush : World → Nat → PM → ℤ → ℤ → PM × Nat × Except PyErr (List Datapoint)

/-- The attributes of a processor (processor.py:86-110). `C`, `T` are the types of the stored counters
and timers, `G` of the gauge collection, `PF`/`PM` of plugin factories/metrics. `ticks` counts the
calls of `time_function`. -/
structure PS (C T G PF PM : Type) where
  ticks : Nat := 0
  processTimings : Dict Num := []
  byType : Dict Nat := []
  lastFlush : Num := .int 0
  lastProcess : Num := .int 0
  timers : Dict T := []
  counters : Dict C := []
  gauges : G
  meters : Dict Meter := []
  plugins : Dict PF := []
  pluginMetrics : Dict PM := []

/-- What visiting one element of a flushed collection does: `none` is "nothing yielded", `some g` is
one yielded group of datapoints (server/processor.py:289-341). -/
abbrev VisitResult := Except PyErr (Option (List Datapoint))

/-- The methods that differ between processor classes. The `…Visit` functions are the bodies of the
loops of the `flush_…_metrics` generators, applied to the element at an index (server/processor.py:145-222, 289-341). -/
structure Impl (C T G PF PM : Type) where
  processCounter : World → PS C T G PF PM → Str → List Str → Str → PS C T G PF PM × Outcome
  composeTimer : World → PS C T G PF PM → Str → PyFloat → PS C T G PF PM
  composeGauge : PS C T G PF PM → Str → PyFloat → PS C T G PF PM
  meterPrefix : Str
  messagePrefix : Str → Str
  internalPrefix : Str
  ops : PluginOps PF PM
  counterVisit : (interval ts : ℤ) → PS C T G PF PM → Nat → PS C T G PF PM × VisitResult
  timerVisit : (percent ts : ℤ) → PS C T G PF PM → Nat → PS C T G PF PM × VisitResult
  gaugeVisit : (ts : ℤ) → PS C T G PF PM → Nat → PS C T G PF PM × VisitResult
  gaugeLen : G → Nat

section
variable [Rounding] {C T G PF PM : Type}

/-- `compose_meter_metric` (processor.py:217-222, configurableprocessor.py:89-94). A new meter reads the
clock. -/
def composeMeter (I : Impl C T G PF PM) (w : World) (s : PS C T G PF PM) (key : Str) (v : PyFloat) :
    PS C T G PF PM :=
  match s.meters.find key with
  | some m => { s with meters := s.meters.put key (m.mark v) }
  | none =>
    let m := Meter.init key I.meterPrefix (w.clk s.ticks)
    { s with ticks := s.ticks + 1, meters := s.meters.put key (m.mark v) }

/-- `process_timer_metric` (processor.py:157-163). -/
def processTimer (I : Impl C T G PF PM) (w : World) (s : PS C T G PF PM) (key duration msg : Str) :
    PS C T G PF PM × Outcome :=
  match parseFloat duration with
  | none => (s, { bad := [msg] })
  | some d => (I.composeTimer w s key d, {})

/-- `process_gauge_metric` (processor.py:189-199). The `except` branch does not return, so the name
`value` is unbound in the next statement. -/
def processGauge (I : Impl C T G PF PM) (s : PS C T G PF PM) (key composite msg : Str) :
    PS C T G PF PM × Outcome :=
  let values := splitOn ':' composite
  if values.length ≠ 1 then (s, { bad := [msg] })
  else match parseFloat (values.headD []) with
    | none => (s, { bad := [msg], exc := some .unboundLocalError })
    | some v => (I.composeGauge s key v, {})

/-- `process_meter_metric` (processor.py:205-215). -/
def processMeter (I : Impl C T G PF PM) (w : World) (s : PS C T G PF PM) (key composite msg : Str) :
    PS C T G PF PM × Outcome :=
  let values := splitOn ':' composite
  if values.length ≠ 1 then (s, { bad := [msg] })
  else match parseFloat (values.headD []) with
    | none => (s, { bad := [msg], exc := some .unboundLocalError })
    | some v => (composeMeter I w s key v, {})

omit [Rounding] in
/-- `process_plugin_metric` (processor.py:148-155). The caller has checked that the type is registered;
the lookup of the factory cannot fail. -/
def processPlugin (I : Impl C T G PF PM) (w : World) (s : PS C T G PF PM) (f : PF) (key : Str)
    (items : List Str) : PS C T G PF PM × Outcome :=
  let s := match s.pluginMetrics.find key with
    | some _ => s
    | none => { s with pluginMetrics :=
        s.pluginMetrics.put key (I.ops.build w s.ticks f (I.messagePrefix (I.ops.name f)) key) }
  match s.pluginMetrics.find key with
  | none => (s, { exc := some .keyError })   -- unreachable
  | some m =>
    let (m, n, e) := I.ops.process w s.ticks m items
    ({ s with ticks := s.ticks + n, pluginMetrics := s.pluginMetrics.put key m }, { exc := e })

/-- The end of `process_message` (processor.py:140-143). -/
def account (w : World) (s : PS C T G PF PM) (mtype : Str) (start : ℚ) : PS C T G PF PM :=
  let elapsed := Num.flt (rnd (w.clk s.ticks - start))
  { s with
    ticks := s.ticks + 1
    processTimings := s.processTimings.put mtype (((s.processTimings.find mtype).getD (.int 0)).add elapsed)
    byType := s.byType.put mtype ((s.byType.find mtype).getD 0 + 1) }

/-- The dispatch on the metric type (processor.py:128-139); `none` is the `else` branch. -/
def dispatch (I : Impl C T G PF PM) (w : World) (s : PS C T G PF PM) (message : Str) (m : Metric) :
    Option (PS C T G PF PM × Outcome) :=
  if m.mtype = c!"c" then some (I.processCounter w s m.key m.fields message)
  else if m.mtype = c!"ms" then some (processTimer I w s m.key (m.fields.headD []) message)
  else if m.mtype = c!"g" then some (processGauge I s m.key (m.fields.headD []) message)
  else if m.mtype = c!"m" then some (processMeter I w s m.key (m.fields.headD []) message)
  else match s.plugins.find m.mtype with
    | some f => some (processPlugin I w s f m.key m.fields)
    | none => none

/-- After the handler returned: the accounting, skipped if the handler raised (processor.py:140-143). -/
def finish (w : World) (mtype : Str) (start : ℚ) (r : PS C T G PF PM × Outcome) :
    PS C T G PF PM × Outcome :=
  match r.2.exc with
  | none => (account w r.1 mtype start, r.2)
  | some _ => r

/-- `process_message` (processor.py:122-143). An exception skips the accounting; a logged bad value
does not. -/
def processMessage (I : Impl C T G PF PM) (w : World) (s : PS C T G PF PM) (message : Str) (m : Metric) :
    PS C T G PF PM × Outcome :=
  let start := w.clk s.ticks
  let s := { s with ticks := s.ticks + 1 }
  match dispatch I w s message m with
  | some r => finish w m.mtype start r
  | none => (s, { bad := [message] })

/-- `process` (processor.py:51-67, 72-74). -/
def process (I : Impl C T G PF PM) (w : World) (s : PS C T G PF PM) (message : Str) :
    PS C T G PF PM × Outcome :=
  match parseMessage message with
  | none => (s, { bad := [message] })
  | some m => processMessage I w s message m

/-- A history of `process` calls (each exception is caught and logged by the reactor, so the next
message is processed normally) (server/processor.py:51-67; server/protocol.py:47-48). -/
def processAll (I : Impl C T G PF PM) (w : World) (s : PS C T G PF PM) (ms : List Str) : PS C T G PF PM :=
  ms.foldl (fun s m => (process I w s m).1) s

/-! ## flush (processor.py:224-287) -/

/-- The loop body of `flush_meter_metrics` (processor.py:333-336). -/
def meterVisit (ts : ℤ) (s : PS C T G PF PM) (i : Nat) : PS C T G PF PM × VisitResult :=
  match s.meters[i]? with
  | none => (s, .ok none)   -- unreachable: `i` is below the size
  | some (k, m) =>
    let (m, r) := m.report ts
    ({ s with meters := s.meters.put k m }, r.map some)

omit [Rounding] in
/-- The loop body of `flush_plugin_metrics` (processor.py:338-341). -/
def pluginVisit (I : Impl C T G PF PM) (w : World) (interval ts : ℤ) (s : PS C T G PF PM) (i : Nat) :
    PS C T G PF PM × VisitResult :=
  match s.pluginMetrics[i]? with
  | none => (s, .ok none)   -- unreachable
  | some (k, m) =>
    let (m, n, r) := I.ops.flush w s.ticks m interval ts
    ({ s with ticks := s.ticks + n, pluginMetrics := s.pluginMetrics.put k m }, r.map some)

/-- The loop bodies of the five phases of `flush`: 0 counters, 1 timers, 2 gauges, 3 meters,
4 plugins (processor.py:234-282). `interval` is in whole seconds. -/
def phaseVisit (I : Impl C T G PF PM) (w : World) (interval percent ts : ℤ) :
    Nat → PS C T G PF PM → Nat → PS C T G PF PM × VisitResult
  | 0 => I.counterVisit interval ts
  | 1 => I.timerVisit percent ts
  | 2 => I.gaugeVisit ts
  | 3 => meterVisit ts
  | _ => pluginVisit I w interval ts

omit [Rounding] in
/-- The number of elements of the collection iterated by a phase (server/processor.py:290, 299, 327, 334, 339). -/
def phaseLen (I : Impl C T G PF PM) (s : PS C T G PF PM) : Nat → Nat
  | 0 => s.counters.length
  | 1 => s.timers.length
  | 2 => I.gaugeLen s.gauges
  | 3 => s.meters.length
  | _ => s.pluginMetrics.length

/-- The keys of `per_metric` (processor.py:242, 252, 262, 272, 282). -/
def phaseName : Nat → Str
  | 0 => c!"counter"
  | 1 => c!"timer"
  | 2 => c!"gauge"
  | 3 => c!"meter"
  | _ => c!"plugin"

/-- An entry of `per_metric`: kind, number of events, duration (server/processor.py:242, 252, 262, 272, 282). -/
abbrev PerMetric := Str × Nat × Num

/-- Running a generator loop over the given indices without interruption: the new state, the yielded
groups, and the exception that ended it, if any (server/processor.py:236-239, 246-249, 256-259, 266-269, 276-279). -/
def runVisits {S : Type} (visit : S → Nat → S × VisitResult) :
    List Nat → S → S × List (List Datapoint) × Option PyErr
  | [], s => (s, [], none)
  | i :: is, s =>
    match visit s i with
    | (s, .error e) => (s, [], some e)
    | (s, .ok g) =>
      let (s, gs, e) := runVisits visit is s
      (s, g.toList ++ gs, e)

/-- The phases of `flush` from the given ones on, uninterrupted (processor.py:234-282). -/
def runPhases (I : Impl C T G PF PM) (w : World) (interval percent ts : ℤ) :
    List Nat → List PerMetric → PS C T G PF PM →
    PS C T G PF PM × List Datapoint × Except PyErr (List PerMetric)
  | [], acc, s => (s, [], .ok acc)
  | k :: ks, acc, s =>
    let start := w.clk s.ticks
    let s := { s with ticks := s.ticks + 1 }
    let (s, gs, e) := runVisits (phaseVisit I w interval percent ts k) (List.range (phaseLen I s k)) s
    match e with
    | some e => (s, gs.flatten, .error e)
    | none =>
      let duration := Num.flt (rnd (w.clk s.ticks - start))
      let s := { s with ticks := s.ticks + 1 }
      let (s, ps, r) := runPhases I w interval percent ts ks (acc ++ [(phaseName k, gs.length, duration)]) s
      (s, gs.flatten ++ ps, r)

omit [Rounding] in
/-- The `numStats` datapoint (processor.py:344-345). -/
def numStatsPoint (I : Impl C T G PF PM) (acc : List PerMetric) (ts : ℤ) : Datapoint :=
  ⟨I.internalPrefix ++ c!"numStats", .int ((acc.map fun (p : PerMetric) => p.2.1).sum : Nat), ts⟩

/-- The two datapoints of one `per_metric` entry (processor.py:349-354). -/
def perMetricPoints (I : Impl C T G PF PM) (ts : ℤ) (p : PerMetric) : List Datapoint :=
  [⟨I.internalPrefix ++ c!"flush." ++ p.1 ++ c!".count", .int p.2.1, ts⟩,
   ⟨I.internalPrefix ++ c!"flush." ++ p.1 ++ c!".duration", p.2.2.mul (.int 1000), ts⟩]

/-- The two datapoints of one metric type (processor.py:361-366). -/
def receivePoints (I : Impl C T G PF PM) (ts : ℤ) (mtype : Str) (n : Nat) (duration : Num) : List Datapoint :=
  [⟨I.internalPrefix ++ c!"receive." ++ mtype ++ c!".count", .int n, ts⟩,
   ⟨I.internalPrefix ++ c!"receive." ++ mtype ++ c!".duration", duration.mul (.int 1000), ts⟩]

/-- The loop over `process_timings` (processor.py:360-369). -/
def runReceive (I : Impl C T G PF PM) (ts : ℤ) (byType : Dict Nat) :
    Dict Num → Num → List Datapoint × Num × Option PyErr
  | [], lp => ([], lp, none)
  | (t, d) :: rest, lp =>
    match byType.find t with
    | none => ([], lp, some .keyError)
    | some n =>
      let (ps, lp, e) := runReceive I ts byType rest (lp.add d)
      (receivePoints I ts t n d ++ ps, lp, e)

/-- `flush_metrics_summary`, uninterrupted (processor.py:343-372). -/
def runSummary (I : Impl C T G PF PM) (ts : ℤ) (acc : List PerMetric) (s : PS C T G PF PM) :
    PS C T G PF PM × List Datapoint × Option PyErr :=
  let s := { s with lastFlush := acc.foldl (fun (a : Num) (p : PerMetric) => a.add p.2.2) (.int 0) }
  let (ps, lp, e) := runReceive I ts s.byType s.processTimings (.int 0)
  let s := { s with lastProcess := lp }
  let s := match e with
    | none => { s with processTimings := [], byType := [] }
    | some _ => s
  (s, numStatsPoint I acc ts :: acc.flatMap (perMetricPoints I ts) ++ ps, e)

/-- `list(processor.flush(interval, percent))`: the whole generator run without interruption
(processor.py:224-287): new state, datapoints emitted, exception if it aborted. -/
def flush (I : Impl C T G PF PM) (w : World) (interval percent : ℤ) (s : PS C T G PF PM) :
    PS C T G PF PM × List Datapoint × Option PyErr :=
  let secs := Int.fdiv interval 1000
  let ts := truncQ (w.clk s.ticks)
  let s := { s with ticks := s.ticks + 1 }
  match runPhases I w secs percent ts [0, 1, 2, 3, 4] [] s with
  | (s, ps, .error e) => (s, ps, some e)
  | (s, ps, .ok acc) =>
    let (s, qs, e) := runSummary I ts acc s
    (s, ps ++ qs, e)

end

/-! ## The StatsD-compliant `MessageProcessor` -/

section
variable [Rounding] {PF PM : Type}

/-- The state of a `MessageProcessor`: counters are numbers, timers lists of durations, gauges a deque
of `[value, key]` (processor.py:100-103, 202). -/
abbrev MPState (PF PM : Type) := PS Num (List PyFloat) (List (PyFloat × Str)) PF PM

/-- `compose_counter_metric` (processor.py:184-187) once `rate` is a float; the key is created before
the division can raise. -/
def composeCounter (s : MPState PF PM) (key : Str) (value rate : PyFloat) : MPState PF PM × Option PyErr :=
  let s := if s.counters.has key then s else { s with counters := s.counters.put key (.int 0) }
  match PyFloat.div (rnd 1) rate with
  | .error e => (s, some e)
  | .ok inv =>
    ({ s with counters :=
        s.counters.put key (((s.counters.find key).getD (.int 0)).add (.flt (value.mul inv))) }, none)

/-- `process_counter_metric` (processor.py:170-182). `float(rate)` of a text that is not a number raises
inside `compose_counter_metric`, after the key was created (processor.py:185-187). -/
def processCounter (s : MPState PF PM) (key : Str) (composite : List Str) (msg : Str) :
    MPState PF PM × Outcome :=
  match parseFloat (composite.headD []) with
  | none => (s, { bad := [msg] })
  | some value =>
    if composite.length = 3 then
      match rateMatch (composite.getD 2 []) with
      | none => (s, { bad := [msg] })
      | some rate =>
        match parseFloat rate with
        | none =>
          (if s.counters.has key then s else { s with counters := s.counters.put key (.int 0) },
           { exc := some .valueError })
        | some r =>
          let (s, e) := composeCounter s key value r
          (s, { exc := e })
    else
      let (s, e) := composeCounter s key value (rnd 1)
      (s, { exc := e })

/-- `compose_timer_metric` (processor.py:165-168). -/
def composeTimer (s : MPState PF PM) (key : Str) (d : PyFloat) : MPState PF PM :=
  { s with timers := s.timers.put key ((s.timers.find key).getD [] ++ [d]) }

/-- `compose_gauge_metric` (processor.py:201-203). -/
def composeGauge (s : MPState PF PM) (key : Str) (v : PyFloat) : MPState PF PM :=
  { s with gauges := s.gauges ++ [(v, key)] }

/-- The loop body of `flush_counter_metrics` (processor.py:290-295): the counter is reset before the
division that may raise. -/
def counterVisit (interval ts : ℤ) (s : MPState PF PM) (i : Nat) : MPState PF PM × VisitResult :=
  match s.counters[i]? with
  | none => (s, .ok none)   -- unreachable
  | some (key, count) =>
    let s := { s with counters := s.counters.put key (.int 0) }
    match count.divInt interval with
    | .error e => (s, .error e)
    | .ok value => (s, .ok (some [⟨c!"stats." ++ key, value, ts⟩, ⟨c!"stats_counts." ++ key, count, ts⟩]))

/-- `l[:i]` with Python's treatment of a negative bound (processor.py:314). -/
def sliceTo {α : Type} (l : List α) (i : ℤ) : List α :=
  if 0 ≤ i then l.take i.toNat else l.take (l.length - (-i).toNat)

/-- The statistics of one timer (processor.py:304-322) for a non-empty sorted list: the pair
`(mean, threshold_upper)`. -/
def timerThreshold (percent : ℤ) (sorted : List PyFloat) (lower upper : PyFloat) :
    Except PyErr (PyFloat × PyFloat) :=
  let count := sorted.length
  if count > 1 then
    -- threshold_value = (100 - percent) / 100.0; int(round(threshold_value * count))
    match toIntF ((rnd ((100 - percent : ℤ) / 100 : ℚ)).mul (rnd (count : ℚ)) |>.roundF) with
    | .error e => .error e
    | .ok r =>
      let index : ℤ := count - r
      let kept := sliceTo sorted index
      match kept.getLast? with
      | none => .error .indexError
      | some tu =>
        match (kept.foldl (fun a x => Num.add a (.flt x)) (.int 0)).divInt index with
        | .error e => .error e
        | .ok mean => .ok (mean.toFloat, tu)
  else .ok (lower, upper)

/-- The loop body of `flush_timer_metrics` (processor.py:299-324): an empty timer yields nothing. -/
def timerVisit (percent ts : ℤ) (s : MPState PF PM) (i : Nat) : MPState PF PM × VisitResult :=
  match s.timers[i]? with
  | none => (s, .ok none)   -- unreachable
  | some (key, timers) =>
    if timers.length > 0 then
      let s := { s with timers := s.timers.put key [] }
      let sorted := sortFloats timers
      let lower := sorted.headD (.fin 0)
      let upper := sorted.getLastD (.fin 0)
      match timerThreshold percent sorted lower upper with
      | .error e => (s, .error e)
      | .ok (mean, tu) =>
        let pre := c!"stats.timers." ++ key
        (s, .ok (some [⟨pre ++ c!".count", .int timers.length, ts⟩,
                       ⟨pre ++ c!".lower", .flt lower, ts⟩,
                       ⟨pre ++ c!".mean", .flt mean, ts⟩,
                       ⟨pre ++ c!".upper", .flt upper, ts⟩,
                       ⟨pre ++ c!".upper_" ++ intStr percent, .flt tu, ts⟩]))
    else (s, .ok none)

/-- The loop body of `flush_gauge_metrics` (processor.py:327-331): the deque is not emptied. -/
def gaugeVisit (ts : ℤ) (s : MPState PF PM) (i : Nat) : MPState PF PM × VisitResult :=
  match s.gauges[i]? with
  | none => (s, .ok none)   -- unreachable
  | some (v, key) => (s, .ok (some [⟨c!"stats.gauge." ++ key ++ c!".value", .flt v, ts⟩]))

/-- `MessageProcessor` (processor.py:77-372) with the plugins' operations `ops`. -/
def messageProcessor (ops : PluginOps PF PM) :
    Impl Num (List PyFloat) (List (PyFloat × Str)) PF PM where
  processCounter := fun _ s k f m => processCounter s k f m
  composeTimer := fun _ s k d => composeTimer s k d
  composeGauge := composeGauge
  meterPrefix := c!"stats.meter"
  messagePrefix := fun kind => c!"stats." ++ kind
  internalPrefix := c!"statsd."
  ops := ops
  counterVisit := counterVisit
  timerVisit := timerVisit
  gaugeVisit := gaugeVisit
  gaugeLen := List.length

/-- `MessageProcessor.__init__` (processor.py:86-110): later plugins of the same type win. -/
def MPState.init (ops : PluginOps PF PM) (plugins : List PF) : MPState PF PM :=
  { gauges := [], plugins := plugins.foldl (fun d p => d.put (ops.mtype p) p) [] }

/-- `get_metric_names` (processor.py:112-120) as a list without repetition. -/
def getMetricNames (s : MPState PF PM) : List Str :=
  (s.timers.keys ++ s.counters.keys ++ s.gauges.map Prod.snd ++ s.meters.keys ++ s.pluginMetrics.keys).dedup

end
end Txstatsd
