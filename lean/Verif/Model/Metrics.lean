import Verif.Model.Processor

/-!
# Client-side metrics (metrics/*.py, client.py:93-104)

`Metrics` and `ExtendedMetrics` with the metric objects they create. A call is given one reading of the clock and one
random draw (no method uses more than one of each). Strings are ASCII, so that `encode('utf-8')` is the identity.
-/

namespace Txstatsd

/-- A value handed to a metric: a number or a text (lists, tuples and other objects are not modelled)
(metrics/metrics.py:35-38, 71-85). -/
inductive Arg
  | num (n : Num)
  | text (s : Str)
  deriving DecidableEq, Repr

/-- `"%s" % n`; `fmt` is the (here arbitrary) text of a float (metrics/metric.py:58; metrics/metrics.py:115, 125, 150). -/
def Num.render (fmt : PyFloat → Str) : Num → Str
  | .int z => intStr z
  | .flt x => fmt x

/-- `"%s" % value` (metrics/metrics.py:36-38). -/
def Arg.render (fmt : PyFloat → Str) : Arg → Str
  | .num n => n.render fmt
  | .text s => s

/-- The number as a value to compare with: Python compares ints and floats exactly (metrics/metric.py:54-56). -/
def Num.exact : Num → PyFloat
  | .int z => .fin z
  | .flt x => x

/-- `a < b` on numbers (metrics/metric.py:54-56). -/
def Num.lt (a b : Num) : Bool := a.exact.lt b.exact

/-- `-n` (metrics/metrics.py:125). -/
def Num.neg : Num → Num
  | .int z => .int (-z)
  | .flt x => .flt x.neg

/-- `-value` (metrics.py:125). -/
def Arg.neg : Arg → Except PyErr Arg
  | .num n => .ok (.num n.neg)
  | .text _ => .error .typeError

/-- `duration * 1000` (metrics.py:150, timermetric.py:49): a text is repeated. -/
def Arg.times1000 [Rounding] : Arg → Arg
  | .num n => .num (n.mul (.int 1000))
  | .text s => .text ((List.replicate 1000 s).flatten)

/-- The class of a metric object: `Metric` itself (metric.py:26), `GenericMetric` with its key (metrics.py:29),
`GaugeMetric` (gaugemetric.py:25), `MeterMetric` (metermetric.py:28), `DistinctMetric` (distinctmetric.py:109),
`CounterMetric` with its count (countermetric.py:27), `TimerMetric` (timermetric.py:28). -/
inductive Kind
  | plain
  | generic (key : Str)
  | gauge
  | meter
  | distinct
  | counter (count : Num)
  | timer
  deriving DecidableEq, Repr

/-- A metric object: its class, name and sample rate (metric.py:31-43). -/
structure MetricObj where
  kind : Kind
  name : Str
  rate : Num
  deriving DecidableEq, Repr

/-- `Metric.send` (metric.py:49-62): the text handed to `write`, if any. -/
def MetricObj.send (fmt : PyFloat → Str) (draw : ℚ) (m : MetricObj) (data : Str) : Option Str :=
  if m.rate.lt (.int 1) then
    if m.rate.lt (.flt (.fin draw)) then none
    else some (m.name ++ c!":" ++ (data ++ c!"|@" ++ m.rate.render fmt))
  else some (m.name ++ c!":" ++ data)

/-- `obj.mark(value)` with one argument: the data to send. `Metric` and `CounterMetric` have no such method
(metrics/gaugemetric.py:40-42; metrics/metermetric.py:45-47; metrics/timermetric.py:47-49; metrics/distinctmetric.py:115-117; metrics/metrics.py:34-38; metrics/metric.py:45-47). -/
def MetricObj.mark [Rounding] (fmt : PyFloat → Str) (m : MetricObj) (value : Arg) : Except PyErr Str :=
  match m.kind with
  | .plain => .error .attributeError
  | .counter _ => .error .attributeError
  | .generic key => .ok (value.render fmt ++ c!"|" ++ key)          -- metrics.py:34-36
  | .gauge => .ok (value.render fmt ++ c!"|g")                      -- gaugemetric.py:40-42
  | .meter => .ok (value.render fmt ++ c!"|m")                      -- metermetric.py:45-47
  | .distinct => .ok (value.render fmt ++ c!"|d")                   -- distinctmetric.py:115-117
  | .timer => .ok (value.times1000.render fmt ++ c!"|ms")           -- timermetric.py:47-49

/-- `obj.mark(value, extra)` with two arguments: only `GenericMetric` takes them (metrics.py:34-38). -/
def MetricObj.mark2 (fmt : PyFloat → Str) (m : MetricObj) (value : Arg) (extra : Option Arg) : Except PyErr Str :=
  match m.kind with
  | .plain => .error .attributeError
  | .counter _ => .error .attributeError
  | .generic key => match extra with
    | none => .ok (value.render fmt ++ c!"|" ++ key)
    | some e => .ok (value.render fmt ++ c!"|" ++ key ++ c!"|" ++ e.render fmt)
  | _ => .error .typeError

/-- `CounterMetric.increment` / `decrement` (countermetric.py:44-52): the new count, which is also what is sent.
Other classes have no such method. -/
def MetricObj.bump [Rounding] (m : MetricObj) (minus : Bool) (value : Arg) : Except PyErr Num :=
  match m.kind with
  | .counter c => match value with
    | .num n => .ok (if minus then c.sub n else c.add n)
    | .text _ => .error .typeError
  | _ => .error .attributeError

/-- A `Metrics` or (`ext`) `ExtendedMetrics` object (metrics.py:42-55). `conn` tells whether it has a connection. -/
structure Client where
  conn : Bool
  namespc : Option Str
  ext : Bool
  metrics : Dict MetricObj := []
  lastTime : Num := .int 0
  deriving DecidableEq, Repr

/-- The public methods and their arguments (metrics.py:57-165, extendedmetrics.py:43-73). -/
inductive Call
  | report (name : Option Str) (value : Arg) (mtype : Str) (extra : Option Arg)
  | gauge (name : Option Str) (value : Arg) (rate : Num)
  | meter (name : Option Str) (value : Arg) (rate : Num)
  | increment (name : Option Str) (value : Arg) (rate : Num)
  | decrement (name : Option Str) (value : Arg) (rate : Num)
  | resetTiming
  | timing (name : Option Str) (duration : Option Arg) (rate : Num)
  | distinct (name : Option Str) (item : Arg)
  | clear (name : Option Str)
  deriving DecidableEq, Repr

/-- `sli` (metrics.py:70-77). -/
def Call.sli (name : Option Str) (duration : Arg) (size : Option Arg) : Call := .report name duration c!"sli" size

/-- `sli_error` (metrics.py:79-85). -/
def Call.sliError (name : Option Str) : Call := .report name (.text c!"error") c!"sli" none

/-- `fully_qualify_name` (metrics.py:167-178). -/
def fullyQualify (ns : Option Str) (name : Option Str) : Str :=
  let q := match ns with
    | some s => s
    | none => []
  match name with
  | none => q
  | some n => match ns with
    | some s => if s.length > 0 then q ++ (c!"." ++ n) else n
    | none => n

/-- What a call does besides changing the client: the text written to the connection, and the exception raised
(metrics/metric.py:49-67). -/
structure CallEffect where
  out : Option Str := none
  exc : Option PyErr := none
  deriving DecidableEq, Repr

namespace Client

/-- `if not name in self._metrics: self._metrics[name] = …`, then `self._metrics[name]`
(metrics/metrics.py:63-67, 90-94, 100-104, 110-114, 120-124, 145-149, 154-156; metrics/extendedmetrics.py:46-50, 56-60, 68-72). -/
def obtain (c : Client) (name : Str) (kind : Kind) (rate : Num) : Client × MetricObj :=
  match c.metrics.find name with
  | some m => (c, m)
  | none => ({ c with metrics := c.metrics.put name ⟨kind, name, rate⟩ }, ⟨kind, name, rate⟩)

/-- `Metric.send` and `Metric.write` (metric.py:49-67): nothing is written without a connection. -/
def write (c : Client) (fmt : PyFloat → Str) (draw : ℚ) (m : MetricObj) (data : Str) : Client × CallEffect :=
  (c, { out := if c.conn then m.send fmt draw data else none })

/-- Sending what a method of the metric object computed, or passing on its exception (metrics/metric.py:49-67). -/
def writeResult (c : Client) (fmt : PyFloat → Str) (draw : ℚ) (m : MetricObj) : Except PyErr Str → Client × CallEffect
  | .ok data => c.write fmt draw m data
  | .error e => (c, { exc := some e })

/-- Storing and sending the new count of a `CounterMetric` (countermetric.py:44-65). -/
def writeCount (c : Client) (fmt : PyFloat → Str) (draw : ℚ) (m : MetricObj) : Except PyErr Num → Client × CallEffect
  | .ok n =>
    let m := { m with kind := .counter n }
    { c with metrics := c.metrics.put m.name m }.write fmt draw m (n.render fmt ++ c!"|c")
  | .error e => (c, { exc := some e })

variable [Rounding]

/-- `calculate_duration` (metrics.py:131-136). -/
def calculateDuration (c : Client) (now : PyFloat) : Client × Num :=
  ({ c with lastTime := .flt now }, (Num.flt now).sub c.lastTime)

/-- One call of a public method, with the clock reading and the random draw it may use
(metrics/metrics.py:57-165; metrics/extendedmetrics.py:43-73). -/
def call (fmt : PyFloat → Str) (c : Client) (now : PyFloat) (draw : ℚ) : Call → Client × CallEffect
  | .report name value mtype extra =>                                                   -- metrics.py:57-68
    let (c, m) := c.obtain (fullyQualify c.namespc name) (.generic mtype) (.int 1)
    c.writeResult fmt draw m (m.mark2 fmt value extra)
  | .gauge name value rate =>                                                           -- metrics.py:87-95
    let (c, m) := c.obtain (fullyQualify c.namespc name) .gauge rate
    c.writeResult fmt draw m (m.mark fmt value)
  | .meter name value rate =>                                                           -- metrics.py:97-105
    let (c, m) := c.obtain (fullyQualify c.namespc name) .meter rate
    c.writeResult fmt draw m (m.mark fmt value)
  | .increment name value rate =>
    if c.ext then                                                                       -- extendedmetrics.py:43-51
      let (c, m) := c.obtain (fullyQualify c.namespc name) (.counter (.int 0)) rate
      c.writeCount fmt draw m (m.bump false value)
    else                                                                                -- metrics.py:107-115
      let (c, m) := c.obtain (fullyQualify c.namespc name) .plain rate
      c.write fmt draw m (value.render fmt ++ c!"|c")
  | .decrement name value rate =>
    if c.ext then                                                                       -- extendedmetrics.py:53-61
      let (c, m) := c.obtain (fullyQualify c.namespc name) (.counter (.int 0)) rate
      c.writeCount fmt draw m (m.bump true value)
    else                                                                                -- metrics.py:117-125
      let (c, m) := c.obtain (fullyQualify c.namespc name) .plain rate
      c.writeResult fmt draw m (value.neg.map fun v => v.render fmt ++ c!"|c")
  | .resetTiming => ({ c with lastTime := .flt now }, {})                               -- metrics.py:127-129
  | .timing name duration rate =>
    let (c, d) := match duration with
      | some d => (c, d)
      | none => let (c, d) := c.calculateDuration now; (c, Arg.num d)
    if c.ext then                                                                       -- extendedmetrics.py:63-73
      let (c, m) := c.obtain (fullyQualify c.namespc name) .timer rate
      c.writeResult fmt draw m (m.mark fmt d)
    else                                                                                -- metrics.py:138-150
      let (c, m) := c.obtain (fullyQualify c.namespc name) .plain rate
      c.write fmt draw m (d.times1000.render fmt ++ c!"|ms")
  | .distinct name item =>                                                              -- metrics.py:152-157
    let (c, m) := c.obtain (fullyQualify c.namespc name) .distinct (.int 1)
    c.writeResult fmt draw m (m.mark fmt item)
  | .clear name =>                                                                      -- metrics.py:159-165
    match c.metrics.find (fullyQualify c.namespc name) with
    | none => (c, {})
    | some m => match m.kind with
      | .counter _ => c.writeCount fmt draw m (.ok (.int 0))                            -- countermetric.py:58-61
      | _ => (c, {})                                                                    -- metric.py:45-47

/-- A call together with the clock reading and the random draw it gets
(the inputs of metrics/metrics.py:57-165: `time.time` (129, 133), `random.random` (metrics/metric.py:55)). -/
structure Step where
  call : Call
  now : PyFloat := .fin 0
  draw : ℚ := 0

/-- A sequence of calls: the final client and the effect of each call
(calls of metrics/metrics.py:57-165; metrics/extendedmetrics.py:43-73). -/
def run (fmt : PyFloat → Str) (c : Client) : List Step → Client × List CallEffect
  | [] => (c, [])
  | st :: sts =>
    let r := c.call fmt st.now st.draw st.call
    let r' := run fmt r.1 sts
    (r'.1, r.2 :: r'.2)

end Client

/-- The texts written to the connection, in order (metrics/metric.py:67). -/
def written (es : List CallEffect) : List Str := es.filterMap CallEffect.out

section
variable [Rounding] {C T G PF PM : Type}

/-- `InternalClient.write` (client.py:102-104) as the connection: every text written by a call goes straight to
`process` of the processor; an exception of `process` ends the call, which has nothing left to do by then. The result
is the processor and what happened for each call. -/
def runInternal (I : Impl C T G PF PM) (w : World) (fmt : PyFloat → Str) (c : Client) (s : PS C T G PF PM) :
    List Client.Step → PS C T G PF PM × List (CallEffect × Option Outcome)
  | [] => (s, [])
  | st :: sts =>
    let r := c.call fmt st.now st.draw st.call
    match r.2.out with
    | none =>
      let r' := runInternal I w fmt r.1 s sts
      (r'.1, (r.2, none) :: r'.2)
    | some text =>
      let p := process I w s text
      let r' := runInternal I w fmt r.1 p.1 sts
      (r'.1, (r.2, some p.2) :: r'.2)

end
end Txstatsd
