import Verif.Model.Generator

/-!
# `ConfigurableMessageProcessor` and `LoggingMessageProcessor`
(server/configurableprocessor.py, server/loggingprocessor.py)
-/

namespace Txstatsd
variable [Rounding] {PF PM : Type}

/-- The state of a `ConfigurableMessageProcessor`: reporters instead of numbers, and a dict of gauges
(configurableprocessor.py:56, 63-66, 79-80, 85-86). -/
abbrev CPState (PF PM : Type) := PS CounterRep TimerRep (Dict GaugeRep) PF PM

omit [Rounding] in
/-- The internal prefix computed by `__init__` (configurableprocessor.py:50-54). -/
def internalPrefixOf (message internal : Str) : Str :=
  if internal.isEmpty && message.isEmpty then c!"statsd."
  else if !message.isEmpty && internal.isEmpty then message ++ c!"." ++ c!"statsd."
  else internal

omit [Rounding] in
/-- `compose_counter_metric` (configurableprocessor.py:77-81). -/
def composeCounterC (pre : Str) (s : CPState PF PM) (key : Str) (v : PyFloat) : CPState PF PM :=
  let s := if s.counters.has key then s else { s with counters := s.counters.put key (CounterRep.init key pre) }
  match s.counters.find key with
  | none => s   -- unreachable
  | some c => { s with counters := s.counters.put key (c.mark v) }

/-- `process_counter_metric` (configurableprocessor.py:69-75): the sample rate is ignored. -/
def processCounterC (pre : Str) (s : CPState PF PM) (key : Str) (composite : List Str) (msg : Str) :
    CPState PF PM × Outcome :=
  match parseFloat (composite.headD []) with
  | none => (s, { bad := [msg] })
  | some v => (composeCounterC pre s key v, {})

/-- `compose_timer_metric` (configurableprocessor.py:61-67): a new timer reads the clock. -/
def composeTimerC (pre : Str) (w : World) (s : CPState PF PM) (key : Str) (d : PyFloat) : CPState PF PM :=
  let s := if s.timers.has key then s
    else { s with ticks := s.ticks + 1, timers := s.timers.put key (TimerRep.init key pre (w.clk s.ticks)) }
  match s.timers.find key with
  | none => s   -- unreachable
  | some t => { s with timers := s.timers.put key (t.update (w.rand s.ticks) d) }

omit [Rounding] in
/-- `compose_gauge_metric` (configurableprocessor.py:83-87). -/
def composeGaugeC (pre : Str) (s : CPState PF PM) (key : Str) (v : PyFloat) : CPState PF PM :=
  let s := if s.gauges.has key then s else { s with gauges := s.gauges.put key (GaugeRep.init key pre) }
  match s.gauges.find key with
  | none => s   -- unreachable
  | some g => { s with gauges := s.gauges.put key (g.mark v) }

omit [Rounding] in
/-- The loop body of `flush_counter_metrics` (configurableprocessor.py:96-99). -/
def counterVisitC (_interval ts : ℤ) (s : CPState PF PM) (i : Nat) : CPState PF PM × VisitResult :=
  match s.counters[i]? with
  | none => (s, .ok none)   -- unreachable
  | some (_, c) => (s, (c.report ts).map some)

omit [Rounding] in
/-- The loop body of `flush_gauge_metrics` (configurableprocessor.py:101-104). -/
def gaugeVisitC (ts : ℤ) (s : CPState PF PM) (i : Nat) : CPState PF PM × VisitResult :=
  match s.gauges[i]? with
  | none => (s, .ok none)   -- unreachable
  | some (_, g) => (s, .ok (some (g.report ts)))

/-- The loop body of `flush_timer_metrics` (configurableprocessor.py:106-109): reporting clears the
timer. -/
def timerVisitC (_percent ts : ℤ) (s : CPState PF PM) (i : Nat) : CPState PF PM × VisitResult :=
  match s.timers[i]? with
  | none => (s, .ok none)   -- unreachable
  | some (k, t) =>
    let (t, r) := t.report ts
    ({ s with timers := s.timers.put k t }, r.map some)

/-- `ConfigurableMessageProcessor(message_prefix=pre, internal_metrics_prefix=internal)`
(configurableprocessor.py:31-109): the overridden methods; `get_message_prefix` ignores the kind (58-59),
`compose_meter_metric` passes the message prefix (89-94). -/
def configurable (ops : PluginOps PF PM) (pre internal : Str) :
    Impl CounterRep TimerRep (Dict GaugeRep) PF PM where
  processCounter := fun _ s k f m => processCounterC pre s k f m
  composeTimer := fun w s k d => composeTimerC pre w s k d
  composeGauge := composeGaugeC pre
  meterPrefix := pre
  messagePrefix := fun _ => pre
  internalPrefix := internalPrefixOf pre internal
  ops := ops
  counterVisit := counterVisitC
  timerVisit := timerVisitC
  gaugeVisit := gaugeVisitC
  gaugeLen := List.length

omit [Rounding] in
/-- `__init__` (configurableprocessor.py:45-56 over processor.py:86-110). -/
def CPState.init (ops : PluginOps PF PM) (plugins : List PF) : CPState PF PM :=
  { gauges := [], plugins := plugins.foldl (fun d p => d.put (ops.mtype p) p) [] }

/-- `for k, v in gauges` over a dict (processor.py:117): every *key* is unpacked into two characters;
the second ones are collected. -/
def unpackKeys : List Str → Except PyErr (List Str)
  | [] => .ok []
  | [_, v] :: rest =>
    match unpackKeys rest with
    | .ok l => .ok ([v] :: l)
    | .error e => .error e
  | _ :: _ => .error .valueError

omit [Rounding] in
/-- `get_metric_names` inherited by the configurable processor (processor.py:112-120). -/
def getMetricNamesC (s : CPState PF PM) : Except PyErr (List Str) :=
  match unpackKeys s.gauges.keys with
  | .error e => .error e
  | .ok gs => .ok (s.timers.keys ++ s.counters.keys ++ gs ++ s.meters.keys ++ s.pluginMetrics.keys).dedup

/-! ## Logging -/

/-- A line given to `logger.info` (loggingprocessor.py:45, 53). `str` renders a value as `%s` does. -/
def inLine (msg : Str) : Str := c!"In: " ++ msg

/-- `"Out: %s %s %s" % msg` (loggingprocessor.py:53). -/
def outLine (str : Num → Str) (d : Datapoint) : Str :=
  c!"Out: " ++ d.name ++ c!" " ++ str d.value ++ c!" " ++ intStr d.ts

/-- What `__init__` requires of the logger (loggingprocessor.py:33-42): `none` is a logger without
`info`, `some b` one whose `info` is callable or not. -/
def loggingInit {S : Type} (info : Option Bool) (s : S) : Except PyErr S :=
  match info with
  | some true => .ok s
  | _ => .error .typeError

/-- A logging processor and the lines it logged (server/loggingprocessor.py:33-42). -/
structure Logging (PF PM : Type) where
  ps : CPState PF PM
  log : List Str := []

/-- `process` (processor.py:51-67) with the overridden `process_message` (loggingprocessor.py:44-47). -/
def Logging.process (ops : PluginOps PF PM) (pre internal : Str) (w : World) (l : Logging PF PM) (message : Str) :
    Logging PF PM × Outcome :=
  match parseMessage message with
  | none => (l, { bad := [message] })
  | some m =>
    let l := { l with log := l.log ++ [inLine message] }
    let r := processMessage (configurable ops pre internal) w l.ps message m
    ({ l with ps := r.1 }, r.2)

/-- One step of the generator of the overridden `flush` (loggingprocessor.py:49-54), which wraps the
parent's generator: a yielded datapoint is logged and passed on. -/
def Logging.micro (str : Num → Str) (ops : PluginOps PF PM) (pre internal : Str) (w : World) (l : Logging PF PM)
    (g : Gen) : Logging PF PM × Gen × Option Datapoint :=
  match Txstatsd.micro (configurable ops pre internal) w l.ps g with
  | (ps, g, none) => ({ l with ps := ps }, g, none)
  | (ps, g, some d) => ({ ps := ps, log := l.log ++ [outLine str d] }, g, some d)

/-- The server around a logging processor (service.py:207-233 with server/loggingprocessor.py:44-54). -/
structure LogServer (PF PM : Type) where
  lp : Logging PF PM
  gens : List Gen := []
  out : List Datapoint := []

/-- One reactor event (as `Server.step`) (service.py:218-233, server/loggingprocessor.py:44-54). -/
def LogServer.step (str : Num → Str) (ops : PluginOps PF PM) (pre internal : Str) (w : World) (v : LogServer PF PM) :
    Event → LogServer PF PM
  | .arrive m => { v with lp := (v.lp.process ops pre internal w m).1 }
  | .spawn i p => { v with gens := v.gens ++ [{ interval := i, percent := p }] }
  | .advance i =>
    match v.gens[i]? with
    | none => v
    | some g =>
      let (l, g, d) := v.lp.micro str ops pre internal w g
      { lp := l, gens := v.gens.set i g, out := v.out ++ d.toList }

/-- A schedule (service.py:218-233, server/loggingprocessor.py:44-54). -/
def LogServer.run (str : Num → Str) (ops : PluginOps PF PM) (pre internal : Str) (w : World) (v : LogServer PF PM)
    (es : List Event) : LogServer PF PM :=
  es.foldl (LogServer.step str ops pre internal w) v

end Txstatsd
