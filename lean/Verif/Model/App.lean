import Verif.Model.Configurable
import Verif.Model.Options
import Verif.Model.Service
import Verif.Model.Tcp

/-!
# The assembled service (service.py:207-240, 255-370)

`createService` puts a `Router` in front of a processor chosen by the options, feeds it from the UDP and TCP
listeners and from the internal client of the reports, and flushes it periodically.
-/

namespace Txstatsd
variable [Rounding] {S PF PM R : Type}

/-- What the service uses of its processor: `process_message`, called by the router, and the generator made by
`flush` (service.py:289-301, router.py:170-173). -/
structure Proc (S : Type) where
  processMessage : World → S → Str → Metric → S × Outcome
  micro : World → S → Gen → S × Gen × Option Datapoint

/-- A processor without logging (processor.py:122-143, 224-287). -/
def Impl.proc {C T G : Type} (I : Impl C T G PF PM) : Proc (PS C T G PF PM) where
  processMessage := Txstatsd.processMessage I
  micro := Txstatsd.micro I

/-- `LoggingMessageProcessor` (loggingprocessor.py:44-54); `str` renders a value as `%s` does. -/
def loggingProc (str : Num → Str) (ops : PluginOps PF PM) (pre internal : Str) : Proc (Logging PF PM) where
  processMessage := fun w l message m =>
    let r := Txstatsd.processMessage (configurable ops pre internal) w l.ps message m
    ({ ps := r.1, log := l.log ++ [inLine message] }, r.2)
  micro := fun w l g => Logging.micro str ops pre internal w l g

omit [Rounding]

/-! ## The choice of the processor -/

/-- The class of the processor and its prefixes (service.py:281-301). -/
inductive ProcKind
  | default
  | configurable (pre internal : Str)
  | logging (pre internal : Str)
  deriving DecidableEq

/-- `if options[…]` (service.py:282, 289): `None`, 0 and empty values are false. -/
def OptVal.truthy : OptVal → Bool
  | .none => false
  | .text s => !s.isEmpty
  | .int z => decide (z ≠ 0)
  | .texts l => !l.isEmpty
  | .ports l => !l.isEmpty
  | .items l => !l.isEmpty

/-- `options[name]` (service.py:261-271, 282-308, 313-367). -/
def Opts.get (o : Opts) (name : Str) : Except PyErr OptVal :=
  match o.values.find name with
  | .none => .error .keyError
  | some v => .ok v

/-- The instance name (service.py:271-273); `node` is `platform.node()`. -/
def instanceName (node : Str) : OptVal → Str
  | .text s => if s.isEmpty then node else s
  | _ => node

/-- `prefix` (service.py:267-269). -/
def prefixOf : OptVal → Str
  | .text s => s
  | _ => c!"statsd"

/-- The processor (service.py:267-301). `hasInfo` says whether `twisted.python.log` has an attribute `info`
already: an earlier call in dump mode sets it, and then the assertion fails. A logging processor is the logging
variant of the configurable one, whatever the compliance; without compliance options its prefixes are empty. -/
def chooseProcessor (node : Str) (hasInfo : Bool) (o : Opts) : Except PyErr ProcKind := do
  let pre ← o.get c!"prefix"
  let inst ← o.get c!"instance-name"
  let dump ← o.get c!"dump-mode"
  let compliant ← o.get c!"statsd-compliance"
  if dump.truthy && hasInfo then .error .assertionError
  else if compliant.truthy then
    .ok (if dump.truthy then .logging [] [] else .default)
  else
    let pre := prefixOf pre
    let internal := pre ++ c!"." ++ instanceName node inst ++ c!"."
    .ok (if dump.truthy then .logging pre internal else .configurable pre internal)

/-! ## The running service -/

/-- The service: the processor behind the router, the calls scheduled by the listeners, the flushes handed to the
cooperator, and everything that left it: datapoints for carbon, redirected texts, answers to monitors, messages
logged as bad (service.py:281-301, 345-365). -/
structure App (S : Type) where
  ps : S
  scheduled : List Str := []
  gens : List Gen := []
  out : List Datapoint := []
  sent : List (Sink × Str) := []
  answered : List Str := []
  bad : List Str := []

/-- What the reactor can do next (server/protocol.py:40-48, 64-71; service.py:218-236; report.py:75-82). -/
inductive AppEvent
  /-- A datagram, or a line over TCP (protocol.py:40-48, 64-71). -/
  | receive (data : Str)
  /-- The reactor makes the `i`-th scheduled call. Twisted orders calls by time only, so those scheduled for the
  same moment can be made in any order. -/
  | turn (i : Nat)
  /-- A report writes to the `InternalClient` (client.py:93-104). -/
  | internal (text : Str)
  /-- The flush task fires (service.py:218-236). -/
  | tick
  /-- The cooperator advances a flush. -/
  | advance (i : Nat)
  deriving DecidableEq

/-- The fixed parts of a service: rules, monitor, `flush_interval` (service.py:291, 299, 345-352). -/
structure AppConf (R : Type) where
  rx : Regexes R
  rules : List (Rule R)
  monitor : Monitor
  flushInterval : ℤ

/-- `Router.process` (router.py:300-318) in the service. -/
def App.process (P : Proc S) (cf : AppConf R) (w : World) (v : App S) (text : Str) : App S :=
  let r := routeText cf.rx cf.rules (P.processMessage w) v.ps text
  { v with ps := r.2.1, sent := v.sent ++ r.1, bad := v.bad ++ r.2.2.bad }

/-- One event. `flushProcessor` calls `flush(interval=…)`, with the default threshold of 90
(service.py:218-236, processor.py:224). -/
def App.step (P : Proc S) (cf : AppConf R) (w : World) (v : App S) : AppEvent → App S
  | .receive data =>
    match cf.monitor.datagramReceived [] data with
    | [.answer a] => { v with answered := v.answered ++ [a] }
    | [.schedule d] => { v with scheduled := v.scheduled ++ [d] }
    | _ => v   -- unreachable
  | .turn i =>
    match v.scheduled[i]? with
    | .none => v
    | some d => { v with scheduled := v.scheduled.eraseIdx i }.process P cf w d
  | .internal text => v.process P cf w text
  | .tick => { v with gens := v.gens ++ [{ interval := cf.flushInterval, percent := 90 }] }
  | .advance i =>
    match v.gens[i]? with
    | .none => v
    | some g =>
      let (s, g, d) := P.micro w v.ps g
      { v with ps := s, gens := v.gens.set i g, out := v.out ++ d.toList }

/-- A schedule (the reactor running the service of service.py:255-370). -/
def App.run (P : Proc S) (cf : AppConf R) (w : World) (v : App S) (es : List AppEvent) : App S :=
  es.foldl (App.step P cf w) v

/-! ## The scheduled reports -/

/-- The report functions (service.py:243, process.py:98-228). -/
inductive ReportFn
  | clientManager
  | reactorStats
  | memoryAndCpu
  | cpuCounters
  | ioCounters
  | netStats
  | meminfo
  | loadavg
  | netdev
  | cpuTimes
  deriving DecidableEq

/-- `getattr(process, "%s_STATS" % name.upper(), ())` (service.py:331-333, process.py:233-243). -/
def statsOf (upper : Str) : List ReportFn :=
  if upper = c!"PROCESS" then [.memoryAndCpu]
  else if upper = c!"COUNTER" then [.cpuCounters]
  else if upper = c!"IO" then [.ioCounters]
  else if upper = c!"NET" then [.netStats]
  else if upper = c!"SYSTEM" then [.meminfo, .loadavg, .netdev, .cpuTimes]
  else []

/-- `str.upper` on one character (service.py:331-332). -/
def upperChar (c : Char) : Char := if 'a' ≤ c ∧ c ≤ 'z' then Char.ofNat (c.toNat - 32) else c

/-- The names in `options["report"]` (service.py:324). -/
def reportNames (text : Str) : List Str := (splitOn ',' text).map strip

/-- What `createService` schedules: each function with its period in seconds, and the number of inspectors started
(service.py:310-333). -/
def scheduledReports (flushInterval : ℤ) : Option Str → List (ReportFn × ℤ) × Nat
  | .none => ([(.clientManager, flushPeriod flushInterval)], 0)
  | some text =>
    ((.clientManager, flushPeriod flushInterval) :: (.reactorStats, 60) ::
      (reportNames text).flatMap fun n => (statsOf (n.map upperChar)).map fun f => (f, 60),
     ((reportNames text).filter fun n => n = c!"reactor").length)

/-! ## The reserved option -/

/-- A class with its bases and its own `optParameters` (long and short names) (service.py:50-61). -/
inductive PyClass
  | mk (isGlue : Bool) (bases : List PyClass) (params : List (Str × Str))

/-- `accumulateClassList(cls, 'optParameters', parameters, excludeClass=OptionsGlue)` (service.py:50-62). -/
def PyClass.accumulate : PyClass → List (Str × Str)
  | .mk isGlue bases params => go bases ++ if isGlue then [] else params
where
  go : List PyClass → List (Str × Str)
    | [] => []
    | b :: bs => b.accumulate ++ go bs

/-- The check of `OptionsGlue.__init__` (service.py:70-77). -/
def glueInit (cls : PyClass) : Except PyErr Unit :=
  if cls.accumulate.any fun p => decide (p.1 = c!"config") || decide (p.2 = c!"c") then .error .valueError
  else .ok ()

end Txstatsd
