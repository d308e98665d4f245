import Verif.Model.App
import Verif.Model.Ini
import Verif.Model.Plugins

/-!
# Creating the service (service.py:255-370; server/httpinfo.py:95-108; statsd.tac:23-30)

`createService` as a function of the options: the processor, the plugins, the rules and the parts it puts under the root service, or
the exception that it raises.
-/

namespace Txstatsd
variable [Rounding] {R : Type}

/-- A child of the root service (service.py:264, 310-311, 328-329, 337, 347, 355, 364, 367-368; server/router.py:274-275, 291-292). -/
inductive Part
  /-- A `UDPServer` for a client that redirects to this address (server/router.py:269-275). -/
  | udpRedirect (host : Str) (port : ℤ)
  /-- A `TCPRedirectService` (server/router.py:289-292). -/
  | tcpRedirect (host : Str) (port : ℤ)
  /-- The `ReportingService` with its instance name and tasks (service.py:310-333). -/
  | reporting (instance_ : Str) (reports : List (ReportFn × ℤ))
  /-- A `ReactorInspectorService` (service.py:327-329). -/
  | inspector
  /-- The `CarbonClientManager` with the clients started in it (service.py:335-343). -/
  | carbon (dests : List (Str × ℤ × Option Str))
  /-- The `StatsDService` with its interval (service.py:345-347). -/
  | flushing (interval : ℤ)
  /-- The `UDPServer` (service.py:354-355). -/
  | udp (port : ℤ)
  /-- The `TCPServer` (service.py:357-365). -/
  | tcp (port : ℤ)
  /-- The `TCPServer` of the web site (server/httpinfo.py:101-108). -/
  | http (port : ℤ)
  /-- The empty service without a port for the web site (server/httpinfo.py:97-98). -/
  | empty
  deriving DecidableEq

/-- What `createService` returns (service.py:255-370): the processor, its plugins, the rules of the router, the monitor of the
listeners, the interval and the parts. -/
structure Created (R : Type) where
  kind : ProcKind
  plugins : List Factory
  rules : List (Rule R)
  monitor : Monitor
  flushInterval : ℤ
  parts : List Part

/-- An option that is a number (service.py:315, 345-346, 354). That it is one is C169_options. -/
def Opts.intOf (o : Opts) (name : Str) : Except PyErr ℤ :=
  match o.get name with
  | .error e => .error e
  | .ok (.int z) => .ok z
  | .ok _ => .error .typeError

/-- An option that is a number or `None` (service.py:357, 363; server/httpinfo.py:97, 107). -/
def Opts.intOrNone (o : Opts) (name : Str) : Except PyErr (Option ℤ) :=
  match o.get name with
  | .error e => .error e
  | .ok (.int z) => .ok (some z)
  | .ok .none => .ok none
  | .ok _ => .error .typeError

/-- An option that is a text or `None` (service.py:291, 318, 324, 351-352). -/
def Opts.textOrNone (o : Opts) (name : Str) : Except PyErr (Option Str) :=
  match o.get name with
  | .error e => .error e
  | .ok (.text s) => .ok (some s)
  | .ok .none => .ok none
  | .ok _ => .error .typeError

/-- The option `rules` of the section `plugin_sli` (twisted/plugins/sli_plugin.py:57-59): `options.get("plugin_sli", {})` as a dict. -/
def sliRules (o : Opts) : Option Str :=
  match o.values.find c!"plugin_sli" with
  | some (.items l) => (updateWith [] l : Dict Str).find c!"rules"
  | _ => none

/-- `plugin.configure(options)` (service.py:278; twisted/plugins/distinct_plugin.py:39-40; twisted/plugins/sli_plugin.py:56-85). -/
def Factory.configure (o : Opts) : Factory → Except PyErr Factory
  | .distinct => .ok .distinct
  | .sli cfg =>
    match configureSli cfg (sliRules o) with
    | (cfg, none) => .ok (.sli cfg)
    | (_, some e) => .error e

/-- The loop over the plugins (service.py:275-279). -/
def configurePlugins (o : Opts) : List Factory → Except PyErr (List Factory)
  | [] => .ok []
  | f :: fs =>
    match f.configure o with
    | .error e => .error e
    | .ok f =>
      match configurePlugins o fs with
      | .error e => .error e
      | .ok fs => .ok (f :: fs)

omit [Rounding] in
/-- The services that a target adds (server/router.py:269-275, 289-292). -/
def Target.parts : Target R → List Part
  | .redirect ⟨false, host, port⟩ => [.udpRedirect host port]
  | .redirect ⟨true, host, port⟩ => [.tcpRedirect host port]
  | _ => []

omit [Rounding] in
/-- `httpinfo.makeService` (server/httpinfo.py:95-108). -/
def httpPart : Option ℤ → Part
  | none => .empty
  | some p => .http p

/-- `createService` (service.py:255-370); `node` is `platform.node()`, `plugins` are those that `getPlugins` finds. Simplified: that
the defaults are appended to the lists of carbon caches in the options themselves is not kept. -/
def createService (rx : Regexes R) (node : Str) (hasInfo : Bool) (plugins : List Factory) (o : Opts) : Except PyErr (Created R) := do
  let _ ← o.intOf c!"max-queue-size"
  let _ ← o.intOf c!"max-datapoints-per-message"
  let inst ← o.get c!"instance-name"
  let plugins ← configurePlugins o plugins
  let kind ← chooseProcessor node hasInfo o
  let routing ← o.textOrNone c!"routing"
  let rules ← buildRules rx true (routing.getD [])
  let hosts ← o.get c!"carbon-cache-host"
  let ports ← o.get c!"carbon-cache-port"
  let names ← o.get c!"carbon-cache-name"
  let interval ← o.intOf c!"flush-interval"
  let report ← o.textOrNone c!"report"
  let scheduled := scheduledReports interval report
  let message ← o.textOrNone c!"monitor-message"
  let response ← o.textOrNone c!"monitor-response"
  let port ← o.intOf c!"listen-port"
  let tcpPort ← o.intOrNone c!"listen-tcp-port"
  let httpPort ← o.intOrNone c!"http-port"
  return {
    kind, plugins, rules
    monitor := ⟨message, response.getD []⟩
    flushInterval := interval
    parts := (rules.flatMap fun r => r.target.parts) ++ [.reporting (instanceName node inst) scheduled.1] ++
      List.replicate scheduled.2 .inspector ++
      [.carbon (destinations (textsOf (some hosts)) (portsOf (some ports)) (textsOf (some names))), .flushing interval, .udp port] ++
      tcpPort.toList.map .tcp ++ [httpPart httpPort] }

/-- The service that runs (service.py:345-365): what the listeners and the flushes use. -/
def Created.conf (rx : Regexes R) (c : Created R) : AppConf R := ⟨rx, c.rules, c.monitor, c.flushInterval⟩

/-- The configuration file that comes with the program (txstatsd.conf-example:1-26), which `postOptions` reads (service.py:107-113). -/
def sampleFile : List Str :=
  [c!"[statsd]",
   c!"# The host where carbon cache is listening.",
   c!"carbon-cache-host: localhost",
   c!"# The port where carbon cache is listening.",
   c!"carbon-cache-port: 2003",
   c!"# The UDP port where we will listen.",
   c!"listen-port: 8125",
   c!"",
   c!"# The number of milliseconds between each flush.",
   c!"flush-interval: 60000",
   c!"",
   c!"# Which additional stats to report {process|net|io|system}.",
   c!"report:",
   c!"# Prefix to use when reporting stats.",
   c!"prefix:",
   c!"# Produce StatsD-compliant messages.",
   c!"statsd-compliance: 1",
   c!"",
   c!"# Support application monitoring. UDP echo is initially supported.",
   c!"# Should we receive the monitor-message, we respond with the",
   c!"# configured monitor-response.",
   c!"monitor-message: txstatsd ping",
   c!"monitor-response: txstatsd pong",
   c!"",
   c!"[plugin_sample]",
   c!"sample-key: sample-value"]

end Txstatsd
