import Verif.Model.Router
import Mathlib.Data.List.Sort

/-!
# Options: the command line and the configuration file (service.py:64-204)

`getopt` and `ConfigParser` are libraries; the model starts from their results: the options given on the
command line with their arguments, and the sections of the file with their items. Of
`twisted.python.usage.Options` the model has the table of declared options and the dispatch of an argument
to it.
-/

namespace Txstatsd

/-- The type of a declared option: its coercion, or the method `opt_…` that collects several values
(service.py:152-188, 197-204). -/
inductive OptKind
  /-- `str`, or none. -/
  | text
  | int
  /-- `opt_carbon_cache_host`, `opt_carbon_cache_name`. -/
  | texts
  /-- `opt_carbon_cache_port`. -/
  | ports
  deriving DecidableEq

/-- A declared parameter (service.py:152-188). -/
structure OptDecl where
  long : Str
  short : Str
  kind : OptKind
  deriving DecidableEq

/-- The value of an option (service.py:152-204). -/
inductive OptVal
  | none
  | text (s : Str)
  | int (z : ℤ)
  | texts (l : List Str)
  | ports (l : List ℤ)
  /-- A whole plugin section (service.py:126). -/
  | items (l : List (Str × Str))
  deriving DecidableEq

/-- An option found by `getopt` on the command line (service.py:93-94): whether it was given with two
dashes (then `name` is the full name) or with one. -/
structure CmdOpt where
  isLong : Bool
  name : Str
  arg : Str
  deriving DecidableEq

/-- `OptionsGlue` (service.py:64-80): the dictionary of values and `overridden_options`. -/
structure Opts where
  values : Dict OptVal
  overridden : List Str
  deriving DecidableEq

/-- `usage.portCoerce` (service.py:201). -/
def portCoerce (s : Str) : Except PyErr ℤ :=
  match parseInt s with
  | .none => .error .valueError
  | some z => if 0 ≤ z ∧ z ≤ 65535 then .ok z else .error .valueError

/-- The list of texts stored under a name (service.py:192-194 makes it a list). -/
def textsOf : Option OptVal → List Str
  | some (.texts l) => l
  | _ => []

/-- The list of ports stored under a name (service.py:194, 201). -/
def portsOf : Option OptVal → List ℤ
  | some (.ports l) => l
  | _ => []

/-- The argument of an option reaches its coercion or its method (`usage.Options.parseOptions`,
service.py:138-144, 197-204). A failing `CoerceParameter` raises `UsageError`. -/
def dispatchOpt (d : OptDecl) (values : Dict OptVal) (arg : Str) : Except PyErr (Dict OptVal) :=
  match d.kind with
  | .text => .ok (values.put d.long (.text arg))
  | .int =>
    match parseInt arg with
    | .none => .error .otherError
    | some z => .ok (values.put d.long (.int z))
  | .texts => .ok (values.put d.long (.texts (textsOf (values.find d.long) ++ [arg])))
  | .ports =>
    match portCoerce arg with
    | .error e => .error e
    | .ok z => .ok (values.put d.long (.ports (portsOf (values.find d.long) ++ [z])))

/-- The option an argument is for: long names stand for themselves, short ones are synonyms (service.py:93-105). -/
def resolveOpt (decls : List OptDecl) (o : CmdOpt) : Option OptDecl :=
  decls.find? fun d => if o.isLong then decide (d.long = o.name) else decide (d.short = o.name)

/-- `usage.Options.parseOptions`: the options in order (service.py:105). -/
def dispatchAll (decls : List OptDecl) (values : Dict OptVal) : List CmdOpt → Except PyErr (Dict OptVal)
  | [] => .ok values
  | o :: os =>
    match resolveOpt decls o with
    | .none => .error .otherError   -- `getopt` has refused it before
    | some d =>
      match dispatchOpt d values o.arg with
      | .error e => .error e
      | .ok values => dispatchAll decls values os

/-- `parseOptions` without the final `postOptions` (service.py:87-105): the names are recorded as they were
given, long or short. -/
def parseCmd (decls : List OptDecl) (st : Opts) (os : List CmdOpt) : Except PyErr Opts :=
  match dispatchAll decls st.values os with
  | .error e => .error e
  | .ok values => .ok { values, overridden := st.overridden ++ os.map CmdOpt.name }

/-- `_coerce_option` (service.py:131-144). -/
def coerceOption (decls : List OptDecl) (st : Opts) (name value : Str) : Except PyErr Opts :=
  if name ∈ st.overridden then .ok st
  else match decls.find? fun d => decide (d.long = name) with
    | .none => .ok st
    | some d =>
      match dispatchOpt d st.values value with
      | .error e => .error e
      | .ok values => .ok { st with values }

/-- The items of one section, in order (service.py:121-122, 128-129). -/
def coerceItems (decls : List OptDecl) (st : Opts) : List (Str × Str) → Except PyErr Opts
  | [] => .ok st
  | (name, value) :: rest =>
    match coerceOption decls st name value with
    | .error e => .error e
    | .ok st => coerceItems decls st rest

/-- A configuration file: its sections with their items (service.py:110-113). -/
abbrev Config := List (Str × List (Str × Str))

/-- The body of the loop over the sections (service.py:124-129). -/
def configureSection (decls : List OptDecl) (st : Opts) (sec : Str × List (Str × Str)) : Except PyErr Opts :=
  let st := if c!"plugin_" <+: sec.1 then { st with values := st.values.put sec.1 (.items sec.2) } else st
  if c!"carbon-cache" <+: sec.1 then coerceItems decls st sec.2 else .ok st

/-- The loop over the sections (service.py:124-129). -/
def configureSections (decls : List OptDecl) (st : Opts) : Config → Except PyErr Opts
  | [] => .ok st
  | sec :: rest =>
    match configureSection decls st sec with
    | .error e => .error e
    | .ok st => configureSections decls st rest

/-- `sorted(config_file.sections())` (service.py:124). -/
def sortSections (cfg : Config) : Config := cfg.insertionSort fun a b => ¬ b.1 < a.1

/-- `configure` (service.py:119-129); `section` is `config_section`. -/
def configureFile (decls : List OptDecl) (main : Str) (st : Opts) (cfg : Config) : Except PyErr Opts :=
  match Dict.find cfg main with
  | .none => .error .otherError   -- NoSectionError
  | some items =>
    match coerceItems decls st items with
    | .error e => .error e
    | .ok st => configureSections decls st (sortSections cfg)

/-- `StatsDOptions.optParameters` and `OptionsGlue.optParameters` (service.py:67-68, 152-188). -/
def statsdDecls : List OptDecl :=
  [⟨c!"carbon-cache-host", c!"h", .texts⟩, ⟨c!"carbon-cache-port", c!"p", .ports⟩,
   ⟨c!"carbon-cache-name", c!"n", .texts⟩, ⟨c!"listen-port", c!"l", .int⟩, ⟨c!"flush-interval", c!"i", .int⟩,
   ⟨c!"prefix", c!"x", .text⟩, ⟨c!"instance-name", c!"N", .text⟩, ⟨c!"report", c!"r", .text⟩,
   ⟨c!"monitor-message", c!"m", .text⟩, ⟨c!"monitor-response", c!"o", .text⟩,
   ⟨c!"statsd-compliance", c!"s", .int⟩, ⟨c!"dump-mode", c!"d", .int⟩, ⟨c!"routing", c!"g", .text⟩,
   ⟨c!"listen-tcp-port", c!"t", .int⟩, ⟨c!"max-queue-size", c!"Q", .int⟩,
   ⟨c!"max-datapoints-per-message", c!"M", .int⟩, ⟨c!"http-port", c!"P", .int⟩, ⟨c!"config", c!"c", .text⟩]

/-- `StatsDOptions()` (service.py:152-195). -/
def statsdOpts : Opts :=
  { values := [(c!"carbon-cache-host", .texts []), (c!"carbon-cache-port", .ports []), (c!"carbon-cache-name", .texts []),
      (c!"listen-port", .int 8125), (c!"flush-interval", .int 60000), (c!"prefix", .none), (c!"instance-name", .none),
      (c!"report", .none), (c!"monitor-message", .text c!"txstatsd ping"), (c!"monitor-response", .text c!"txstatsd pong"),
      (c!"statsd-compliance", .int 1), (c!"dump-mode", .int 0), (c!"routing", .text []), (c!"listen-tcp-port", .none),
      (c!"max-queue-size", .int 20000), (c!"max-datapoints-per-message", .int 1000), (c!"http-port", .none),
      (c!"config", .none)]
    overridden := [] }

/-! ## createService (service.py:303-348) -/

/-- The carbon caches to connect to: the defaults of service.py:303-308 and the `zip` of service.py:340-343;
`none` is a missing name. -/
def destinations (hosts : List Str) (ports : List ℤ) (names : List Str) : List (Str × ℤ × Option Str) :=
  let hosts := if hosts = [] then [c!"127.0.0.1"] else hosts
  let ports := if ports = [] then [2004] else ports
  let names := if names = [] then [Option.none] else names.map some
  hosts.zip (ports.zip names)

end Txstatsd
