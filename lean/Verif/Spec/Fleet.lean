import Verif.Spec.Metrics
import Verif.Spec.App
import Verif.Spec.Create
import Verif.Spec.Counter

/-!
# Several services (for C176)
-/

namespace Txstatsd.Spec
section
variable [Rounding] {R : Type}

omit [Rounding] in
/-- What comes over the network. -/
def datagrams (es : List AppEvent) : List Str := es.filterMap fun e => match e with | .receive d => some d | _ => none

omit [Rounding] in
/-- What the service writes to itself. -/
def writtenInside (es : List AppEvent) : List Str := es.filterMap fun e => match e with | .internal t => some t | _ => none

/-- A service made of some command line and files, with compliance, not in dump mode, without routing rules, which flushes at most once a
second; `message` is what its monitor answers. -/
def OrdinaryService (rx : Regexes R) (c : Created R) (message : Str) : Prop :=
  ∃ (files : Str → Option Str) (argv : List Str) (o : Opts) (node : Str) (hasInfo : Bool) (fs : List Factory) (interval compliance : ℤ),
    startOptions files argv = .ok o ∧ createService rx node hasInfo fs o = .ok c ∧
    o.values.find c!"flush-interval" = some (.int interval) ∧ 1000 ≤ interval ∧
    o.values.find c!"statsd-compliance" = some (.int compliance) ∧ compliance ≠ 0 ∧
    o.values.find c!"dump-mode" = some (.int 0) ∧ o.values.find c!"routing" = some (.text []) ∧
    o.values.find c!"monitor-message" = some (.text message)

/-- A service made of some command line and files, without compliance and routing rules; `pre` is the prefix of its names, `inst` its
name for its own statistics, and `message` what its monitor answers. -/
def PrefixedService (rx : Regexes R) (c : Created R) (pre inst message : Str) : Prop :=
  ∃ (files : Str → Option Str) (argv : List Str) (o : Opts) (node : Str) (hasInfo : Bool) (fs : List Factory),
    startOptions files argv = .ok o ∧ createService rx node hasInfo fs o = .ok c ∧
    o.values.find c!"statsd-compliance" = some (.int 0) ∧ PrefixIs o pre ∧ InstanceIs node o inst ∧
    o.values.find c!"routing" = some (.text []) ∧ o.values.find c!"monitor-message" = some (.text message)

/-- A program that reports: the services in the order in which it lists them, the namespace of its `Metrics` object, and its calls. -/
structure Reporter (N : Type) where
  services : List N
  namespc : Option Str
  steps : List Client.Step

/-- What a program adds to a counter. -/
def Reporter.adds {N : Type} (p : Reporter N) (key : Str) : List ℤ := deltas p.namespc key (p.steps.map Client.Step.call)

end
end Txstatsd.Spec
