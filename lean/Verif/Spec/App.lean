import Verif.Model.App
import Verif.Spec.Schedule
import Verif.Spec.Counter

/-!
# The assembled service: what it takes in, what it lets out
-/

namespace Txstatsd.Spec

/-- The texts a schedule hands to the processor sooner or later: everything received that is not the monitor's message,
and everything the service writes to itself. -/
def takenIn (monitor : Option Str) (es : List AppEvent) : List Str :=
  es.filterMap fun e => match e with
    | .receive d => if monitor = some d then none else some d
    | .internal t => some t
    | _ => none

/-- What the outside sees of a service: datapoints for carbon, redirected texts, answers, bad messages. -/
structure Seen where
  out : List Datapoint
  sent : List (Sink × Str)
  answered : List Str
  bad : List Str
  deriving DecidableEq

/-- What has been seen of a running service. -/
def seen {S : Type} (v : App S) : Seen := ⟨v.out, v.sent, v.answered, v.bad⟩

section
variable [Rounding] {PF PM R : Type}

/-- What is seen of a fresh service with a processor of the given class. -/
def behaviour (str : Num → Str) (ops : PluginOps PF PM) (plugins : List PF) (cf : AppConf R) (w : World)
    (es : List AppEvent) : ProcKind → Seen
  | .default => seen (App.run (messageProcessor ops).proc cf w { ps := MPState.init ops plugins } es)
  | .configurable pre int => seen (App.run (configurable ops pre int).proc cf w { ps := CPState.init ops plugins } es)
  | .logging pre int => seen (App.run (loggingProc str ops pre int) cf w { ps := { ps := CPState.init ops plugins } } es)

end

/-- The options with another dump mode. -/
def withDump (o : Opts) (z : ℤ) : Opts := { o with values := o.values.put c!"dump-mode" (.int z) }

/-- The name `n` is one of the entries of a comma-separated list, without the white space around it. -/
def Listed (text n : Str) : Prop :=
  ∃ pieces : List Str, pieces ≠ [] ∧ text = [','].intercalate pieces ∧ (∀ p ∈ pieces, ',' ∉ p) ∧
    ∃ p ∈ pieces, ∃ a b, p = a ++ n ++ b ∧ (∀ c ∈ a, White c) ∧ (∀ c ∈ b, White c) ∧
      (∀ c, n.head? = some c → ¬ White c) ∧ (∀ c, n.getLast? = some c → ¬ White c)

/-- The report a function belongs to; the carbon client's and the reactor's own statistics belong to none. -/
def groupOf : ReportFn → Option Str
  | .clientManager => none
  | .reactorStats => none
  | .memoryAndCpu => some c!"process"
  | .cpuCounters => some c!"counter"
  | .ioCounters => some c!"io"
  | .netStats => some c!"net"
  | .meminfo => some c!"system"
  | .loadavg => some c!"system"
  | .netdev => some c!"system"
  | .cpuTimes => some c!"system"

/-- Two names are equal up to case. -/
def SameName (a b : Str) : Prop := a.map Char.toUpper = b.map Char.toUpper

/-- A class of the hierarchy, other than `OptionsGlue` itself, declares the parameter. -/
inductive Declares : PyClass → Str × Str → Prop
  | own {bases params p} : p ∈ params → Declares (.mk false bases params) p
  | base {isGlue bases params b p} : b ∈ bases → Declares b p → Declares (.mk isGlue bases params) p

end Txstatsd.Spec
