import Verif.Model.Create
import Verif.Spec.Options
import Verif.Spec.Sli
import Verif.Spec.Router

/-!
# What the options hold, and which texts are accepted (C169)
-/

namespace Txstatsd.Spec
variable [Rounding]

/-- Every option holds what the declarations say: numbers, texts or nothing; ports are ports; sections of plugins are lists of items. -/
structure WellTyped (o : Opts) : Prop where
  numbers : ∀ n ∈ [c!"listen-port", c!"flush-interval", c!"statsd-compliance", c!"dump-mode", c!"max-queue-size",
    c!"max-datapoints-per-message"], ∃ z, o.values.find n = some (.int z)
  optionalNumbers : ∀ n ∈ [c!"listen-tcp-port", c!"http-port"], o.values.find n = some .none ∨ ∃ z, o.values.find n = some (.int z)
  texts : ∀ n ∈ [c!"monitor-message", c!"monitor-response", c!"routing"], ∃ s, o.values.find n = some (.text s)
  optionalTexts : ∀ n ∈ [c!"prefix", c!"instance-name", c!"report", c!"config"],
    o.values.find n = some .none ∨ ∃ s, o.values.find n = some (.text s)
  lists : ∀ n ∈ [c!"carbon-cache-host", c!"carbon-cache-name"], ∃ l, o.values.find n = some (.texts l)
  ports : ∃ l, o.values.find c!"carbon-cache-port" = some (.ports l) ∧ ∀ z ∈ l, 0 ≤ z ∧ z ≤ 65535
  plugins : ∀ n v, c!"plugin_" <+: n → o.values.find n = some v → ∃ l, v = .items l

omit [Rounding] in
/-- The section of the SLI plugin gives this text as its rules. -/
def GivenRules (o : Opts) (text : Str) : Prop := ∃ l, o.values.find c!"plugin_sli" = some (.items l) ∧
  ∃ a b, l = a ++ (c!"rules", text) :: b ∧ ∀ p ∈ b, p.1 ≠ c!"rules"

/-- The text consists of rules of the SLI plugin. -/
def SliText (text : Str) : Prop := ∀ line ∈ splitOn '\n' (strip text), ∃ head label kind params,
  RuleLine line head label kind params ∧ ∀ e, ¬ Senseless kind (splitOn ' ' params.tail) e

omit [Rounding] in
/-- The text consists of routing rules and empty lines. -/
def RoutingText {R : Type} (rx : Regexes R) (text : Str) (rules : List (Rule R)) : Prop :=
  ∃ lines, lines ≠ [] ∧ (∀ l ∈ lines, '\n' ∉ l) ∧ text = ['\n'].intercalate lines ∧
    List.Forall₂ (RuleText rx true) (lines.filter (· ≠ [])) rules

omit [Rounding] in
/-- The prefix: the given one, even if it is empty, and `statsd` if none is given. -/
def PrefixIs (o : Opts) (pre : Str) : Prop :=
  o.values.find c!"prefix" = some (.text pre) ∨ o.values.find c!"prefix" = some .none ∧ pre = c!"statsd"

omit [Rounding] in
/-- The name of the instance: the given one, and that of the machine if none or an empty one is given. -/
def InstanceIs (node : Str) (o : Opts) (inst : Str) : Prop :=
  inst ≠ [] ∧ o.values.find c!"instance-name" = some (.text inst) ∨
  (o.values.find c!"instance-name" = some .none ∨ o.values.find c!"instance-name" = some (.text [])) ∧ inst = node

end Txstatsd.Spec
