import Verif.Spec.History
import Verif.Spec.Timer
import Verif.Spec.Configurable

/-!
# What C173 speaks of: names in one flush
-/

namespace Txstatsd
namespace Spec
section
variable [Rounding] {PF PM : Type}

omit [Rounding] in
/-- No two datapoints have the same name: carbon keeps one value per name and timestamp. -/
def UniqueNames (l : List Datapoint) : Prop := (l.map fun d => d.name).Nodup

omit [Rounding] in
/-- No grammatical message is of a plugin's type. -/
def NoPluginUse (ops : PluginOps PF PM) (plugins : List PF) (msgs : List Str) : Prop :=
  ∀ m ∈ msgs, ∀ t k fs, Parsed m t k fs → ∀ p ∈ plugins, ops.mtype p ≠ t

/-- No name is read as a gauge more than once. -/
def OneReading (msgs : List Str) : Prop :=
  ∀ key vs, Collect (Reading c!"g" key) msgs vs → vs.length ≤ 1

/-- No name is used for two of counters, timers and meters. -/
def OneKind (msgs : List Str) : Prop :=
  ∀ k, ¬ (Received c!"c" k msgs ∧ Received c!"ms" k msgs) ∧ ¬ (Received c!"c" k msgs ∧ Received c!"m" k msgs) ∧
    ¬ (Received c!"ms" k msgs ∧ Received c!"m" k msgs)

omit [Rounding] in
/-- A grammatical message of the type of a plugin that comes with the program came under the name. -/
def ForPlugin (k : Str) (msgs : List Str) : Prop := ∃ m ∈ msgs, ∃ t fs, Parsed m t k fs ∧ t ∈ [c!"sli", c!"pd"]

/-- A name of a plugin's metric is used for nothing else but gauges. -/
def PluginsApart (msgs : List Str) : Prop := ∀ k, ForPlugin k msgs →
  ¬ Received c!"c" k msgs ∧ ¬ Received c!"ms" k msgs ∧ ¬ Received c!"m" k msgs

end
end Spec
end Txstatsd
