import Verif.Model.Plugins
import Verif.Spec.Sli

/-!
# What plugin metrics should contain
-/

namespace Txstatsd.Spec

variable [Rounding]

omit [Rounding] in
/-- The SLI messages for a name, as operations on its metric. -/
def sliOps (key : Str) (ms : List Str) : List SliOp :=
  ms.filterMap fun msg => match parseMessage msg with
    | some m => if m.mtype = c!"sli" ∧ m.key = key then some (.event m.fields) else none
    | none => none

omit [Rounding] in
/-- No message of the type `pd` uses the name. -/
def NoDistinct (key : Str) (ms : List Str) : Prop :=
  ∀ msg ∈ ms, ∀ m, parseMessage msg = some m → m.key = key → m.mtype ≠ c!"pd"

omit [Rounding] in
/-- The number of events an SLI metric of this name has counted since the last flush (0 without one). -/
def sliCount {C T G : Type} (s : PS C T G Factory PluginMetric) (key : Str) : Nat :=
  match s.pluginMetrics.find key with
  | some (.sli r) => r.count
  | _ => 0

end Txstatsd.Spec
