import Verif.Spec.Missed
import Verif.Spec.Configurable
import Verif.Spec.Came

/-! What the claims about the receive statistics of a configurable processor talk about. -/

namespace Txstatsd.Spec

/-- The name under which a configurable processor reports the messages of type `t`: it starts with the internal prefix as given, or made
of the message prefix. -/
def ownCount (pre int t : Str) : Str :=
  (if int ≠ [] then int else if pre ≠ [] then pre ++ c!".statsd." else c!"statsd.") ++ c!"receive." ++ t ++ c!".count"

/-- No datapoint made of the message is called `n`. -/
def Unlike [Rounding] (pre n m : Str) : Prop :=
  ∀ ty suffix key v, (ty, suffix) ∈ suffixes → Reading ty key m v → prefixed pre key suffix ≠ n

/-- No plugin metric that can come about in a configurable processor emits a datapoint called `n`. -/
def PluginsUnlike {PF PM : Type} (ops : PluginOps PF PM) (pre n : Str) : Prop :=
  ∀ key m, Came ops (fun _ => pre) key m → ∀ w t i ts l, (ops.flush w t m i ts).2.2 = .ok l → ∀ d ∈ l, d.name ≠ n

end Txstatsd.Spec
