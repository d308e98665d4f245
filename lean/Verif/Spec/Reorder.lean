import Verif.Spec.Interleaved
import Verif.Spec.Relay

/-!
# Datagrams that overtake each other or arrive twice
-/

namespace Txstatsd.Spec

/-- What datapoints say, without the time. -/
def said (ds : List Datapoint) : List (Str × Num) := ds.map fun d => (d.name, d.value)

/-- Each message is delivered once and then repeated the given number of times. -/
def repeated (ms : List (Str × Nat)) : List Str := ms.flatMap fun p => List.replicate (p.2 + 1) p.1

end Txstatsd.Spec
