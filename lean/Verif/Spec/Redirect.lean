import Verif.Model.Redirect
import Verif.Spec.Tcp

/-!
# Where redirected lines go
-/

namespace Txstatsd.Spec

/-- Everything the connections of a redirect have taken, oldest connection first. -/
def taken (r : Redirect) : List Str := (r.earlier ++ r.proto.toList).map (·.wire)

/-- All messages counted as dropped, by the current protocol and the earlier ones. -/
def droppedBy (r : Redirect) : Nat := ((r.earlier ++ r.proto.toList).map (·.dropped)).sum

/-- The event ends a connection or fills its buffer. -/
def Interrupts : LifeEvent → Bool
  | .stop _ => true
  | .lost _ => true
  | .pause _ => true
  | _ => false

/-- A connection came about at some time. -/
def EverUp (es : List LifeEvent) : Prop := ∃ a b, es = a ++ .connected :: b ∧ (Redirect.run {} a).pending = true

/-- A history that ends in a connection with room for data: the last connection came about and since then nothing interrupted
it. -/
def Open (es : List LifeEvent) : Prop :=
  ∃ a b, es = a ++ .connected :: b ∧ (Redirect.run {} a).pending = true ∧ (∀ e ∈ b, Interrupts e = false)

end Txstatsd.Spec
