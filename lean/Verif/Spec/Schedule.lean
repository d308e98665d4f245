import Verif.Model.Generator
import Verif.Spec.Accounting

/-!
# Schedules: what arrives, what is under way
-/

namespace Txstatsd.Spec
variable {C T G PF PM : Type}

/-- The messages that arrive in a schedule. -/
def arrivals (es : List Event) : List Str :=
  es.filterMap fun e => match e with
    | .arrive m => some m
    | _ => none

/-- All flushes started in a schedule have an interval of at least one second. -/
def WholeSecondSpawns (es : List Event) : Prop := ∀ i p, Event.spawn i p ∈ es → 1000 ≤ i

/-- The datapoints that a generator has computed but not handed out yet. -/
def inFlight : Pc → List Datapoint
  | .inPhase _ _ _ _ _ _ _ pend => pend
  | .sumInit _ _ pend => pend
  | .sumPer _ _ _ pend => pend
  | .sumRecv _ _ _ _ pend => pend
  | _ => []

/-- All datapoints under way. -/
def underWay (gens : List Gen) : List Datapoint := gens.flatMap fun g => inFlight g.pc

/-- A generator that is not suspended inside a flush. -/
def AtRest : Pc → Prop
  | .fresh => True
  | .done => True
  | .crashed _ => True
  | _ => False

/-- The generator is exhausted or was ended by an exception. -/
def ended : Pc → Bool
  | .done => true
  | .crashed _ => true
  | _ => false

variable [Rounding]

/-- What generator `i` emits in a schedule from server `v` on. -/
def emits (I : Impl C T G PF PM) (w : World) (i : Nat) : Server C T G PF PM → List Event → List Datapoint
  | _, [] => []
  | v, e :: es =>
    (match e, v.gens[i]? with
      | .advance j, some g => if j = i then (micro I w v.ps g).2.2.toList else []
      | _, _ => []) ++ emits I w i (v.step I w e) es

/-- No metric name, gauge reading or message type was added. -/
def SameNames (s s' : PS C T G PF PM) : Prop :=
  s'.counters.keys = s.counters.keys ∧ s'.timers.keys = s.timers.keys ∧ s'.gauges = s.gauges ∧
  s'.meters.keys = s.meters.keys ∧ s'.pluginMetrics.keys = s.pluginMetrics.keys ∧
  s'.processTimings.keys = s.processTimings.keys

/-- No arrival in the schedule adds a metric name, a gauge reading or a message type. -/
def Settled (I : Impl C T G PF PM) (w : World) : Server C T G PF PM → List Event → Prop
  | _, [] => True
  | v, e :: es =>
    (match e with
      | .arrive m => SameNames v.ps (process I w v.ps m).1
      | _ => True) ∧ Settled I w (v.step I w e) es

/-- The server after the first `n` events of an infinite schedule. -/
def after (I : Impl C T G PF PM) (w : World) (v : Server C T G PF PM) (f : ℕ → Event) : ℕ → Server C T G PF PM
  | 0 => v
  | n + 1 => (after I w v f n).step I w (f n)

/-- The generator is reporting the receive statistics. -/
def Receiving : Pc → Prop
  | .sumRecv .. => True
  | _ => False

/-- While a generator is reporting the receive statistics, nothing arrives and no other generator is advanced. -/
def Calm (I : Impl C T G PF PM) (w : World) : Server C T G PF PM → List Event → Prop
  | _, [] => True
  | v, e :: es =>
    (match e with
      | .arrive _ => ∀ g ∈ v.gens, ¬ Receiving g.pc
      | .spawn _ _ => True
      | .advance i => ∀ j g, j ≠ i → v.gens[j]? = some g → ¬ Receiving g.pc) ∧ Calm I w (v.step I w e) es

open Classical in
/-- The number of messages of type `t` handled in a schedule. -/
noncomputable def handledIn (I : Impl C T G PF PM) (w : World) (t : Str) : Server C T G PF PM → List Event → Nat
  | _, [] => 0
  | v, e :: es =>
    (match e with
      | .arrive m => if Handled I w v.ps t m then 1 else 0
      | _ => 0) + handledIn I w t (v.step I w e) es

/-- The server at start-up. -/
def startUp (s : PS C T G PF PM) : Server C T G PF PM := { ps := s }

end Txstatsd.Spec
