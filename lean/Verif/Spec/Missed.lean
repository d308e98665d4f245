import Verif.Spec.Schedule

/-! What the claims about receive statistics under arrivals talk about. -/

namespace Txstatsd.Spec
variable [Rounding] {C T G PF PM : Type}

/-- While a generator is reporting the receive statistics, no other generator is advanced, and a message that is handled has a type
of which there is a count. -/
def Solo (I : Impl C T G PF PM) (w : World) : Server C T G PF PM → List Event → Prop
  | _, [] => True
  | v, e :: es =>
    (match e with
      | .arrive m => (∃ g ∈ v.gens, Receiving g.pc) → ∀ t, Handled I w v.ps t m → t ∈ v.ps.byType.keys
      | .spawn _ _ => True
      | .advance i => ∀ j g, j ≠ i → v.gens[j]? = some g → ¬ Receiving g.pc) ∧ Solo I w (v.step I w e) es

/-- A generator that is reporting the receive statistics has already read the count of type `t`. -/
def Passed (t : Str) (v : Server C T G PF PM) : Prop :=
  ∃ g ∈ v.gens, ∃ ts size cursor cur pend, g.pc = .sumRecv ts size cursor cur pend ∧ t ∈ v.ps.processTimings.keys.take cursor

open Classical in
/-- The number of messages of type `t` handled in a schedule while a flush had already read the count of the type. -/
noncomputable def missedIn (I : Impl C T G PF PM) (w : World) (t : Str) : Server C T G PF PM → List Event → Nat
  | _, [] => 0
  | v, e :: es =>
    (match e with
      | .arrive m => if Handled I w v.ps t m ∧ Passed t v then 1 else 0
      | _ => 0) + missedIn I w t (v.step I w e) es

/-- The counts of type `t` that disappear in a schedule. -/
def wipedIn (I : Impl C T G PF PM) (w : World) (t : Str) : Server C T G PF PM → List Event → Nat
  | _, [] => 0
  | v, e :: es =>
    (((v.ps.byType.find t).getD 0) - (((v.step I w e).ps.byType.find t).getD 0)) + wipedIn I w t (v.step I w e) es

/-- The count of type `t` that a flush reads in this event, to report it. -/
def justRead (t : Str) (v : Server C T G PF PM) : Event → Nat
  | .advance i =>
    match v.gens[i]? with
    | some ⟨_, _, .sumRecv _ size cursor none []⟩ =>
      if v.ps.processTimings.length = size ∧ v.ps.processTimings.keys[cursor]? = some t then (v.ps.byType.find t).getD 0 else 0
    | _ => 0
  | _ => 0

/-- The counts of type `t` that flushes read in a schedule. -/
def readIn (I : Impl C T G PF PM) (w : World) (t : Str) : Server C T G PF PM → List Event → Nat
  | _, [] => 0
  | v, e :: es => justRead t v e + readIn I w t (v.step I w e) es

end Txstatsd.Spec
