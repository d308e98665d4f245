import Verif.Model.Report

/-! What the claims about reporting talk about. -/

namespace Txstatsd.Spec

/-- A report function that writes down its calls and raises on some of them. -/
def recorder {V : Type} (bad : Str → V → Bool) (calls : List (Str × V)) (name : Str) (value : V) :
    List (Str × V) × Option PyErr :=
  (calls ++ [(name, value)], if bad name value then some .otherError else none)

/-- The name under which a metric is reported. -/
def reportedAs (inst name : Str) : Str :=
  match inst with
  | [] => name
  | _ => inst ++ c!"." ++ name

/-- Everything up to and including the first element with the property. -/
def upTo {α : Type} (p : α → Bool) : List α → List α
  | [] => []
  | x :: xs => x :: (if p x then [] else upTo p xs)

/-- The calls a run must make. -/
def callsOf {V : Type} (inst : Str) (bad : Str → V → Bool) : Except PyErr (Dict V) → List (Str × V)
  | .error _ => []
  | .ok metrics => upTo (fun c => bad c.1 c.2) (metrics.map fun c => (reportedAs inst c.1, c.2))

/-- The history of a service that is started and stopped in turn; all its tasks have report functions. -/
def ProperHistory : Bool → List SvcEvent → Prop
  | _, [] => True
  | running, .schedule wrapped _ :: es => wrapped = true ∧ ProperHistory running es
  | running, .start :: es => running = false ∧ ProperHistory true es
  | running, .stop :: es => running = true ∧ ProperHistory false es
  | running, .fire _ _ :: es => ProperHistory running es

/-- The same, with any tasks. -/
def InTurn : Bool → List SvcEvent → Prop
  | _, [] => True
  | running, .schedule _ _ :: es => InTurn running es
  | running, .start :: es => running = false ∧ InTurn true es
  | running, .stop :: es => running = true ∧ InTurn false es
  | running, .fire _ _ :: es => InTurn running es

/-- The probe that the reactor executes in a step: its id, when it was requested, when it was executed. -/
def executes (s : Insp) (now : ℚ) : InspAct → List (ℕ × ℚ × ℚ)
  | .exec i => (s.pending[i]?).toList.map fun p => (p.1, p.2, now)
  | _ => []

/-- The probes the reactor executed in a run. -/
def executed : Insp → List (ℚ × InspAct) → List (ℕ × ℚ × ℚ)
  | _, [] => []
  | s, e :: es => executes s e.1 e.2 ++ executed (s.step e.1 e.2) es

/-- The reactor executes probes in the order of their requests (as `callFromThread` does). -/
def Fifo (evs : List (ℚ × InspAct)) : Prop := ∀ e ∈ evs, ∀ i, e.2 = .exec i → i = 0

/-- A log line about a late answer. -/
def IsLate : InspEntry → Prop
  | .late _ _ _ => True
  | _ => False

end Txstatsd.Spec
