import Verif.Model.Inspector

/-!
# What starting and stopping the inspector should do
-/

namespace Txstatsd.Spec

/-- The acts of the loop, with their times. -/
def loopActs (evs : List (ℚ × InspSvcAct)) : List (ℚ × InspAct) :=
  evs.filterMap fun e => match e.2 with
    | .act a => some (e.1, a)
    | _ => none

/-- The service was started. -/
def Started (evs : List (ℚ × InspSvcAct)) : Prop := ∃ e ∈ evs, ∃ ident, e.2 = .start ident

/-- The service was stopped. -/
def Stopped (evs : List (ℚ × InspSvcAct)) : Prop := ∃ e ∈ evs, e.2 = .stop

/-- The last start or stop was a start. -/
def Up (evs : List (ℚ × InspSvcAct)) : Prop :=
  ∃ before t ident after, evs = before ++ (t, .start ident) :: after ∧ ∀ e ∈ after, e.2 ≠ .stop

end Txstatsd.Spec
