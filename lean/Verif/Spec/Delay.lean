import Verif.Spec.Report

/-! What the claims about the delay of an unresponsive reactor talk about. -/

namespace Txstatsd.Spec

/-- A log line about a missing answer. -/
def Unanswered : InspEntry → Prop
  | .unresponsive _ _ => True
  | _ => False

/-- The log ends with an answer, late or not. -/
def EndsAnswered (log : List InspEntry) : Prop := ∃ l x, log = l ++ [x] ∧ ¬ Unanswered x

/-- `a` is what happened until the inspector's thread, which began at `t0`, was last done with an answer, at `since`; `b` is what
happened from then on. -/
structure AnsweredAt (t0 : ℚ) (a b : List (ℚ × InspAct)) (since : ℚ) : Prop where
  answer : a = [] ∧ since = t0 ∨
    ∃ a' act, a = a' ++ [(since, act)] ∧ (act = .check ∨ act = .clean) ∧ EndsAnswered (({ oldest := t0 } : Insp).run a).log
  idle : (({ oldest := t0 } : Insp).run a).phase = .idle
  silent : ∃ l, (({ oldest := t0 } : Insp).run (a ++ b)).log = (({ oldest := t0 } : Insp).run a).log ++ l ∧ ∀ x ∈ l, Unanswered x

end Txstatsd.Spec
