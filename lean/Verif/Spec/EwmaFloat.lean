import Verif.Model.EwmaFloat
import Verif.Spec.Decay

/-!
# Moving averages of whole numbers of events
-/

namespace Txstatsd

/-- The moving average after the calls, and the exceptions raised. -/
def FloatEwma.runOps [Rounding] (e : FloatEwma) (ops : List (EwmaOp ℤ)) : FloatEwma × List PyErr :=
  ops.foldl (fun st o => match o with
    | .update n => (st.1.update (.int n), st.2)
    | .tick => (st.1.tick.1, st.2 ++ st.1.tick.2.toList)) (e, [])

namespace Spec

/-- The events counted since the last tick, and the totals of the completed intervals, oldest first. -/
def eventTotals (ops : List (EwmaOp ℤ)) : ℤ × List ℤ :=
  ops.foldl (fun st o => match o with | .update n => (st.1 + n, st.2) | .tick => (0, st.2 ++ [st.1])) (0, [])

end Spec
end Txstatsd
