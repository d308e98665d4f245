import Verif.Spec.Metrics

/-!
# Which calls of the client metrics are refused
-/

namespace Txstatsd.Spec

/-- The exception of a call for a metric whose object is of class `k`, the class of the first call for its name. -/
def refusal (ext : Bool) (k : Kind) : Call → Option PyErr
  | .report _ _ _ _ => match k with
    | .generic _ => none
    | .plain | .counter _ => some .attributeError
    | _ => some .typeError
  | .gauge _ _ _ | .meter _ _ _ | .distinct _ _ => marked k
  | .increment _ v _ => if ext then counted k v else none
  | .decrement _ v _ => if ext then counted k v else match v with
    | .num _ => none
    | .text _ => some .typeError
  | .timing _ _ _ => if ext then marked k else none
  | .resetTiming | .clear _ => none
where
  /-- Calls that mark a value: the objects that count have no such method. -/
  marked : Kind → Option PyErr
    | .plain | .counter _ => some .attributeError
    | _ => none
  /-- Calls that count: only objects that count have such methods; they count numbers. -/
  counted : Kind → Arg → Option PyErr
    | .counter _, .num _ => none
    | .counter _, .text _ => some .typeError
    | _, _ => some .attributeError

/-- The values of counting calls are numbers. -/
def NumericCounts : Call → Prop
  | .increment _ (.text _) _ => False
  | .decrement _ (.text _) _ => False
  | _ => True

end Txstatsd.Spec
