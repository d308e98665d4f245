import Verif.Spec.History
import Verif.Spec.UniqueNames

/-!
# What C174 speaks of: what a store with one value per name and second keeps
-/

namespace Txstatsd
namespace Spec
variable [Rounding] {C T G PF PM : Type}

omit [Rounding] in
/-- What is left of a list of datapoints when a later one replaces every earlier one of the same name and timestamp, as in the files of
carbon. -/
def carbonKeeps : List Datapoint → List Datapoint
  | [] => []
  | d :: l => if ∃ e ∈ l, e.name = d.name ∧ e.ts = d.ts then carbonKeeps l else d :: carbonKeeps l

/-- The clock is at least a second later at the beginning of each flush of the history than at the beginnings of those before it. -/
def FlushesApart (I : Impl C T G PF PM) (w : World) (s : PS C T G PF PM) (os : List Op) : Prop :=
  ∀ a b c i p i' p', os = a ++ Op.flush i p :: (b ++ Op.flush i' p' :: c) →
    w.clk (runOps I w s a).1.ticks + 1 ≤ w.clk (runOps I w s (a ++ Op.flush i p :: b)).1.ticks

/-- No flush of the history raises. -/
def AllComplete (I : Impl C T G PF PM) (w : World) (s : PS C T G PF PM) (os : List Op) : Prop :=
  ∀ a c i p, os = a ++ Op.flush i p :: c → (flush I w i p (runOps I w s a).1).2.2 = none

end Spec
end Txstatsd
