import Verif.Spec.Sample
import Mathlib.Algebra.Order.Field.Rat

/-! What the claims about the shares of a sample talk about. -/

namespace Txstatsd.Spec

/-- The updates with these draws and values. -/
def streamOf {α : Type} (ds : List Nat) (vs : List α) : List (StreamOp α) := (ds.zip vs).map fun p => .update p.1 p.2

/-- The share of the values that have a property. -/
def shareOf {α : Type} (P : α → Bool) (vs : List α) : ℚ := (vs.countP P : ℚ) / vs.length

open Classical in
/-- The share of the sequences of `N` draws that have a property; they are equally likely. -/
noncomputable def chanceOf (N : Nat) (Q : List Nat → Prop) : ℚ :=
  ((drawSequences N).countP fun ds => decide (Q ds) : ℚ) / (drawSequences N).length

end Txstatsd.Spec
