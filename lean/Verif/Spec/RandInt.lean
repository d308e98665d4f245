import Verif.Spec.SampleShare

/-! What the claims about samples with the draws the code makes talk about. -/

namespace Txstatsd.Spec

/-- All sequences of `N` results of `randint(1, M)`. -/
def intDraws (M : Nat) : Nat → List (List Nat)
  | 0 => [[]]
  | N + 1 => (intDraws M N).flatMap fun ds => (List.range M).map fun d => ds ++ [d + 1]

open Classical in
/-- The share of the sequences of `N` results of `randint(1, M)` that have a property; they are equally likely. -/
noncomputable def chanceOfInts (M N : Nat) (Q : List Nat → Prop) : ℚ :=
  ((intDraws M N).countP fun ds => decide (Q ds) : ℚ) / (intDraws M N).length

end Txstatsd.Spec
