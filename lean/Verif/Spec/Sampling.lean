import Verif.Spec.Metrics

/-!
# Random draws
-/

namespace Txstatsd.Spec

/-- All sequences of `n` draws of a generator that yields the multiples of `1/N` below one. -/
def allDraws (N : Nat) : Nat → List (List ℚ)
  | 0 => [[]]
  | n + 1 => (List.range N).flatMap fun (k : Nat) => (allDraws N n).map fun ds => ((k : ℚ) / N) :: ds

/-- The increments `zs` of one name at one rate, with the draws `ds`. -/
def sampledCalls (name : Option Str) (r : ℚ) (zs : List ℤ) (ds : List ℚ) : List Client.Step :=
  List.zipWith (fun (z : ℤ) d => { call := .increment name (.num (.int z)) (.flt (.fin r)), draw := d }) zs ds

/-- The mean of `f` over all sequences of draws. -/
def mean (N n : Nat) (f : List ℚ → ℚ) : ℚ := ((allDraws N n).map f).sum / (N : ℚ) ^ n

end Txstatsd.Spec
