import Verif.Model.Histogram

/-!
# Streams of updates for the samples and histograms
-/

namespace Txstatsd

/-- What a caller does to a sample or a histogram: add a value (with the outcome of the random draw made while adding
it) or clear it. -/
inductive StreamOp (α : Type)
  | update (draw : Nat) (value : α)
  | clear
  deriving DecidableEq, Repr

/-- The values added since the last `clear`, oldest first. -/
def streamValues {α : Type} : List (StreamOp α) → List α
  | ops => ops.foldl (fun acc o => match o with | .update _ v => acc ++ [v] | .clear => []) []

/-- The calls made on a uniform sample. -/
def UniformSample.runOps {α : Type} (zero : α) (s : UniformSample α) (ops : List (StreamOp α)) : UniformSample α :=
  ops.foldl (fun s o => match o with | .update d v => s.update d v | .clear => s.clear zero) s

/-- The calls made on a histogram. -/
def Histogram.runOps [Rounding] (h : Histogram) (ops : List (StreamOp PyFloat)) : Histogram :=
  ops.foldl (fun h o => match o with | .update d v => h.update d v | .clear => h.clear) h

/-- All sequences of `N` draws `r₁ … r_N` with `r_k < k`: the `k`-th update reduces its draw modulo `k`, and these are
the (equally likely) results. -/
def drawSequences : Nat → List (List Nat)
  | 0 => [[]]
  | N + 1 => (drawSequences N).flatMap fun ds => (List.range (N + 1)).map fun r => ds ++ [r]

/-- The stream positions (0-based) that a sample of capacity `n` holds after a stream in which the draws were `ds`: run
the sample on the stream `0, 1, 2, …`. -/
def keptPositions (n : Nat) (ds : List Nat) : List Nat :=
  ((UniformSample.init 0 n).runOps 0 (ds.zipIdx.map fun p => StreamOp.update p.1 p.2)).getValues

end Txstatsd
