import Verif.Model.ExpDecay
import Verif.Model.Ewma
import Mathlib.Algebra.BigOperators.Group.Finset.Basic

/-!
# Call sequences of decaying samples and of moving averages
-/

namespace Txstatsd

/-- What a caller does to a decaying sample. -/
inductive DecayOp (K V : Type)
  | update (value : V) (timestamp draw : K)
  | clear (t1 t2 : K)

/-- The state after the calls; an update that raises leaves the state it had reached. -/
def ExpDecay.runOps {K V : Type} [Field K] [LinearOrder K] [LinearOrder V] (E : ExpFn K) (s : ExpDecay K V)
    (ops : List (DecayOp K V)) : ExpDecay K V :=
  ops.foldl (fun s o => match o with | .update v t d => (s.update E v t d).1 | .clear t1 t2 => s.clear t1 t2) s

/-- The values offered since the last clear, each with its weight `exp(alpha·t)/u`, where `t` is its time and `u` its random
draw: the priority it has relative to time 0. A value whose draw was 0 has no priority. -/
def weighted {K V : Type} [Field K] [LinearOrder K] (E : ExpFn K) (alpha : K) (ops : List (DecayOp K V)) : List (K × V) :=
  ops.foldl (fun acc o => match o with
    | .update v t d => if d = 0 then acc else acc ++ [(E.exp (alpha * t) / d, v)]
    | .clear _ _ => []) []

/-- The random draws are not negative (`random()` is in `[0, 1)`). -/
def DrawsOk {K V : Type} [Field K] [LinearOrder K] (ops : List (DecayOp K V)) : Prop :=
  ∀ v t d, DecayOp.update v t d ∈ ops → 0 ≤ d

/-- What a caller does to a moving average. -/
inductive EwmaOp (K : Type)
  | update (n : K)
  | tick

/-- The moving average after the calls. -/
def Ewma.runOps {K : Type} [Field K] (e : Ewma K) (ops : List (EwmaOp K)) : Ewma K :=
  ops.foldl (fun e o => match o with | .update n => e.update n | .tick => e.tick) e

/-- The events counted since the last tick, and the totals of the completed intervals, oldest first. -/
def intervalTotals {K : Type} [Field K] (ops : List (EwmaOp K)) : K × List K :=
  ops.foldl (fun st o => match o with | .update n => (st.1 + n, st.2) | .tick => (0, st.2 ++ [st.1])) (0, [])

/-- The rate of each completed interval, oldest first. -/
def instantRates {K : Type} [Field K] (interval : K) (ops : List (EwmaOp K)) : List K :=
  (intervalTotals ops).2.map (· / interval)

end Txstatsd
