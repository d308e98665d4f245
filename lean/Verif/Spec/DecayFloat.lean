import Verif.Model.DecayFloat

/-!
# Decaying samples in floats
-/

namespace Txstatsd

/-- What a caller does to a decaying sample. -/
inductive FDecayOp
  | update (value : PyFloat) (timestamp draw : ℚ)
  | clear (t1 t2 : ℚ)

/-- The values added since the last clear, oldest first. -/
def decayValues (ops : List FDecayOp) : List PyFloat :=
  ops.foldl (fun acc o => match o with | .update v _ _ => acc ++ [v] | .clear _ _ => []) []

variable [Rounding]

/-- The state after the calls; an update that raises leaves the state it had reached. -/
def DecaySample.runOps [FloatExp] (s : DecaySample) (ops : List FDecayOp) : DecaySample :=
  ops.foldl (fun s o => match o with | .update v t d => (s.update v t d).1 | .clear t1 t2 => s.clear t1 t2) s

/-- The same calls on a histogram. -/
def DecayHistogram.runOps [FloatExp] (h : DecayHistogram) (ops : List FDecayOp) : DecayHistogram :=
  ops.foldl (fun h o => match o with | .update v t d => (h.update v t d).1 | .clear t1 t2 => h.clear t1 t2) h

namespace Spec

/-- A reading of a clock in seconds: a double, within 30000 years of the epoch. -/
def ClockTime (t : ℚ) : Prop := rnd t = .fin t ∧ |t| ≤ 2 ^ 40

omit [Rounding] in
/-- A result of `random()` other than 0: a multiple of `2^-53` below 1. -/
def RandomDraw (d : ℚ) : Prop := ∃ k : ℤ, 0 < k ∧ k < 2 ^ 53 ∧ d = k / 2 ^ 53

/-- The two readings of a clear are at most a second apart; times may otherwise be any. -/
def SensibleOp : FDecayOp → Prop
  | .update _ t d => ClockTime t ∧ RandomDraw d
  | .clear t1 t2 => ClockTime t1 ∧ ClockTime t2 ∧ t1 ≤ t2 ∧ t2 ≤ t1 + 1

/-- All calls are sensible. -/
def Sensible (ops : List FDecayOp) : Prop := ∀ o ∈ ops, SensibleOp o

/-- Everything added since the last clear, with its priority: `exp(alpha * (t - start)) / draw` when added, and multiplied by
`exp(-alpha * (now - start))` whenever the landmark moves, which it does with the first update 600 seconds after the last move. -/
structure Aging where
  start : PyFloat
  next : PyFloat
  entries : List (PyFloat × PyFloat)

variable [FloatExp]

/-- The exponential, or nan where there is none. -/
def expOr (x : PyFloat) : PyFloat := match FloatExp.exp x with | .ok y => y | .error _ => .nan

/-- The quotient, or nan where there is none. -/
def quotient (x : PyFloat) (d : ℚ) : PyFloat := match x.div (.fin d) with | .ok y => y | .error _ => .nan

/-- The landmark moves to `now`. -/
def Aging.move (alpha : PyFloat) (a : Aging) (now : ℚ) : Aging :=
  { start := .fin now, next := (PyFloat.fin now).add (.fin 600),
    entries := a.entries.map fun p => (p.1.mul (expOr (alpha.neg.mul ((PyFloat.fin now).sub a.start))), p.2) }

/-- One call. -/
def Aging.step (alpha : PyFloat) (a : Aging) : FDecayOp → Aging
  | .update v t d =>
    let a := if a.next.le (.fin t) then a.move alpha t else a
    { a with entries := a.entries ++ [(quotient (expOr (alpha.mul ((PyFloat.fin t).sub a.start))) d, v)] }
  | .clear t1 t2 => { start := .fin t1, next := (PyFloat.fin t2).add (.fin 600), entries := [] }

/-- All calls. -/
def Aging.run (alpha : PyFloat) (a : Aging) (ops : List FDecayOp) : Aging := ops.foldl (Aging.step alpha) a

/-- The priorities of everything added since the last clear. -/
def aged (alpha : PyFloat) (t1 t2 : ℚ) (ops : List FDecayOp) : List (PyFloat × PyFloat) :=
  (Aging.run alpha { start := .fin t1, next := (PyFloat.fin t2).add (.fin 600), entries := [] } ops).entries

end Spec
end Txstatsd
