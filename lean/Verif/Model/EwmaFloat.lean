import Verif.Model.Num

/-!
# `Ewma` in floats (stats/ewma.py)

Model/Ewma.lean computes in a field; here every operation is one of floats.
-/

namespace Txstatsd

/-- `Ewma` (ewma.py:63-75). -/
structure FloatEwma where
  interval : Num
  alpha : PyFloat
  initialized : Bool
  rate : PyFloat
  uncounted : Num
  deriving DecidableEq, Repr

namespace FloatEwma
variable [Rounding]

/-- `__init__(alpha, interval)` (ewma.py:63-75). -/
def init (alpha interval : Num) : FloatEwma :=
  { interval := interval, alpha := alpha.toFloat, initialized := false, rate := .fin 0, uncounted := .int 0 }

/-- `update(n)` (ewma.py:76-78). -/
def update (e : FloatEwma) (n : Num) : FloatEwma := { e with uncounted := e.uncounted.add n }

/-- `tick()` (ewma.py:80-89). If the division raises, the count is already gone. -/
def tick (e : FloatEwma) : FloatEwma × Option PyErr :=
  let count := e.uncounted
  let e := { e with uncounted := .int 0 }
  match count.toFloat.div e.interval.toFloat with
  | .error x => (e, some x)
  | .ok instant =>
    (if e.initialized then { e with rate := e.rate.add (e.alpha.mul (instant.sub e.rate)) }
     else { e with rate := instant, initialized := true }, none)

end FloatEwma

end Txstatsd
