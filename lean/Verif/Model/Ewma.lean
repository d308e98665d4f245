import Mathlib.Algebra.Order.Field.Basic
import Mathlib.Analysis.SpecialFunctions.Exp

/-!
# `Ewma` (stats/ewma.py)

Float arithmetic is replaced by exact arithmetic in an ordered field `K`.
-/

namespace Txstatsd

/-- `Ewma` (ewma.py:63-75). -/
structure Ewma (K : Type) where
  interval : K
  alpha : K
  initialized : Bool
  rate : K
  uncounted : K

namespace Ewma
variable {K : Type} [Field K]

/-- `__init__(alpha, interval)` (ewma.py:63-75). -/
def init (alpha interval : K) : Ewma K :=
  { interval := interval, alpha := alpha, initialized := false, rate := 0, uncounted := 0 }

/-- `update(n)` (ewma.py:77-79). -/
def update (e : Ewma K) (n : K) : Ewma K := { e with uncounted := e.uncounted + n }

/-- `tick()` (ewma.py:81-89), for a non-zero interval. -/
def tick (e : Ewma K) : Ewma K :=
  let instant := e.uncounted / e.interval
  let e := { e with uncounted := 0 }
  if e.initialized then { e with rate := e.rate + e.alpha * (instant - e.rate) }
  else { e with rate := instant, initialized := true }

/-- `M1_ALPHA` (ewma.py:35). -/
noncomputable def m1Alpha : ℝ := 1 - Real.exp (-5 / 60)

/-- `M5_ALPHA` (ewma.py:36). -/
noncomputable def m5Alpha : ℝ := 1 - Real.exp (-5 / 60 / 5)

/-- `M15_ALPHA` (ewma.py:37). -/
noncomputable def m15Alpha : ℝ := 1 - Real.exp (-5 / 60 / 15)

/-- `one_minute_ewma`, `five_minute_ewma`, `fifteen_minute_ewma` (ewma.py:39-61). -/
noncomputable def oneMinute : Ewma ℝ := init m1Alpha 5
/-- `five_minute_ewma` (ewma.py:47-53). -/
noncomputable def fiveMinute : Ewma ℝ := init m5Alpha 5
/-- `fifteen_minute_ewma` (ewma.py:55-61). -/
noncomputable def fifteenMinute : Ewma ℝ := init m15Alpha 5

end Ewma
end Txstatsd
