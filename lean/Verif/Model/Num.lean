import Verif.Model.Base

/-!
# Python 2 numbers

`PyFloat` is a float whose finite values are rationals. Every finite arithmetic result passes
through an arbitrary rounding function `Rounding.rnd`, so that statements proved for `[Rounding]`
hold for IEEE double arithmetic as well as for exact arithmetic. Signed zeros are identified.
-/

namespace Txstatsd

/-- A Python float (the values of server/processor.py:159, 172, 195, 211). -/
inductive PyFloat
  | nan
  | inf (neg : Bool)
  | fin (q : ℚ)
  deriving DecidableEq, Repr

/-- Rounding of an exact result to a float (`rnd`, may overflow to infinity) and of an exact square
root (`sqrt`). Both are arbitrary parameters of the model
(the arithmetic of server/processor.py:187, 293, 313-316, metrics/histogrammetric.py:133-137, 224-225 etc.). -/
class Rounding where
  rnd : ℚ → PyFloat
  sqrt : ℚ → PyFloat

export Rounding (rnd)

/-- Exact arithmetic: no rounding (an idealisation of the arithmetic of server/processor.py:187, 293 etc.). -/
class Exact [Rounding] : Prop where
  rnd_eq : ∀ q : ℚ, rnd q = .fin q

/-- What IEEE double rounding guarantees and integer-valued metrics need: integers of magnitude up
to `2^53` are represented exactly (of the arithmetic of server/processor.py:187, metrics/metermetric.py:79, 94 etc.). -/
class IntExact [Rounding] : Prop where
  rnd_int : ∀ z : ℤ, |z| ≤ 2 ^ 53 → rnd (z : ℚ) = .fin z

/-- Exact rational arithmetic as a rounding (for examples). `sqrt` is a placeholder
(an idealisation of the arithmetic of server/processor.py:187 etc.). -/
@[reducible] def ratRounding : Rounding := ⟨.fin, fun _ => .fin 0⟩

namespace PyFloat
variable [Rounding]

/-- `a + b` (server/processor.py:187; metrics/histogrammetric.py:100; metrics/metermetric.py:79). -/
def add : PyFloat → PyFloat → PyFloat
  | nan, _ => nan
  | _, nan => nan
  | inf s, inf t => if s = t then inf s else nan
  | inf s, fin _ => inf s
  | fin _, inf t => inf t
  | fin a, fin b => rnd (a + b)

/-- `-a` (metrics/metrics.py:125). -/
def neg : PyFloat → PyFloat
  | nan => nan
  | inf s => inf (!s)
  | fin a => fin (-a)

/-- `a - b` (server/processor.py:141; metrics/timermetric.py:88; metrics/histogrammetric.py:224-225). -/
def sub : PyFloat → PyFloat → PyFloat
  | nan, _ => nan
  | _, nan => nan
  | inf s, inf t => if s = t then nan else inf s
  | inf s, fin _ => inf s
  | fin _, inf t => inf (!t)
  | fin a, fin b => rnd (a - b)

/-- `a * b` (server/processor.py:187, 313, 354; metrics/histogrammetric.py:225). -/
def mul : PyFloat → PyFloat → PyFloat
  | nan, _ => nan
  | _, nan => nan
  | inf s, inf t => inf (s != t)
  | inf s, fin b => if b = 0 then nan else inf (s != decide (b < 0))
  | fin a, inf t => if a = 0 then nan else inf (t != decide (a < 0))
  | fin a, fin b => rnd (a * b)

/-- `a / b`: Python raises `ZeroDivisionError` for a zero divisor
(server/processor.py:187, 293; metrics/timermetric.py:91; metrics/metermetric.py:93). -/
def div : PyFloat → PyFloat → Except PyErr PyFloat
  | nan, fin b => if b = 0 then .error .zeroDivisionError else .ok nan
  | nan, _ => .ok nan
  | _, nan => .ok nan
  | inf _, inf _ => .ok nan
  | inf s, fin b =>
    if b = 0 then .error .zeroDivisionError else .ok (inf (s != decide (b < 0)))
  | fin _, inf _ => .ok (fin 0)
  | fin a, fin b => if b = 0 then .error .zeroDivisionError else .ok (rnd (a / b))

/-- `a / n` for an int `n ≠ 0` (the int is converted to float; exact below `2^53`, which is what is
assumed here) (server/processor.py:293, 316; metrics/histogrammetric.py:133, 224). -/
def divInt (a : PyFloat) (n : ℤ) : PyFloat :=
  match a with
  | nan => nan
  | inf s => inf (s != decide (n < 0))
  | fin q => rnd (q / n)

omit [Rounding] in
/-- `a < b` (false if either is nan) (metrics/slimetric.py:30, 40, 50; metrics/histogrammetric.py:206, 212). -/
def lt : PyFloat → PyFloat → Bool
  | nan, _ => false
  | _, nan => false
  | inf s, inf t => s && !t
  | inf s, fin _ => s
  | fin _, inf t => !t
  | fin a, fin b => decide (a < b)

omit [Rounding] in
/-- `a <= b` (false if either is nan) (metrics/timermetric.py:133). -/
def le : PyFloat → PyFloat → Bool
  | nan, _ => false
  | _, nan => false
  | inf s, inf t => s || !t
  | inf s, fin _ => s
  | fin _, inf t => !t
  | fin a, fin b => decide (a ≤ b)

end PyFloat

/-- Rounding of a rational to the nearest integer, halves away from zero: Python 2 `round`
(server/processor.py:313; metrics/timermetric.py:151; metrics/metermetric.py:104). -/
def roundHalfAway (q : ℚ) : ℤ :=
  if 0 ≤ q then ⌊q + 1 / 2⌋ else -⌊-q + 1 / 2⌋

/-- `int(x)` / `math.trunc(x)` of a finite value: truncation toward zero
(server/processor.py:232, 313; metrics/countermetric.py:88). -/
def truncQ (q : ℚ) : ℤ := if 0 ≤ q then ⌊q⌋ else -⌊-q⌋

/-- `round(x)` of a float (Python 2: a float again; halves away from zero). An integer of the size
that occurs here is exactly representable, so no further rounding is applied (server/processor.py:313). -/
def PyFloat.roundF : PyFloat → PyFloat
  | .fin q => .fin (roundHalfAway q)
  | x => x

/-- A Python number: int or float (the values of server/processor.py:186-187, 97-98). -/
inductive Num
  | int (z : ℤ)
  | flt (x : PyFloat)
  deriving DecidableEq, Repr

namespace Num
variable [Rounding]

/-- `float(n)` (metrics/timermetric.py:84; metrics/metermetric.py:93; metrics/histogrammetric.py:133). -/
def toFloat : Num → PyFloat
  | int z => rnd (z : ℚ)
  | flt x => x

/-- `a + b` (server/processor.py:187; metrics/histogrammetric.py:100; metrics/metermetric.py:79). -/
def add : Num → Num → Num
  | int a, int b => int (a + b)
  | a, b => flt (a.toFloat.add b.toFloat)

/-- `a - b` (server/processor.py:141; metrics/timermetric.py:88; metrics/histogrammetric.py:224-225). -/
def sub : Num → Num → Num
  | int a, int b => int (a - b)
  | a, b => flt (a.toFloat.sub b.toFloat)

/-- `a * b` (server/processor.py:187, 313, 354; metrics/histogrammetric.py:225). -/
def mul : Num → Num → Num
  | int a, int b => int (a * b)
  | a, b => flt (a.toFloat.mul b.toFloat)

/-- `a / n` for an int `n` (Python 2): floor division of ints, true division of floats,
`ZeroDivisionError` when `n` is zero (server/processor.py:293, 316; metrics/histogrammetric.py:133, 224). -/
def divInt (a : Num) (n : ℤ) : Except PyErr Num :=
  if n = 0 then .error .zeroDivisionError
  else match a with
    | int z => .ok (int (Int.fdiv z n))
    | flt x => .ok (flt (x.divInt n))

end Num

/-- `round(x, 6)`: nan and infinities unchanged (metermetric.py:104, timermetric.py:151). -/
def round6 [Rounding] (x : PyFloat) : PyFloat :=
  match x with
  | .fin q => rnd ((roundHalfAway (q * 1000000) : ℚ) / 1000000)
  | x => x

/-- `int(x)` / `math.trunc(x)` of a number: `ValueError` for nan, `OverflowError` for infinities
(countermetric.py:88). -/
def truncNum : Num → Except PyErr ℤ
  | .int z => .ok z
  | .flt .nan => .error .valueError
  | .flt (.inf _) => .error .overflowError
  | .flt (.fin q) => .ok (truncQ q)

/-- A value sent to graphite: `(name, value, timestamp)` as yielded by `flush` (processor.py:238). -/
structure Datapoint where
  name : Str
  value : Num
  ts : ℤ
  deriving DecidableEq, Repr

end Txstatsd
