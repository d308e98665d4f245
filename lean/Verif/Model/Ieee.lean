import Verif.Model.Num
import Mathlib.Data.Int.Log

/-!
# IEEE 754 double arithmetic

The arithmetic of Python's floats (CPython uses the C type `double`; no file of the repository): rounding to the nearest
number with 53 significant bits and exponents from -1074, ties to even, overflow to infinity. Every operation of the model
on finite floats (`PyFloat.add` etc., Model/Num.lean) computes exactly and rounds once, as IEEE 754 demands. Signed zeros
are identified.
-/

namespace Txstatsd

/-- The integer nearest to `x`, the even one of two
(the arithmetic of server/processor.py:187, 293, 313-316, metrics/histogrammetric.py:224-225 etc.). -/
def nearestEven (x : ℚ) : ℤ :=
  if x - ⌊x⌋ < 1 / 2 then ⌊x⌋
  else if 1 / 2 < x - ⌊x⌋ then ⌊x⌋ + 1
  else if ⌊x⌋ % 2 = 0 then ⌊x⌋ else ⌊x⌋ + 1

/-- The exponent of the last of the 53 bits of a positive number (of the last place of the subnormals below these)
(the arithmetic of server/processor.py:187, 293, 313-316, metrics/histogrammetric.py:224-225 etc.). -/
def lastPlace (q : ℚ) : ℤ := max (Int.log 2 q - 52) (-1074)

/-- A positive number rounded to 53 bits, the exponent being unbounded above
(the arithmetic of server/processor.py:187, 293, 313-316, metrics/histogrammetric.py:224-225 etc.). -/
def roundPos (q : ℚ) : ℚ := nearestEven (q / (2 : ℚ) ^ lastPlace q) * (2 : ℚ) ^ lastPlace q

/-- Rounding to a double (the arithmetic of server/processor.py:187, 293, 313-316, metrics/histogrammetric.py:224-225 etc.). -/
def roundDouble (q : ℚ) : PyFloat :=
  if q = 0 then .fin 0
  else
    let r := roundPos |q|
    if (2 : ℚ) ^ (1024 : ℤ) ≤ r then .inf (decide (q < 0))
    else .fin (if q < 0 then -r else r)

/-- The square root of a non-negative number, rounded to 53 bits: with `4^e` the scale, the integer nearest to the root
of the scaled number (the arithmetic of server/processor.py:187, 293, 313-316, metrics/histogrammetric.py:224-225 etc.). -/
def sqrtDouble (q : ℚ) : PyFloat :=
  if q ≤ 0 then .fin 0
  else
    let e := Int.fdiv (Int.log 2 q) 2 - 52
    let n := Nat.sqrt ⌊4 * q / (4 : ℚ) ^ e⌋₊
    .fin ((((n + 1) / 2 : ℕ) : ℚ) * (2 : ℚ) ^ e)

/-- Doubles (the arithmetic of server/processor.py:187, 293, 313-316, metrics/histogrammetric.py:224-225 etc.). -/
@[reducible] def binary64 : Rounding := ⟨roundDouble, sqrtDouble⟩

/-- The numbers with 53 bits and exponents from -1074, unbounded above
(the arithmetic of server/processor.py:187, 293, 313-316, metrics/histogrammetric.py:224-225 etc.). -/
def Bits (r : ℚ) : Prop := ∃ m e : ℤ, |m| ≤ 2 ^ 53 ∧ -1074 ≤ e ∧ r = m * 2 ^ e

/-- The laws of double arithmetic that the theorems use
(the arithmetic of server/processor.py:187, 293, 313-316, metrics/histogrammetric.py:224-225 etc.). -/
class Ieee [Rounding] : Prop where
  /-- Rounding preserves order (and never gives nan). -/
  mono : ∀ {p q : ℚ}, p ≤ q → (rnd p).le (rnd q) = true
  neg : ∀ q : ℚ, rnd (-q) = (rnd q).neg
  idem : ∀ {q r : ℚ}, rnd q = .fin r → rnd r = .fin r
  /-- The numbers that are not rounded. -/
  rep : ∀ {q : ℚ}, rnd q = .fin q ↔ Bits q ∧ |q| < 2 ^ (1024 : ℤ)
  /-- Half a unit in the last place, of normal numbers and of any. -/
  norm : ∀ {q r : ℚ}, 2 ^ (-1022 : ℤ) ≤ |q| → rnd q = .fin r → |r - q| ≤ |q| / 2 ^ 53
  err : ∀ {q r : ℚ}, rnd q = .fin r → |r - q| ≤ |q| / 2 ^ 53 + 2 ^ (-1075 : ℤ)
  sqrt : ∀ {q : ℚ}, 0 ≤ q → ∃ r, 0 ≤ r ∧ Rounding.sqrt q = .fin r

end Txstatsd
