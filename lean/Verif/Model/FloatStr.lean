import Verif.Model.Ieee
import Verif.Model.Text

/-!
# `str(x)` of a float in Python 2

The texts of `"%s" % x` in metrics/metrics.py:36-38, 115, 125, 150 and elsewhere in metrics/, for a float: that of
CPython 2.7's `float_str`, `PyOS_double_to_string(x, 'g', 12, Py_DTSF_ADD_DOT_0)` (no file of the repository): twelve
significant digits, rounded correctly (ties to even), without trailing zeros; an exponent below 0.0001 and from 10^11. The
negative zero, printed `-0.0`, is not distinguished from zero.
-/

namespace Txstatsd

/-- Twelve digits `m` of a positive number and the exponent `e` of the first: the number is about `m * 10^(e - 11)`
(metrics/metric.py:58; metrics/metrics.py:36-38, 115, 150; metrics/gaugemetric.py:42). -/
def sig12 (q : ℚ) : ℕ × ℤ :=
  let e := Int.log 10 q
  let m := (nearestEven (q / (10 : ℚ) ^ (e - 11))).toNat
  if m = 10 ^ 12 then (10 ^ 11, e + 1) else (m, e)

/-- The exponent: a sign and at least two digits
(metrics/metric.py:58; metrics/metrics.py:36-38, 115, 150; metrics/gaugemetric.py:42). -/
def expText (e : ℤ) : Str :=
  (if e < 0 then '-' else '+') :: (if e.natAbs < 10 then '0' :: natStr e.natAbs else natStr e.natAbs)

/-- Trailing zeros removed (metrics/metric.py:58; metrics/metrics.py:36-38, 115, 150; metrics/gaugemetric.py:42). -/
def dropZeros (s : Str) : Str := (s.reverse.dropWhile (· == '0')).reverse

/-- `format_float_short`: the digits `ds` with the decimal point after `decpt` of them; an exponent where that is more than `lim`
(metrics/metric.py:58; metrics/metrics.py:36-38, 115, 150; metrics/gaugemetric.py:42; server/httpinfo.py:46, 48, 94). -/
def layout (lim : ℤ) (ds : Str) (decpt : ℤ) : Str :=
  if decpt ≤ -4 ∨ lim < decpt then
    ds.take 1 ++ (if ds.length = 1 then [] else '.' :: ds.drop 1) ++ 'e' :: expText (decpt - 1)
  else if decpt ≤ 0 then ['0'] ++ '.' :: (List.replicate (-decpt).toNat '0' ++ ds)
  else if (ds.length : ℤ) ≤ decpt then (ds ++ List.replicate (decpt.toNat - ds.length) '0') ++ '.' :: ['0']
  else ds.take decpt.toNat ++ '.' :: ds.drop decpt.toNat

/-- A number that is not negative (metrics/metric.py:58; metrics/metrics.py:36-38, 115, 150; metrics/gaugemetric.py:42). -/
def posText (q : ℚ) : Str :=
  if q = 0 then layout 11 ['0'] 1
  else layout 11 (dropZeros (natStr (sig12 q).1)) ((sig12 q).2 + 1)

/-- `str(x)` (metrics/metric.py:58; metrics/metrics.py:36-38, 115, 150; metrics/gaugemetric.py:42). -/
def pyStr : PyFloat → Str
  | .nan => c!"nan"
  | .inf neg => if neg then c!"-inf" else c!"inf"
  | .fin q => if q < 0 then '-' :: posText (-q) else posText q

end Txstatsd
