import Verif.Model.FloatStr
import Verif.Model.Site

/-!
# The texts of the pages (server/httpinfo.py:46, 48, 59, 94)

`json.dumps` of Python 2.7 with its default arguments, on the dictionaries of the pages: integers as `str`, floats as `repr`
(`NaN`, `Infinity`, `-Infinity` where they are not finite), texts in double quotes, `", "` and `": "` between. `repr(x)` of a
float is CPython's `PyOS_double_to_string(x, 'r', 0, Py_DTSF_ADD_DOT_0)` (David Gay's `dtoa`, mode 0): the fewest digits that are
read back as `x`, the nearest such, an exponent below 0.0001 and from 10^16. The negative zero is not distinguished from zero.
The order of the members is that of a Python dictionary; it is a parameter. Texts outside ASCII, which `json.dumps` decodes as
UTF-8, are not modelled (no metric has such a name).
-/

namespace Txstatsd
variable [Rounding]

/-- `n` digits and the exponent of the last, if they are read back as `q`: the nearest to `q`, or else the neighbour on the other side
(server/httpinfo.py:46, 48, 94). -/
def digitsOf (q : ℚ) (n : ℕ) : Option (ℕ × ℤ) :=
  let k := Int.log 10 q - (n - 1 : ℤ)
  let s := q / (10 : ℚ) ^ k
  ([nearestEven s, ⌊s⌋, ⌊s⌋ + 1].find? fun m : ℤ => rnd (m * (10 : ℚ) ^ k) = .fin q).map fun m => (m.toNat, k)

/-- The fewest digits of a positive float: at most seventeen (server/httpinfo.py:46, 48, 94). -/
def reprDigits (q : ℚ) : Option (ℕ × ℤ) := (List.range 17).findSome? fun i => digitsOf q (i + 1)

/-- The text of a float that is not negative. Without digits (for a number that is no float) it is empty
(server/httpinfo.py:46, 48, 94). -/
def reprPos (q : ℚ) : Str :=
  if q = 0 then layout 16 ['0'] 1
  else match reprDigits q with
    | none => []
    | some (m, k) => layout 16 (dropZeros (natStr m)) ((natStr m).length + k)

/-- A float: `FLOAT_REPR`, or `floatstr` of the json encoder for the others (server/httpinfo.py:46, 48, 94). -/
def jsonFloat : PyFloat → Str
  | .nan => c!"NaN"
  | .inf neg => if neg then c!"-Infinity" else c!"Infinity"
  | .fin q => if q < 0 then '-' :: reprPos (-q) else reprPos q

/-- A number (server/httpinfo.py:46, 48, 94). -/
def jsonNum : Num → Str
  | .int z => intStr z
  | .flt x => jsonFloat x

omit [Rounding] in
/-- The digit of a number below sixteen: `'\\u{0:04x}'` (server/httpinfo.py:46, 48, 59, 94). -/
def hexDigit (n : ℕ) : Char := c!"0123456789abcdef".getD n '0'

omit [Rounding] in
/-- `ESCAPE_DCT` of the json encoder, and `\u00XX` for the other control characters; also 127 and the rest of ASCII as it is
(server/httpinfo.py:46, 48, 59, 94). -/
def jsonChar (c : Char) : Str :=
  if c = '\\' then c!"\\\\"
  else if c = '"' then c!"\\\""
  else if c = '\n' then c!"\\n"
  else if c = '\r' then c!"\\r"
  else if c = '\t' then c!"\\t"
  else if c = Char.ofNat 12 then c!"\\f"
  else if c = Char.ofNat 8 then c!"\\b"
  else if c.toNat < 32 then c!"\\u00" ++ [hexDigit (c.toNat / 16), hexDigit (c.toNat % 16)]
  else [c]

omit [Rounding] in
/-- A text of ASCII characters in double quotes (server/httpinfo.py:46, 48, 59, 94). -/
def jsonStr (s : Str) : Str := '"' :: (s.flatMap jsonChar ++ ['"'])

omit [Rounding] in
/-- A list, given the texts of its elements (server/httpinfo.py:59, 94). -/
def jsonArr (l : List Str) : Str := '[' :: (joinWith c!", " l ++ [']'])

omit [Rounding] in
/-- A dictionary, given its keys and the texts of its values (server/httpinfo.py:46, 48, 59, 94). -/
def jsonObj (l : List (Str × Str)) : Str := '{' :: (joinWith c!", " (l.map fun kv => jsonStr kv.1 ++ c!": " ++ kv.2) ++ ['}'])

/-- The text of a page; `order` puts the members of a dictionary in the order of iteration (server/httpinfo.py:39-48, 58-59, 90-94).
Bins are floats (histogrammetric.py:169, 183, 196). `none`: no page of this module. -/
def Body.text (order : List (Str × Str) → List (Str × Str)) : Body → Option Str
  | .status ok flushTime processTime interval =>
    some (jsonObj (order [(c!"flush_time", jsonNum flushTime), (c!"process_time", jsonNum processTime),
      (c!"flush_interval", intStr interval), (c!"status", jsonStr (if ok then c!"OK" else c!"ERROR"))]))
  | .names l => some (jsonObj (order [(c!"names", jsonArr (l.map jsonStr))]))
  | .timer histogram max min =>
    some (jsonObj (order [(c!"histogram", jsonArr (histogram.map fun n => jsonFloat (.fin n))), (c!"max_value", jsonFloat max),
      (c!"min_value", jsonFloat min)]))
  | .none => Option.none
  | .other => Option.none

end Txstatsd
