import Verif.Model.Metrics
import Verif.Model.HashRing

/-!
# Texts that are not ASCII (metrics/metric.py:49-67, metrics/metrics.py:57-178)

Python 2 has byte strings and unicode strings. Joining or formatting the two decodes the byte strings as ASCII. `encode('utf-8')` of
a byte string decodes it as ASCII first. Both raise `UnicodeDecodeError`, a `ValueError`. Unicode strings are lists of Unicode scalar values
(no lone surrogates). Model/Metrics has the same methods for ASCII texts, with the stored metric objects; here a name is new.
-/

namespace Txstatsd

/-- A Python 2 `str` (one `Char` per byte) or `unicode` (metrics/metric.py:60). -/
inductive PyText
  | bytes (s : Str)
  | uni (s : Str)
  deriving DecidableEq, Repr

namespace PyText

/-- The UTF-8 bytes of a character (`encode('utf-8')`, metrics/metric.py:67; hashing.py:36). -/
def utf8Char (c : Char) : Str :=
  let n := c.toNat
  if n < 0x80 then [c]
  else if n < 0x800 then [.ofNat (0xC0 + n / 64), .ofNat (0x80 + n % 64)]
  else if n < 0x10000 then [.ofNat (0xE0 + n / 4096), .ofNat (0x80 + n / 64 % 64), .ofNat (0x80 + n % 64)]
  else [.ofNat (0xF0 + n / 262144), .ofNat (0x80 + n / 4096 % 64), .ofNat (0x80 + n / 64 % 64), .ofNat (0x80 + n % 64)]

/-- `text.encode('utf-8')` (metrics/metric.py:67; hashing.py:36). -/
def encode : PyText → Except PyErr Str
  | bytes s => if isAscii s then .ok s else .error .valueError
  | uni s => .ok (s.flatMap utf8Char)

/-- The implicit conversion to `unicode` (metrics/metric.py:60; metrics/metrics.py:175). -/
def decoded : PyText → Except PyErr Str
  | bytes s => if isAscii s then .ok s else .error .valueError
  | uni s => .ok s

/-- `a + b` (metrics/metric.py:58, 60; metrics/metrics.py:175). -/
def add : PyText → PyText → Except PyErr PyText
  | bytes a, bytes b => .ok (bytes (a ++ b))
  | a, b => do
    let x ← a.decoded
    let y ← b.decoded
    .ok (uni (x ++ y))

/-- `isinstance(t, unicode)` (metrics/metrics.py:36). -/
def isUni : PyText → Bool
  | bytes _ => false
  | uni _ => true

/-- The bytes of a byte string (metrics/metrics.py:36). -/
def raw : PyText → Str
  | bytes s => s
  | uni s => s

/-- The result of a `%` with a byte string on its left; `parts` are the texts between and in the places of the `%s`. With a unicode
argument the format starts anew as a unicode one (metrics/metrics.py:36, 38, 115, 150; metrics/distinctmetric.py:117). -/
def format (parts : List PyText) : Except PyErr PyText :=
  if parts.any isUni then do
    let ss ← parts.mapM decoded
    .ok (uni ss.flatten)
  else .ok (bytes (parts.map raw).flatten)

/-- `fully_qualify_name` (metrics/metrics.py:167-178). -/
def qualify (ns name : Option PyText) : Except PyErr PyText :=
  let q := match ns with
    | some t => t
    | none => bytes []
  match name with
  | none => .ok q
  | some n => match ns with
    | some t =>
      if t.raw.length > 0 then do
        let dotted ← (bytes c!".").add n
        q.add dotted
      else .ok n
    | none => .ok n

/-- `Metric.send` and `Metric.write` (metrics/metric.py:49-67): what the connection gets. `rate` is the text of a sample rate below 1
when the draw let the sample pass; rates of 1 and more send the data as it is. -/
def send (conn : Bool) (name : PyText) (rate : Option Str) (data : PyText) : Except PyErr (Option Str) := do
  let data ← match rate with
    | none => .ok data
    | some r => data.add (bytes (c!"|@" ++ r))
  let front ← name.add (bytes c!":")
  let all ← front.add data
  if conn then
    let out ← all.encode
    .ok (some out)
  else .ok none

end PyText

/-- The methods that send a value; the text of a number is ASCII bytes (metrics/metrics.py:57-157; metrics/gaugemetric.py:40-42;
metrics/metermetric.py:45-47; metrics/distinctmetric.py:115-117). -/
inductive TextCall
  | report (value mtype : PyText) (extra : Option PyText)
  | gauge (value : PyText)
  | meter (value : PyText)
  | increment (value : PyText)
  | distinct (item : PyText)
  deriving DecidableEq, Repr

/-- What is formatted: `"%s|%s"`, `"%s|%s|%s"`, `"%s|g"`, `"%s|m"`, `"%s|c"`, `"%s|d"` (metrics/metrics.py:36, 38, 115;
metrics/gaugemetric.py:42; metrics/metermetric.py:47; metrics/distinctmetric.py:117). -/
def TextCall.parts : TextCall → List PyText
  | report v t none => [v, .bytes c!"|", t]
  | report v t (some e) => [v, .bytes c!"|", t, .bytes c!"|", e]
  | gauge v => [v, .bytes c!"|g"]
  | meter v => [v, .bytes c!"|m"]
  | increment v => [v, .bytes c!"|c"]
  | distinct v => [v, .bytes c!"|d"]

/-- A call for a name not used before: what the connection gets (metrics/metrics.py:57-68, 87-115, 152-157). -/
def TextCall.run (conn : Bool) (ns name : Option PyText) (rate : Option Str) (call : TextCall) : Except PyErr (Option Str) := do
  let q ← PyText.qualify ns name
  let data ← PyText.format call.parts
  PyText.send conn q rate data

end Txstatsd
