import Mathlib.Data.Rat.Floor
import Mathlib.Algebra.Order.Field.Rat

/-!
# Python basics used by the model

Byte strings, exceptions, dictionaries, and the string methods the code calls.
-/

namespace Txstatsd

/-- A Python 2 `str`: a byte string, one `Char` per byte (the messages of server/processor.py:51-67 and all other texts). -/
abbrev Str := List Char

/-- `c!"abc"` is the `Str` literal `['a','b','c']`. -/
syntax:max "c!" str : term
macro_rules
  | `(c! $s:str) => do
    let xs := s.getString.toList.toArray.map (fun c => Lean.Syntax.mkCharLit c)
    `(([$xs,*] : List Char))

/-- The Python exceptions that the modelled code can raise
(server/processor.py:57, 187; hashing.py:53; service.py:76; and the other places named at the functions that return them). -/
inductive PyErr
  | valueError | typeError | zeroDivisionError | unboundLocalError | indexError | keyError
  | runtimeError | attributeError | assertionError | stopIteration | overflowError
  | socketError | otherError
  deriving DecidableEq, Repr

/-! ## Characters and strings -/

/-- `str.isspace` / the regex class `\s` on Python 2 byte strings (no LOCALE/UNICODE flag):
space, `\t`, `\n`, `\r`, `\v`, `\f`. Used by `SPACES` (processor.py:32) and `strip` (processor.py:57). -/
def isSpace (c : Char) : Bool :=
  c == ' ' || c == '\t' || c == '\n' || c == '\r' || c == '\x0b' || c == '\x0c'

/-- The regex class `\d` on byte strings: ASCII digits (processor.py:35, `RATE`). -/
def isDigit (c : Char) : Bool := '0' ≤ c && c ≤ '9'

/-- `str.lstrip()` (part of `strip`, server/processor.py:57). -/
def lstrip (s : Str) : Str := s.dropWhile isSpace

/-- `str.rstrip()` (part of `strip`, server/processor.py:57). -/
def rstrip (s : Str) : Str := (s.reverse.dropWhile isSpace).reverse

/-- `str.strip()` (processor.py:57). -/
def strip (s : Str) : Str := rstrip (lstrip s)

/-- `s.split(c, 1)` for a one-character separator, when `c in s`: the text before and after the
first `c`; `none` when `c` does not occur (processor.py:57, client.py:114). -/
def split1 (c : Char) : Str → Option (Str × Str)
  | [] => none
  | x :: xs =>
    if x = c then some ([], xs)
    else match split1 c xs with
      | none => none
      | some (a, b) => some (x :: a, b)

/-- `s.split(c)` for a one-character separator: never empty (processor.py:61, 190). -/
def splitOn (c : Char) : Str → List Str
  | [] => [[]]
  | x :: xs =>
    if x = c then [] :: splitOn c xs
    else match splitOn c xs with
      | [] => [[x]]
      | h :: t => (x :: h) :: t

/-- `sep.join(parts)` (processor.py:70). -/
def joinWith (sep : Str) : List Str → Str
  | [] => []
  | [p] => p
  | p :: q :: ps => p ++ sep ++ joinWith sep (q :: ps)

/-- Decimal digit character of `n < 10` (for `natStr`, hashing.py:43). -/
def digitChar (n : Nat) : Char := Char.ofNat (48 + n)

/-- `str(n)` for a non-negative int (hashing.py:43). -/
def natStr (n : Nat) : Str :=
  if n < 10 then [digitChar n] else natStr (n / 10) ++ [digitChar (n % 10)]
termination_by n
decreasing_by omega

/-- `str(z)` / `"%s" % z` for an int (metrics.py:115, processor.py:320). -/
def intStr (z : Int) : Str :=
  if z < 0 then '-' :: natStr z.natAbs else natStr z.natAbs

/-! ## Dictionaries -/

/-- A Python dict with distinct keys, kept in insertion order. CPython 2 iterates in an arbitrary
(but, without insertions, fixed) order; no theorem depends on the order chosen here (server/processor.py:95-106). -/
abbrev Dict (V : Type) := List (Str × V)

namespace Dict
variable {V : Type}

/-- `d.get(k)` (server/httpinfo.py:69-70). -/
def find (d : Dict V) (k : Str) : Option V :=
  match d with
  | [] => none
  | (k', v) :: rest => if k' = k then some v else find rest k

/-- `k in d` (server/processor.py:149, 166, 185). -/
def has (d : Dict V) (k : Str) : Bool := (find d k).isSome

/-- `d[k] = v`: replaces the value of an existing key in place, or adds the key (server/processor.py:154, 167, 186-187). -/
def put (d : Dict V) (k : Str) (v : V) : Dict V :=
  match d with
  | [] => [(k, v)]
  | (k', v') :: rest => if k' = k then (k', v) :: rest else (k', v') :: put rest k v

/-- `d.keys()` (server/processor.py:115-119). -/
def keys (d : Dict V) : List Str := d.map Prod.fst

end Dict

end Txstatsd
