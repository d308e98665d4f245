import Verif.Model.Num

/-!
# The message text: key normalisation, `float()`, the rate expression, message splitting
-/

namespace Txstatsd

/-! ## `normalize_key` (processor.py:32-46) -/

/-- `re.compile("[p]+").sub(r, s)`: each maximal run of characters in the class is replaced by one
`r` (processor.py:32-33, 43-44). -/
def subRuns (p : Char → Bool) (r : Char) : Str → Str
  | [] => []
  | c :: cs => if p c then r :: subRuns p r (cs.dropWhile p) else c :: subRuns p r cs
termination_by s => s.length
decreasing_by
  · have := (List.dropWhile_sublist (l := cs) p).length_le; simp; omega
  · simp

/-- The complement of the class `NON_ALNUM = [^a-zA-Z_\-0-9\.]` (processor.py:34). -/
def isKeyChar (c : Char) : Bool :=
  ('a' ≤ c && c ≤ 'z') || ('A' ≤ c && c ≤ 'Z') || c == '_' || c == '-' || isDigit c || c == '.'

/-- `normalize_key` (processor.py:38-46). -/
def normalizeKey (key : Str) : Str :=
  let key := subRuns isSpace '_' key
  let key := subRuns (· == '/') '-' key
  key.filter isKeyChar

/-! ## `float(text)` (processor.py:159, 172, 187, 195; slimetric.py:68) -/

/-- Value of a digit string (for `float`, server/processor.py:159). -/
def digitsVal (s : Str) : Nat := s.foldl (fun a c => 10 * a + (c.toNat - 48)) 0

/-- An optional sign (for `float`, server/processor.py:159). -/
def takeSign : Str → Bool × Str
  | '-' :: r => (true, r)
  | '+' :: r => (false, r)
  | r => (false, r)

/-- ASCII lower-casing of one character (`inf`/`nan` are matched case-insensitively) (for `float`, server/processor.py:159). -/
def lowerChar (c : Char) : Char :=
  if 'A' ≤ c && c ≤ 'Z' then Char.ofNat (c.toNat + 32) else c

/-- The exponent part of a decimal literal: empty, or `e`/`E`, sign, digits, end of text
(for `float`, server/processor.py:159). -/
def parseExp : Str → Option ℤ
  | [] => some 0
  | c :: r =>
    if c == 'e' || c == 'E' then
      let (neg, ds) := takeSign r
      if ds.isEmpty || !ds.all isDigit then none
      else some (if neg then -(digitsVal ds : ℤ) else digitsVal ds)
    else none

/-- A decimal literal without sign: digits with at most one `.`, at least one digit, optional
exponent (for `float`, server/processor.py:159). -/
def parseDecimal (s : Str) : Option ℚ :=
  let int := s.takeWhile isDigit
  let rest := s.dropWhile isDigit
  let (frac, rest) : Str × Str := match rest with
    | '.' :: r => (r.takeWhile isDigit, r.dropWhile isDigit)
    | r => ([], r)
  if int.isEmpty && frac.isEmpty then none
  else match parseExp rest with
    | none => none
    | some e => some ((digitsVal (int ++ frac) : ℚ) * (10 : ℚ) ^ (e - frac.length))

/-- `float(s)`: `none` stands for `ValueError`. Surrounding whitespace is ignored
(server/processor.py:159, 172, 187, 195, 211; metrics/slimetric.py:68, 72). -/
def parseFloat [Rounding] (s : Str) : Option PyFloat :=
  let (neg, body) := takeSign (strip s)
  let low := body.map lowerChar
  if low == c!"inf" || low == c!"infinity" then some (.inf neg)
  else if low == c!"nan" then some .nan
  else match parseDecimal body with
    | none => none
    | some q => some (rnd (if neg then -q else q))

/-! ## `RATE` (processor.py:35) -/

/-- `RATE.match(text).group(1)` for `^@([\d\.]+)`: not anchored at the end, so trailing text is
ignored (processor.py:177-180). -/
def rateMatch : Str → Option Str
  | '@' :: r =>
    let g := r.takeWhile (fun c => isDigit c || c == '.')
    if g.isEmpty then none else some g
  | _ => none

/-! ## Splitting a message (processor.py:51-70) -/

/-- A message as handed to `process_message`: `(metric_type, key, fields)` (server/processor.py:61-67). -/
structure Metric where
  mtype : Str
  key : Str
  fields : List Str
  deriving DecidableEq, Repr

/-- `BaseMessageProcessor.process` up to the call of `process_message` (processor.py:51-67);
`none` is the call of `self.fail(message)`. -/
def parseMessage (message : Str) : Option Metric :=
  if !message.contains ':' then none
  else match split1 ':' (strip message) with
    | none => none   -- unreachable: `strip` keeps the colon (unpacking would raise here)
    | some (key, data) =>
      if !data.contains '|' then none
      else
        let fields := splitOn '|' data
        if fields.length < 2 || fields.length > 3 then none
        else some { mtype := fields.getD 1 [], key := normalizeKey key, fields := fields }

/-- `BaseMessageProcessor.rebuild_message` (processor.py:69-70); the metric type argument is ignored,
as in the code. -/
def rebuildMessage (_metricType key : Str) (fields : List Str) : Str :=
  key ++ c!":" ++ joinWith c!"|" fields

end Txstatsd
