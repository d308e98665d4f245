import Verif.Model.Processor
import Verif.Model.Fnmatch

/-!
# Service level indicators (metrics/slimetric.py, twisted/plugins/sli_plugin.py)
-/

namespace Txstatsd

variable [Rounding]

/-- What a rule may store as the condition of a label (metrics/slimetric.py:24-50). -/
inductive SliCond
  /-- `BelowCondition` (slimetric.py:23-30). -/
  | below (value slope : PyFloat)
  /-- `AboveCondition` (slimetric.py:33-40). -/
  | above (value slope : PyFloat)
  /-- `BetweenCondition` (slimetric.py:43-50). -/
  | between (low hi : PyFloat)
  /-- `IF metric a b` finds the method `build_metric` by `getattr` (sli_plugin.py:79) and stores an
  `SLIMetricReporter`, which cannot be called. -/
  | reporter
  deriving DecidableEq

/-- Calling a condition (slimetric.py:29-30, 39-40, 49-50). -/
def SliCond.call (c : SliCond) (value : PyFloat) (size : Num) : Except PyErr Bool :=
  match c with
  | .below v s => .ok (value.lt (v.add ((Num.flt s).mul size).toFloat))
  | .above v s => .ok ((v.add ((Num.flt s).mul size).toFloat).lt value)
  | .between lo hi => .ok (lo.lt value && value.lt hi)
  | .reporter => .error .typeError

/-- `SLIMetricReporter` (slimetric.py:53-63). -/
structure SliReporter where
  name : Str
  conditions : Dict SliCond
  counts : Dict Nat
  count : Nat
  error : Nat
  deriving DecidableEq

omit [Rounding] in
/-- `clear` (slimetric.py:60-63). -/
def SliReporter.clear (r : SliReporter) : SliReporter :=
  { r with counts := r.conditions.map fun kc => (kc.1, 0), count := 0, error := 0 }

omit [Rounding] in
/-- `__init__` (slimetric.py:54-58). -/
def SliReporter.init (name : Str) (conditions : Dict SliCond) : SliReporter :=
  SliReporter.clear { name, conditions, counts := [], count := 0, error := 0 }

/-- The loop of `update` (slimetric.py:80-82): the counts, and the exception that ended it. -/
def tally (value : PyFloat) (size : Num) : Dict SliCond → Dict Nat → Dict Nat × Option PyErr
  | [], counts => (counts, none)
  | (k, c) :: rest, counts =>
    match c.call value size with
    | .error e => (counts, some e)
    | .ok false => tally value size rest counts
    | .ok true =>
      match counts.find k with
      | none => (counts, some .keyError)   -- `counts[k]` (slimetric.py:82)
      | some n => tally value size rest (counts.put k (n + 1))

/-- `update` (slimetric.py:75-82); `none` is the value `"error"`. -/
def SliReporter.update (r : SliReporter) (value : Option PyFloat) (size : Num) :
    SliReporter × Option PyErr :=
  match value with
  | none => ({ r with count := r.count + 1, error := r.error + 1 }, none)
  | some v =>
    let t := tally v size r.conditions r.counts
    ({ r with count := r.count + 1, counts := t.1 }, t.2)

/-- `size` (slimetric.py:66-68). -/
def sliSize (fields : List Str) : Except PyErr Num :=
  match fields with
  | [_, _, s] =>
    match parseFloat s with
    | none => .error .valueError
    | some x => .ok (.flt x)
  | _ => .ok (.int 1)

/-- `value` (slimetric.py:70-72). -/
def sliValue (fields : List Str) : Except PyErr (Option PyFloat) :=
  match fields with
  | [] => .error .indexError
  | f :: _ =>
    if f = c!"error" then .ok none
    else match parseFloat f with
      | none => .error .valueError
      | some x => .ok (some x)

/-- `process` (slimetric.py:65-73). -/
def SliReporter.process (r : SliReporter) (fields : List Str) : SliReporter × Option PyErr :=
  match sliSize fields with
  | .error e => (r, some e)
  | .ok size =>
    match sliValue fields with
    | .error e => (r, some e)
    | .ok value => r.update value size

omit [Rounding] in
/-- `flush` (slimetric.py:84-95). -/
def SliReporter.flush (r : SliReporter) (ts : ℤ) : SliReporter × List Datapoint :=
  (r.clear,
   (r.counts.map fun kv => ⟨r.name ++ c!".count_" ++ kv.1, .int kv.2, ts⟩) ++
   [⟨r.name ++ c!".count", .int r.count, ts⟩, ⟨r.name ++ c!".error", .int r.error, ts⟩])

/-! ## The factory (sli_plugin.py) -/

/-- `SLIMetricFactory.config` (sli_plugin.py:40-41): pattern to label to condition. -/
abbrev SliConfig := Dict (Dict SliCond)

omit [Rounding] in
/-- `\w` without flags: ASCII letters, digits and the underscore (twisted/plugins/sli_plugin.py:65). -/
def isWord (c : Char) : Bool :=
  ('a' ≤ c && c ≤ 'z') || ('A' ≤ c && c ≤ 'Z') || isDigit c || c == '_'

omit [Rounding] in
/-- The class `[\w\.\*\?\_\-]` of sli_plugin.py:65. -/
def isHeadChar (c : Char) : Bool := isWord c || c == '.' || c == '*' || c == '?' || c == '-'

omit [Rounding] in
/-- A greedy `([class]+)`: the longest non-empty run. A shorter run is never followed by the text the
regular expression of sli_plugin.py:65 asks for next, so there is no backtracking. -/
def run1 (p : Char → Bool) (s : Str) : Option (Str × Str) :=
  if s.takeWhile p = [] then none else some (s.takeWhile p, s.dropWhile p)

omit [Rounding] in
/-- Literal text of a regular expression (twisted/plugins/sli_plugin.py:65). -/
def literal : Str → Str → Option Str
  | [], s => some s
  | _ :: _, [] => none
  | c :: p, d :: s => if c = d then literal p s else none

omit [Rounding] in
/-- `mo.match(rule)` with its four groups (sli_plugin.py:65, 69). The rest `(.*)` is the whole rest of the
line, which contains no newline. -/
def matchRule (rule : Str) : Option (Str × Str × Str × Str) := do
  let (head, s) ← run1 isHeadChar rule
  let s ← literal c!" => " s
  let (label, s) ← run1 isWord s
  let s ← literal c!" IF " s
  let (cname, s) ← run1 isWord s
  some (head, label, cname, s)

/-- `float(text)` (twisted/plugins/sli_plugin.py:88, 91, 94; metrics/slimetric.py:68, 72). -/
def floatOf (s : Str) : Except PyErr PyFloat :=
  match parseFloat s with
  | none => .error .valueError
  | some x => .ok x

/-- `method(*cparams.split(" "))` with the methods `build_above`, `build_below` and `build_between` of
sli_plugin.py:87-94 (and `build_metric`, whose arguments are a prefix, a name and optionally a clock); a
wrong number of arguments and an unknown method are both a `TypeError`. The default slope is
`float(0)`. -/
def buildCond (cname : Str) (params : List Str) : Except PyErr SliCond :=
  if cname = c!"above" then
    match params with
    | [v] => do .ok (.above (← floatOf v) (rnd 0))
    | [v, s] => do .ok (.above (← floatOf v) (← floatOf s))
    | _ => .error .typeError
  else if cname = c!"below" then
    match params with
    | [v] => do .ok (.below (← floatOf v) (rnd 0))
    | [v, s] => do .ok (.below (← floatOf v) (← floatOf s))
    | _ => .error .typeError
  else if cname = c!"between" then
    match params with
    | [lo, hi] => do .ok (.between (← floatOf lo) (← floatOf hi))
    | _ => .error .typeError
  else if cname = c!"metric" then
    match params with
    | [_, _] | [_, _, _] => .ok .reporter
    | _ => .error .typeError
  else .error .typeError

/-- One iteration of the loop of `configure` (sli_plugin.py:67-85). -/
def configureRule (cfg : SliConfig) (rule : Str) : SliConfig × Option PyErr :=
  match matchRule rule with
  | none => (cfg, some .typeError)
  | some (head, label, cname, cparams) =>
    let old := (cfg.find head).getD []
    match buildCond cname (splitOn ' ' cparams.tail) with
    | .error e => (cfg.put head old, some e)
    | .ok c => (cfg.put head (old.put label c), none)

/-- The loop of `configure`, ended by the first exception (twisted/plugins/sli_plugin.py:67-85). -/
def configureRules (cfg : SliConfig) : List Str → SliConfig × Option PyErr
  | [] => (cfg, none)
  | rule :: rest =>
    match configureRule cfg rule with
    | (cfg, some e) => (cfg, some e)
    | (cfg, none) => configureRules cfg rest

/-- `configure` (sli_plugin.py:56-85); `rules` is the option `rules` of the section `plugin_sli`. -/
def configureSli (cfg : SliConfig) (rules : Option Str) : SliConfig × Option PyErr :=
  match rules with
  | none => (cfg, none)
  | some text => configureRules cfg (splitOn '\n' (strip text))

omit [Rounding] in
/-- `dict.update` (twisted/plugins/sli_plugin.py:53). -/
def updateWith {V : Type} (d e : Dict V) : Dict V := e.foldl (fun d kv => d.put kv.1 kv.2) d

omit [Rounding] in
/-- The path of a metric (sli_plugin.py:44-49). -/
def sliPath (pre name : Str) : Str :=
  if pre = [] then name
  else (if pre.getLast? = some '.' then pre else pre ++ c!".") ++ name

omit [Rounding] in
/-- The loop of `build_metric` (sli_plugin.py:50-53). The patterns come from the configuration, whose
character class has no `[`, so `fnmatch` cannot fail; a failure counts as no match here. The order of
`config.items()` is the order of insertion, Python's is unspecified. -/
def gather (path : Str) (cfg : SliConfig) (result : Dict SliCond) : Dict SliCond :=
  cfg.foldl (fun r pc => match fnmatch path pc.1 with
    | .ok true => updateWith r pc.2
    | _ => r) result

omit [Rounding] in
/-- `build_metric` (sli_plugin.py:43-54). -/
def buildSli (cfg : SliConfig) (pre name : Str) : SliReporter :=
  .init (sliPath pre name) (gather (sliPath pre name) cfg [])

end Txstatsd
