import Verif.Model.Sli

/-!
# What an SLI metric should report
-/

namespace Txstatsd.Spec

variable [Rounding]

/-- What can happen to an SLI metric. -/
inductive SliOp
  | event (fields : List Str)
  | flush (ts : ℤ)

/-- The size: the third of exactly three fields, otherwise 1. -/
def eventSize (fields : List Str) : Option Num :=
  if fields.length = 3 then (parseFloat (fields.getD 2 [])).map Num.flt else some (.int 1)

/-- The value: the first field, `none` standing for an error. -/
def eventValue (fields : List Str) : Option (Option PyFloat) :=
  if fields.head? = some c!"error" then some none else (parseFloat (fields.headD [])).map some

/-- The event a field list stands for. -/
def sliEvent (fields : List Str) : Option (Option PyFloat × Num) :=
  if fields = [] then none
  else match eventSize fields, eventValue fields with
    | some size, some value => some (value, size)
    | _, _ => none

/-- The reporter after a sequence of operations. -/
def runSli (r : SliReporter) : List SliOp → SliReporter
  | [] => r
  | .event fields :: rest => runSli (r.process fields).1 rest
  | .flush ts :: rest => runSli (r.flush ts).1 rest

/-- The events accepted since the last flush. -/
def eventsSince (ops : List SliOp) : List (Option PyFloat × Num) :=
  ops.foldl (fun es op => match op with
    | .event fields => es ++ (sliEvent fields).toList
    | .flush _ => []) []

/-- The event is not an error and satisfies the condition. -/
def Good (c : SliCond) (e : Option PyFloat × Num) : Bool :=
  match e.1 with
  | none => false
  | some v => decide (c.call v e.2 = .ok true)

/-- The conditions of a metric have different labels, and can all be called. -/
def ProperConditions (conds : Dict SliCond) : Prop :=
  conds.keys.Nodup ∧ ∀ kc ∈ conds, kc.2 ≠ .reporter

/-- The datapoints of a flush, from the events since the last one. -/
def sliPoints (name : Str) (conds : Dict SliCond) (es : List (Option PyFloat × Num)) (ts : ℤ) :
    List Datapoint :=
  (conds.map fun kc => ⟨name ++ c!".count_" ++ kc.1, .int (es.countP (Good kc.2)), ts⟩) ++
  [⟨name ++ c!".count", .int es.length, ts⟩,
   ⟨name ++ c!".error", .int (es.countP fun e => e.1.isNone), ts⟩]

omit [Rounding] in
/-- Letters, digits and the underscore. -/
def wordChars : Str := c!"abcdefghijklmnopqrstuvwxyzABCDEFGHIJKLMNOPQRSTUVWXYZ0123456789_"

omit [Rounding] in
/-- What a pattern for names may consist of. -/
def headChars : Str := wordChars ++ c!".*?-"

omit [Rounding] in
/-- The line is `head => label IF cname` followed by `params`. -/
structure RuleLine (line head label cname params : Str) : Prop where
  eq : line = head ++ c!" => " ++ label ++ c!" IF " ++ cname ++ params
  head_ne : head ≠ []
  head_ok : ∀ c ∈ head, c ∈ headChars
  label_ne : label ≠ []
  label_ok : ∀ c ∈ label, c ∈ wordChars
  cname_ne : cname ≠ []
  cname_ok : ∀ c ∈ cname, c ∈ wordChars
  params_ok : ∀ c, params.head? = some c → c ∉ wordChars

/-- The condition `kind` with the parameters `params`, as a user means it: `above`/`below` a value with
an optional slope, `between` two values. -/
inductive Means : Str → List Str → SliCond → Prop
  | above1 {v x} : parseFloat v = some x → Means c!"above" [v] (.above x (rnd 0))
  | above2 {v s x y} : parseFloat v = some x → parseFloat s = some y → Means c!"above" [v, s] (.above x y)
  | below1 {v x} : parseFloat v = some x → Means c!"below" [v] (.below x (rnd 0))
  | below2 {v s x y} : parseFloat v = some x → parseFloat s = some y → Means c!"below" [v, s] (.below x y)
  | between {v s x y} : parseFloat v = some x → parseFloat s = some y →
      Means c!"between" [v, s] (.between x y)

/-- The condition `kind` with the parameters `params` makes no sense, and the exception raised about it: an unknown kind or a
wrong number of parameters, or a parameter that is not a number. -/
inductive Senseless : Str → List Str → PyErr → Prop
  | kind (k ps) : k ∉ [c!"above", c!"below", c!"between", c!"metric"] → Senseless k ps .typeError
  | sloped (k ps) : k = c!"above" ∨ k = c!"below" → ps.length ≠ 1 → ps.length ≠ 2 → Senseless k ps .typeError
  | between (ps) : ps.length ≠ 2 → Senseless c!"between" ps .typeError
  | metric (ps) : ps.length ≠ 2 → ps.length ≠ 3 → Senseless c!"metric" ps .typeError
  | slopedNumber (k ps p) : k = c!"above" ∨ k = c!"below" → ps.length = 1 ∨ ps.length = 2 → p ∈ ps → parseFloat p = none →
      Senseless k ps .valueError
  | betweenNumber (ps p) : ps.length = 2 → p ∈ ps → parseFloat p = none → Senseless c!"between" ps .valueError

end Txstatsd.Spec
