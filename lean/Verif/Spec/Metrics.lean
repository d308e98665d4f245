import Verif.Model.Metrics
import Verif.Spec.Configurable
import Verif.Spec.Counter

/-!
# What the client-side metrics should do
-/

namespace Txstatsd.Spec

/-- The qualified name: the non-empty parts of namespace and name, joined by a dot (a `None` name adds nothing, an empty
name given after a namespace adds the dot). -/
def qualified (ns name : Option Str) : Str :=
  joinWith c!"." ((ns.filter (fun s => decide (s ≠ []))).toList ++ name.toList)

/-- The name argument of a call. -/
def nameOf : Call → Option (Option Str)
  | .report n _ _ _ => some n
  | .gauge n _ _ => some n
  | .meter n _ _ => some n
  | .increment n _ _ => some n
  | .decrement n _ _ => some n
  | .resetTiming => none
  | .timing n _ _ => some n
  | .distinct n _ => some n
  | .clear n => some n

/-- The call is about the metric `key`. -/
def On (ns : Option Str) (key : Str) (call : Call) : Prop := (nameOf call).map (qualified ns) = some key

instance (ns : Option Str) (key : Str) (call : Call) : Decidable (On ns key call) := by unfold On; infer_instance

/-- The sample rate argument of a call; `report` and `distinct` have none and send everything. -/
def rateOf : Call → Option Num
  | .report _ _ _ _ => some (.int 1)
  | .gauge _ _ r => some r
  | .meter _ _ r => some r
  | .increment _ _ r => some r
  | .decrement _ _ r => some r
  | .resetTiming => none
  | .timing _ _ r => some r
  | .distinct _ _ => some (.int 1)
  | .clear _ => none

/-- The class of metric a method is for (`ext`: of `ExtendedMetrics`). -/
def kindOf (ext : Bool) : Call → Option Kind
  | .report _ _ t _ => some (.generic t)
  | .gauge _ _ _ => some .gauge
  | .meter _ _ _ => some .meter
  | .increment _ _ _ => some (if ext then .counter (.int 0) else .plain)
  | .decrement _ _ _ => some (if ext then .counter (.int 0) else .plain)
  | .resetTiming => none
  | .timing _ _ _ => some (if ext then .timer else .plain)
  | .distinct _ _ => some .distinct
  | .clear _ => none

/-- The text before the sampling annotation that a call with an explicit value is documented to send. -/
def payload [Rounding] (fmt : PyFloat → Str) : Call → Option Str
  | .report _ v t none => some (v.render fmt ++ c!"|" ++ t)
  | .report _ v t (some e) => some (v.render fmt ++ c!"|" ++ t ++ c!"|" ++ e.render fmt)
  | .gauge _ v _ => some (v.render fmt ++ c!"|g")
  | .meter _ v _ => some (v.render fmt ++ c!"|m")
  | .increment _ v _ => some (v.render fmt ++ c!"|c")
  | .decrement _ (.num (.int z)) _ => some (intStr (-z) ++ c!"|c")
  | .decrement _ (.num (.flt x)) _ => some (fmt x.neg ++ c!"|c")
  | .decrement _ (.text _) _ => none
  | .resetTiming => none
  | .timing _ (some (.num n)) _ => some ((n.mul (.int 1000)).render fmt ++ c!"|ms")
  | .timing _ _ _ => none
  | .distinct _ v => some (v.render fmt ++ c!"|d")
  | .clear _ => none

/-- The text of a number with its sampling annotation: everything is sent at a rate of one or more; below that, it is sent if
the draw is at most the rate, with the rate appended. -/
def sampled (rate draw : ℚ) (rateText text : Str) : Option Str :=
  if 1 ≤ rate then some text
  else if draw ≤ rate then some (text ++ c!"|@" ++ rateText)
  else none

/-- `call` is the first of the calls that makes a metric object for `key` (`clear` makes none). -/
def FirstOn (ns : Option Str) (key : Str) (calls : List Call) (call : Call) : Prop :=
  ∃ before after, calls = before ++ call :: after ∧ On ns key call ∧ rateOf call ≠ none ∧
    ∀ x ∈ before, On ns key x → rateOf x = none

/-- The texts of floats are numbers, and contain no separators or white space. -/
def NumberTexts [Rounding] (fmt : PyFloat → Str) : Prop :=
  ∀ x, (∃ y, parseFloat (fmt x) = some y) ∧ ∀ c ∈ fmt x, c ≠ ':' ∧ c ≠ '|' ∧ ¬ White c

/-- The rate is not below one. -/
def Unsampled (rate : Num) : Prop := rate.exact.lt (.fin 1) = false

/-- An increment, decrement, gauge, meter or timing call with numbers, a legal name and without sampling; counters count
integers. -/
inductive Ordinary : Call → Prop
  | gauge {n v r} : (∀ c ∈ n, Legal c) → Unsampled r → Ordinary (.gauge (some n) (.num v) r)
  | meter {n v r} : (∀ c ∈ n, Legal c) → Unsampled r → Ordinary (.meter (some n) (.num v) r)
  | increment {n z r} : (∀ c ∈ n, Legal c) → Unsampled r → Ordinary (.increment (some n) (.num (.int z)) r)
  | decrement {n z r} : (∀ c ∈ n, Legal c) → Unsampled r → Ordinary (.decrement (some n) (.num (.int z)) r)
  | timing {n d r} : (∀ c ∈ n, Legal c) → Unsampled r → Ordinary (.timing (some n) (some (.num d)) r)
  | elapsed {n r} : (∀ c ∈ n, Legal c) → Unsampled r → Ordinary (.timing (some n) none r)
  | reset : Ordinary .resetTiming

/-- What a call adds to the counter `key`. -/
def delta (ns : Option Str) (key : Str) : Call → Option ℤ
  | .increment n (.num (.int z)) _ => if qualified ns n = key then some z else none
  | .decrement n (.num (.int z)) _ => if qualified ns n = key then some (-z) else none
  | _ => none

/-- Everything added to the counter `key`, in order. -/
def deltas (ns : Option Str) (key : Str) (calls : List Call) : List ℤ := calls.filterMap (delta ns key)

/-- Increments minus decrements of `key` since it was last cleared. -/
def sinceClear (ns : Option Str) (key : Str) (calls : List Call) : ℤ :=
  calls.foldl (fun n call => match call with
    | .clear k => if qualified ns k = key then 0 else n
    | call => n + (delta ns key call).getD 0) 0

/-- A call that counts (or clears) by an integer. -/
def Counts : Call → Prop
  | .increment _ (.num (.int _)) _ => True
  | .decrement _ (.num (.int _)) _ => True
  | .clear _ => True
  | _ => False

/-- The call asks `timing` to measure the time itself. -/
def measures : Call → Bool
  | .timing _ none _ => true
  | _ => false

/-- A call with the time it is made at and its random draw. -/
abbrev Timed := Call × ℚ × ℚ

/-- The step of a timed call. -/
def Timed.step (p : Timed) : Client.Step := ⟨p.1, .fin p.2.1, p.2.2⟩

/-- The time of the last measuring call, or the starting time. -/
def lastMeasure (t0 : ℚ) (l : List Timed) : ℚ := l.foldl (fun t p => if measures p.1 then p.2.1 else t) t0

end Txstatsd.Spec
