import Verif.Spec.Meter
import Verif.Spec.Histogram
import Verif.Model.Configurable

/-!
# What the configurable and logging processors should report
-/

namespace Txstatsd.Spec

/-- `v` is the value of the last accepted reading of type `mtype` for `key`. -/
def Latest [Rounding] (mtype key : Str) (msgs : List Str) (v : PyFloat) : Prop :=
  ∃ before m after, msgs = before ++ m :: after ∧ Reading mtype key m v ∧
    ∀ m' ∈ after, ∀ v', ¬ Reading mtype key m' v'

/-- Some reading of type `mtype` for `key` was accepted. -/
def Received [Rounding] (mtype key : Str) (msgs : List Str) : Prop := ∃ m ∈ msgs, ∃ v, Reading mtype key m v

/-- The name of a metric: the configured prefix and a dot, if there is a prefix, then the key and a suffix. -/
def prefixed (pre key suffix : Str) : Str := (if pre = [] then [] else pre ++ ['.']) ++ key ++ suffix

/-- `z` is `q` without its fraction. -/
def IntegerPart (q : ℚ) (z : ℤ) : Prop := |(z : ℚ)| ≤ |q| ∧ |q - z| < 1 ∧ 0 ≤ q * z

/-- The kinds of readings with the suffixes of the datapoints made of them. -/
def suffixes : List (Str × Str) :=
  [(c!"c", c!".count"), (c!"g", c!".value"), (c!"m", c!".count"), (c!"m", c!".rate"),
   (c!"ms", c!".999percentile"), (c!"ms", c!".99percentile"), (c!"ms", c!".count"), (c!"ms", c!".max"),
   (c!"ms", c!".mean"), (c!"ms", c!".min"), (c!"ms", c!".rate"), (c!"ms", c!".stddev")]

/-! ## Timers -/

/-- What can happen to a timer: a duration is added, or a report is asked for at a timestamp. -/
inductive TimerOp
  | add (q : ℚ)
  | report (ts : ℤ)

/-- All durations ever added. -/
def durations (h : List TimerOp) : List ℚ :=
  h.filterMap fun o => match o with
    | .add q => some q
    | .report _ => none

/-- The non-negative durations added since the last report. -/
def period (h : List TimerOp) : List ℚ :=
  h.foldl (fun l o => match o with
    | .add q => if 0 ≤ q then l ++ [q] else l
    | .report _ => []) []

/-- The time of the last report, or the creation time. -/
def periodStart (start : ℚ) (h : List TimerOp) : ℚ :=
  h.foldl (fun t o => match o with
    | .add _ => t
    | .report ts => ts) start

/-- `t'` is a timer that started as `t` and went through the history, with any outcome of the random draws. -/
inductive TimerRun [Rounding] (t : TimerRep) : List TimerOp → TimerRep → Prop
  | nil : TimerRun t [] t
  | add {h t' draw q} : TimerRun t h t' → TimerRun t (h ++ [.add q]) (t'.update draw (.fin q))
  | report {h t' ts} : TimerRun t h t' → TimerRun t (h ++ [.report ts]) (t'.report ts).1

/-- The history of the timer `key` in a history of a processor that starts in state `s`, all of whose flushes complete:
accepted readings are durations, flushes ask for a report with the flush's timestamp. -/
inductive TimerHistory [Rounding] {C T G PF PM : Type} (I : Impl C T G PF PM) (w : World) (key : Str)
    (s : PS C T G PF PM) : List Op → List TimerOp → Prop
  | nil : TimerHistory I w key s [] []
  | add {msg q os h} : TimerHistory I w key s os h → Reading c!"ms" key msg (.fin q) →
      TimerHistory I w key s (os ++ [.msg msg]) (h ++ [.add q])
  | skip {msg os h} : TimerHistory I w key s os h → (∀ v, ¬ Reading c!"ms" key msg v) →
      TimerHistory I w key s (os ++ [.msg msg]) h
  | flush {i p os h} : TimerHistory I w key s os h →
      (Txstatsd.flush I w i p (runOps I w s os).1).2.2 = none →
      TimerHistory I w key s (os ++ [.flush i p]) (h ++ [.report (truncQ (w.clk (runOps I w s os).1.ticks))])

/-- `os1` is what happened before the first accepted duration for `key`. -/
def FirstReading [Rounding] (key : Str) (os os1 : List Op) : Prop :=
  ∃ msg os2, os = os1 ++ .msg msg :: os2 ∧ (∃ v, Reading c!"ms" key msg v) ∧ ¬ Received c!"ms" key (messages os1)

/-- `pts` reports a timer with the durations `ds` of this period, `n` durations in all, and the given length of the
period: percentiles between the extremes, the extremes, the mean, the rate and the standard deviation, rounded to six
decimals. -/
def TimerReport [Rounding] (pre name : Str) (ds : List ℚ) (n : Nat) (elapsed : ℚ) (ts : ℤ) (pts : List Datapoint) : Prop :=
  ∃ lo hi p99 p999 a b c d e f : ℚ,
    (ds = [] → lo = 0 ∧ hi = 0) ∧ (ds ≠ [] → IsLeast' ds lo ∧ IsGreatest' ds hi) ∧
    lo ≤ p99 ∧ p99 ≤ p999 ∧ p999 ≤ hi ∧ lo ≤ meanOf ds ∧ meanOf ds ≤ hi ∧
    Near6 a p999 ∧ Near6 b p99 ∧ Near6 c hi ∧ Near6 d (meanOf ds) ∧ Near6 e lo ∧
    Near6 f (if elapsed = 0 then 0 else ds.length / elapsed) ∧
    pts = [⟨prefixed pre name c!".999percentile", .flt (.fin a), ts⟩,
           ⟨prefixed pre name c!".99percentile", .flt (.fin b), ts⟩,
           ⟨prefixed pre name c!".count", .flt (.fin n), ts⟩,
           ⟨prefixed pre name c!".max", .flt (.fin c), ts⟩,
           ⟨prefixed pre name c!".mean", .flt (.fin d), ts⟩,
           ⟨prefixed pre name c!".min", .flt (.fin e), ts⟩,
           ⟨prefixed pre name c!".rate", .flt (.fin f), ts⟩,
           ⟨prefixed pre name c!".stddev",
             .flt (round6 (if ds = [] then .fin 0 else Rounding.sqrt (varianceOf ds))), ts⟩]

/-! ## Logging -/

/-- What should be logged while a server without logging goes through a schedule: `In` for every message that parses,
`Out` for every datapoint that appears. -/
def expectedLog [Rounding] {C T G PF PM : Type} (I : Impl C T G PF PM) (w : World) (str : Num → Str) :
    Server C T G PF PM → List Event → List Str
  | _, [] => []
  | v, e :: es =>
    (match e with
      | .arrive m => if (parseMessage m).isSome then [c!"In: " ++ m] else []
      | _ => ((v.step I w e).out.drop v.out.length).map fun d =>
          c!"Out: " ++ d.name ++ c!" " ++ str d.value ++ c!" " ++ intStr d.ts) ++ expectedLog I w str (v.step I w e) es

end Txstatsd.Spec
