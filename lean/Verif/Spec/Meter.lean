import Verif.Spec.Timer

/-!
# What a meter should report
-/

namespace Txstatsd.Spec

/-- What can happen to a meter: it is marked, or a report is asked for at a timestamp. -/
inductive MeterOp
  | mark (q : ℚ)
  | report (ts : ℤ)

/-- All marks of a history. -/
def marks (h : List MeterOp) : List ℚ :=
  h.filterMap fun o => match o with
    | .mark q => some q
    | .report _ => none

/-- The time of the last report, or the creation time `start`. -/
def lastReport (start : ℚ) (h : List MeterOp) : ℚ :=
  h.foldl (fun t o => match o with
    | .mark _ => t
    | .report ts => ts) start

/-- The marks since the last report that carried a timestamp different from the report before it. -/
def marksSince (start : ℚ) (h : List MeterOp) : List ℚ :=
  (h.foldl (fun (p : ℚ × List ℚ) o => match o with
    | .mark q => (p.1, p.2 ++ [q])
    | .report ts => (ts, if (ts : ℚ) = p.1 then p.2 else [])) (start, [])).2

/-- `r` is `x` rounded to six decimals. -/
def Near6 (r x : ℚ) : Prop := (∃ z : ℤ, r = z / 1000000) ∧ |r - x| ≤ 1 / 2000000

/-- The history of the meter `key` in a history of a processor that starts in state `s`: accepted readings mark it,
flushes ask it for a report with the flush's timestamp. -/
inductive MeterHistory [Rounding] {C T G PF PM : Type} (I : Impl C T G PF PM) (w : World) (key : Str) :
    PS C T G PF PM → List Op → List MeterOp → Prop
  | nil {s} : MeterHistory I w key s [] []
  | mark {s msg q os h} : Reading c!"m" key msg (.fin q) → MeterHistory I w key (process I w s msg).1 os h →
      MeterHistory I w key s (.msg msg :: os) (.mark q :: h)
  | skip {s msg os h} : (∀ v, ¬ Reading c!"m" key msg v) → MeterHistory I w key (process I w s msg).1 os h →
      MeterHistory I w key s (.msg msg :: os) h
  | flush {s i p os h} : MeterHistory I w key (Txstatsd.flush I w i p s).1 os h →
      MeterHistory I w key s (.flush i p :: os) (.report (truncQ (w.clk s.ticks)) :: h)

end Txstatsd.Spec
