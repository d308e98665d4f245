import Verif.Lemmas.Meter
import Verif.Props.Gauges

/-!
# Meters: C16
-/

namespace Txstatsd
open Spec
section
variable [Rounding] {PF PM : Type}

/-- C16, for a meter by itself: after any history of marks and reports, a report with a timestamp different from the
last report emits the sum of all marks so far and the sum of the marks since the last effective report divided by the
elapsed time, both rounded to six decimals. A report with the same timestamp emits nothing. -/
theorem C16_report [Exact] (name pre : Str) (start : ℚ) (h : List MeterOp) (ts : ℤ) :
    let m := Meter.run (Meter.init name pre start) h
    ((ts : ℚ) = lastReport start h → (m.report ts).2 = .ok []) ∧
    ((ts : ℚ) ≠ lastReport start h → ∃ count rate : ℚ, Near6 count (marks h).sum ∧
      Near6 rate ((marksSince start h).sum / (ts - lastReport start h)) ∧
      (m.report ts).2 = .ok [⟨dotted pre ++ name ++ c!".count", .flt (.fin count), ts⟩,
        ⟨dotted pre ++ name ++ c!".rate", .flt (.fin rate), ts⟩]) := by
  intro m
  obtain ⟨h1, h2⟩ := meter_report (meter_inv name pre start h) ts
  have hp : m.pre = dotted pre ∧ m.name = name := by
    have : ∀ (h : List MeterOp) (m : Meter), (m.run h).pre = m.pre ∧ (m.run h).name = m.name := by
      intro h
      induction h with
      | nil => intro m; exact ⟨rfl, rfl⟩
      | cons o h ih =>
        intro m
        have := ih (m.apply o)
        rw [Meter.run, List.foldl_cons, ← Meter.run, this.1, this.2]
        cases o with
        | mark q => exact ⟨rfl, rfl⟩
        | report ts => exact meter_report_pre m ts
    exact this h _
  refine ⟨fun e => by rw [h1 e], fun e => ?_⟩
  obtain ⟨c, v, e1, e2, _, _⟩ := h2 e
  refine ⟨_, v, near6 _, e2 ▸ near6 _, ?_⟩
  rw [← hp.1, ← hp.2, e1]

/-- C16: marks are never lost: whatever reports were made, the part already counted and the part still pending add up
to all marks. -/
theorem C16_nothing_lost [Exact] (name pre : Str) (start : ℚ) (h : List MeterOp) :
    let m := Meter.run (Meter.init name pre start) h
    m.count.rat + m.value.rat = (marks h).sum ∧ m.value.rat = (marksSince start h).sum :=
  let i := meter_inv name pre start h
  ⟨i.all, i.since⟩

/-- C16, in the processor: let `h` be what happened to the meter `key` (accepted readings and flush times). If it was
never marked it does not exist; otherwise the stored meter is one created (at some clock reading) by its first mark and
run through the rest of its history. -/
theorem C16_stored [Exact] (ops : PluginOps PF PM) (plugins : List PF) (w : World) (key : Str) (os : List Op)
    (hw : WholeSeconds os) (hp : Percents os) (h : List MeterOp)
    (hh : MeterHistory (messageProcessor ops) w key (MPState.init ops plugins) os h) :
    let s := (runOps (messageProcessor ops) w (MPState.init ops plugins) os).1
    (marks h = [] → s.meters.find key = none) ∧
    (marks h ≠ [] → ∃ n pre rest, h = pre ++ rest ∧ marks pre = [] ∧
        s.meters.find key = some ((Meter.init key c!"stats.meter" (w.clk n)).run rest)) :=
  (stored_meter ops w key os hw hp _ (mpwf_init ops plugins) h hh).2 rfl

/-- C16, in the processor: a completed flush emits under the meter's names exactly what its report emits: at most one
count and one rate, with the values given by `C16_report`. (Counters whose keys are `meter.<key>.count` or
`meter.<key>.rate` share the names; they are excluded.) -/
theorem C16_flush [Exact] (ops : PluginOps PF PM) (hq : Quiet ops c!"stats.meter.") (plugins : List PF) (w : World)
    (key : Str) (os : List Op) (hw : WholeSeconds os) (hp : Percents os) (h : List MeterOp)
    (hh : MeterHistory (messageProcessor ops) w key (MPState.init ops plugins) os h) (hm : marks h ≠ [])
    (interval percent : ℤ) :
    let s := (runOps (messageProcessor ops) w (MPState.init ops plugins) os).1
    let r := flush (messageProcessor ops) w interval percent s
    let ts := truncQ (w.clk s.ticks)
    r.2.2 = none → (c!"meter." ++ key ++ c!".count") ∉ s.counters.keys →
    ∃ start rest, (∃ n, start = w.clk n) ∧ (∃ pre, h = pre ++ rest ∧ marks pre = []) ∧
      ((ts : ℚ) = lastReport start rest → named (c!"stats.meter." ++ key ++ c!".count") r.2.1 = []) ∧
      ((ts : ℚ) ≠ lastReport start rest → ∃ count, Near6 count (marks h).sum ∧
        named (c!"stats.meter." ++ key ++ c!".count") r.2.1 =
          [⟨c!"stats.meter." ++ key ++ c!".count", .flt (.fin count), ts⟩]) := by
  intro s r ts hok hnc
  have hwf : MPWf ops s := mpwf_runOps ops w (mpwf_init ops plugins) os
  obtain ⟨n, pre, rest, e1, e2, e3⟩ := (C16_stored ops plugins w key os hw hp h hh).2 hm
  have hmr : (marks h).sum = (marks rest).sum := by
    rw [e1]; simp only [marks, List.filterMap_append] at e2 ⊢; rw [e2]; simp
  obtain ⟨c1, c2⟩ := C16_report key c!"stats.meter" (w.clk n) rest ts
  have hn := named_meter ops hq w interval percent hwf hok key hnc e3
  refine ⟨w.clk n, rest, ⟨n, rfl⟩, ⟨pre, e1, e2⟩, fun he => ?_, fun he => ?_⟩
  · rw [hn]
    rw [c1 he]
    rfl
  · obtain ⟨count, rate, d1, _, d3⟩ := c2 he
    refine ⟨count, by rw [hmr]; exact d1, ?_⟩
    rw [hn]
    rw [d3]
    have d : dotted c!"stats.meter" = c!"stats.meter." := by decide
    have hne : ¬ (c!"stats.meter." ++ key ++ c!".rate" = c!"stats.meter." ++ key ++ c!".count") := by
      intro h; have := List.append_cancel_left h; revert this; decide
    simp only [named, List.filter_cons, d, decide_true, if_true, hne, decide_false, Bool.false_eq_true, if_false,
      List.filter_nil]

end

/-! ## The hypotheses can be met -/

section
attribute [local instance] ratRounding

example : Exact := ⟨fun _ => rfl⟩
example : marks [.mark 3, .report 10, .mark 4, .report 10, .mark 5] = [3, 4, 5] ∧
    marksSince 2 [.mark 3, .report 10, .mark 4, .report 10, .mark 5] = [4, 5] ∧
    lastReport 2 [.mark 3, .report 10, .mark 4, .report 10, .mark 5] = 10 := by decide +kernel

example : MeterHistory (messageProcessor noPlugins) exWorld c!"a" (MPState.init noPlugins [])
    [.msg c!"a:3|m", .msg c!"b:1|m", .flush 10000 90, .msg c!"a:4|m"]
    [.mark 3, .report (truncQ (exWorld.clk (process (messageProcessor noPlugins) exWorld
      (process (messageProcessor noPlugins) exWorld (MPState.init noPlugins []) c!"a:3|m").1 c!"b:1|m").1.ticks)), .mark 4] :=
  .mark (reading_of (by decide +kernel)) (.skip (not_reading_of (by decide +kernel)) (.flush
    (.mark (reading_of (by decide +kernel)) .nil)))

end
end Txstatsd
