import Verif.Lemmas.Gauge
import Verif.Props.Counters

/-!
# Gauges: C14, C15
-/

namespace Txstatsd
open Spec
section
variable [Rounding] {PF PM : Type}

/-- C14: in every completed flush the last datapoint named after a gauge carries the value of the last accepted
reading of it (`m` is that message: no later one is a reading of the gauge), however long ago that was. -/
theorem C14_last_reading (ops : PluginOps PF PM) (hq : Quiet ops c!"stats.gauge.") (plugins : List PF) (w : World)
    (os : List Op) (interval percent : ℤ) (key : Str) (v : PyFloat) (before after : List Str) (m : Str)
    (hmsgs : messages os = before ++ m :: after) (hm : Reading c!"g" key m v)
    (hafter : ∀ m' ∈ after, ∀ v', ¬ Reading c!"g" key m' v') :
    let s := (runOps (messageProcessor ops) w (MPState.init ops plugins) os).1
    let r := flush (messageProcessor ops) w interval percent s
    r.2.2 = none →
    (named (c!"stats.gauge." ++ key ++ c!".value") r.2.1).getLast? =
      some ⟨c!"stats.gauge." ++ key ++ c!".value", .flt v, truncQ (w.clk s.ticks)⟩ := by
  intro s r hok
  obtain ⟨vs, hvs⟩ := collect_exists (Reading c!"g" key) before
  have hno : Collect (Reading c!"g" key) after [] := by
    clear hmsgs
    induction after with
    | nil => exact .nil
    | cons a as ih =>
      exact .skip (fun v' => hafter a (by simp) v') (ih (fun m' h => hafter m' (by simp [h])))
  have hall : Collect (Reading c!"g" key) (messages os) (vs ++ [v]) := by
    rw [hmsgs]; exact collect_append hvs (.hit hm hno)
  obtain ⟨pre, hn, _⟩ := named_gauge ops hq plugins w os interval percent key _ hall hok
  have hr : r = flush (messageProcessor ops) w interval percent s := rfl
  rw [gaugeName] at hn
  rw [hr, hn]
  simp [s]

/-- C15: a completed flush reports a gauge once for every reading of it that was ever accepted, oldest first,
however many flushes were made in between. (A counter whose key is `gauge.<key>.value` shares the name; it is
excluded.) -/
theorem C15_backlog (ops : PluginOps PF PM) (hq : Quiet ops c!"stats.gauge.") (plugins : List PF) (w : World)
    (os : List Op) (interval percent : ℤ) (key : Str) (vs : List PyFloat)
    (hvs : Collect (Reading c!"g" key) (messages os) vs) :
    let s := (runOps (messageProcessor ops) w (MPState.init ops plugins) os).1
    let r := flush (messageProcessor ops) w interval percent s
    (c!"gauge." ++ key ++ c!".value") ∉ s.counters.keys → r.2.2 = none →
    named (c!"stats.gauge." ++ key ++ c!".value") r.2.1 =
      vs.map fun v => ⟨c!"stats.gauge." ++ key ++ c!".value", .flt v, truncQ (w.clk s.ticks)⟩ := by
  intro s r hnc hok
  obtain ⟨pre, hn, hp⟩ := named_gauge ops hq plugins w os interval percent key vs hvs hok
  rw [hp hnc] at hn
  exact hn

/-- C15, the part of the user's expectation that holds: a gauge with a single accepted reading is reported once per
completed flush. The full expectation - one datapoint per gauge, whatever was received - is refuted below. -/
theorem C15_once_partial (ops : PluginOps PF PM) (hq : Quiet ops c!"stats.gauge.") (plugins : List PF) (w : World)
    (os : List Op) (interval percent : ℤ) (key : Str) (v : PyFloat)
    (hvs : Collect (Reading c!"g" key) (messages os) [v]) :
    let s := (runOps (messageProcessor ops) w (MPState.init ops plugins) os).1
    let r := flush (messageProcessor ops) w interval percent s
    (c!"gauge." ++ key ++ c!".value") ∉ s.counters.keys → r.2.2 = none →
    (named (c!"stats.gauge." ++ key ++ c!".value") r.2.1).length = 1 := by
  intro s r hnc hok
  rw [C15_backlog ops hq plugins w os interval percent key [v] hvs hnc hok]
  rfl

end

section
attribute [local instance] ratRounding

/-- C15 is false of the code: after two readings and a flush, the next flush still emits two datapoints for the
gauge. -/
theorem C15_refuted :
    ¬ ∀ (os : List Op) (interval percent : ℤ) (key : Str),
      let s := (runOps (messageProcessor noPlugins) exWorld (MPState.init noPlugins []) os).1
      (named (c!"stats.gauge." ++ key ++ c!".value")
        (flush (messageProcessor noPlugins) exWorld interval percent s).2.1).length ≤ 1 := by
  intro h
  have := h [.msg c!"a:1|g", .msg c!"a:2|g", .flush 10000 90] 10000 90 c!"a"
  revert this
  decide +kernel

/-! ## The hypotheses can be met -/

theorem reading_of [Rounding] {t k msg : Str} {v : PyFloat} (h : (parseMessage msg).map (fun m => (m.mtype, m.key, parseFloat (m.fields.headD []))) =
    some (t, k, some v)) : Reading t k msg v := by
  cases hp : parseMessage msg with
  | none => simp [hp] at h
  | some m =>
    simp only [hp, Option.map_some, Option.some.injEq, Prod.mk.injEq] at h
    exact reading_iff.2 ⟨m, hp, h.1, h.2.1, h.2.2⟩

theorem not_reading_of [Rounding] {t k msg : Str} (h : (parseMessage msg).map (fun m =>
      decide (m.mtype = t ∧ m.key = k ∧ (parseFloat (m.fields.headD [])).isSome)) ≠ some true) :
    ∀ v, ¬ Reading t k msg v := by
  intro v hv
  obtain ⟨m, hp, h1, h2, h3⟩ := reading_iff.1 hv
  apply h
  rw [hp]
  simp only [Option.map_some, Option.some.injEq, decide_eq_true_eq]
  exact ⟨h1, h2, by rw [h3]; rfl⟩

example : messages [.msg c!"a:1|g", .flush 1000 90, .msg c!"a:2|g", .msg c!"b:3|g"] =
    [c!"a:1|g"] ++ c!"a:2|g" :: [c!"b:3|g"] := rfl
example : Reading c!"g" c!"a" c!"a:2|g" (.fin 2) := reading_of (by decide +kernel)
example : ∀ m' ∈ [c!"b:3|g"], ∀ v', ¬ Reading c!"g" c!"a" m' v' := by
  intro m' hm; simp only [List.mem_singleton] at hm; subst hm; exact not_reading_of (by decide +kernel)
example : (flush (messageProcessor noPlugins) exWorld 1000 90 (runOps (messageProcessor noPlugins) exWorld
    (MPState.init noPlugins []) [.msg c!"a:1|g", .flush 1000 90, .msg c!"a:2|g", .msg c!"b:3|g"]).1).2.2 = none := by
  decide +kernel
example : Quiet noPlugins c!"stats.gauge." := by
  intro key m _ w t i ts l h d hd; simp [noPlugins] at h; subst h; simp at hd

end
end Txstatsd
