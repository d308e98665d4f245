import Verif.Lemmas.SelfReport
import Verif.Props.Gauges
import Verif.Props.Metrics

/-!
# C99: the service's reports about itself
-/

set_option linter.unusedVariables false

namespace Txstatsd
open Spec
section
variable [Rounding] {PF PM C T G : Type}

/-- C99: in every history of reports, messages and flushes, on either processor, a report acts exactly as the arrival of the messages
`instance.name:value|g`, one for each of its metrics in order, and logs a failure iff its function raised. -/
theorem C99_history (I : Impl C T G PF PM) (w : World) (fmt : PyFloat → Str) (hf : NumberTexts fmt) (inst : Str) (ext : Bool)
    (s : PS C T G PF PM) (os : List SelfOp) (h : LegalReports inst os) :
    let v := SelfState.run I w fmt inst { client := { conn := true, namespc := some [], ext := ext }, ps := s } os
    (v.ps, v.out) = runOps I w s (plainOps fmt inst os) ∧ v.failures = raised os := by
  intro v
  have := selfRun_eq hf I w os h { client := { conn := true, namespc := some [], ext := ext }, ps := s }
    ⟨rfl, Or.inr rfl, by intro k m hm; cases hm⟩
  exact ⟨this.2.1, by simpa using this.2.2⟩

/-- C99, on the default processor: each completed flush lists, for a reported metric, every value ever reported for it, oldest first:
the flushes of a service that reports about itself grow without end. (No message from outside is a reading of that gauge, and no
counter has the name of its datapoint.) -/
theorem C99_backlog (ops : PluginOps PF PM) (hq : Quiet ops c!"stats.gauge.") (plugins : List PF) (w : World)
    (fmt : PyFloat → Str) (hf : NumberTexts fmt) (inst name : Str) (ext : Bool) (os : List SelfOp) (h : LegalReports inst os)
    (ho : ∀ m ∈ outside os, ∀ v, ¬ Reading c!"g" (reportedAs inst name) m v) (interval percent : ℤ) :
    let v := SelfState.run (messageProcessor ops) w fmt inst
      { client := { conn := true, namespc := some [], ext := ext }, ps := MPState.init ops plugins } os
    let r := flush (messageProcessor ops) w interval percent v.ps
    (c!"gauge." ++ reportedAs inst name ++ c!".value") ∉ v.ps.counters.keys → r.2.2 = none →
    List.Forall₂ (fun x (d : Datapoint) => ∃ y, parseFloat (Num.render fmt x) = some y ∧ d.value = .flt y) (reportedValues name os)
      (named (c!"stats.gauge." ++ reportedAs inst name ++ c!".value") r.2.1) := by
  intro v r hc hok
  have hv := (C99_history (messageProcessor ops) w fmt hf inst ext (MPState.init ops plugins) os h).1
  have hps : v.ps = (runOps (messageProcessor ops) w (MPState.init ops plugins) (plainOps fmt inst os)).1 := by
    rw [← hv]
  obtain ⟨ys, h1, h2⟩ := collect_self hf (name := name) os h ho
  have := C15_backlog ops hq plugins w (plainOps fmt inst os) interval percent (reportedAs inst name) ys h2
  simp only [← hps] at this
  rw [this hc hok, List.forall₂_map_right_iff]
  exact h1.imp fun x y hxy => ⟨y, hxy, rfl⟩

/-- C99: the last of them is the latest report; an integer arrives as that integer. -/
theorem C99_latest [IntExact] (ops : PluginOps PF PM) (hq : Quiet ops c!"stats.gauge.") (plugins : List PF) (w : World)
    (fmt : PyFloat → Str) (hf : NumberTexts fmt) (inst name : Str) (ext : Bool) (os : List SelfOp) (h : LegalReports inst os)
    (ho : ∀ m ∈ outside os, ∀ v, ¬ Reading c!"g" (reportedAs inst name) m v) (interval percent : ℤ) (z : ℤ) (hz : |z| ≤ 2 ^ 53)
    (hlast : (reportedValues name os).getLast? = some (.int z)) :
    let v := SelfState.run (messageProcessor ops) w fmt inst
      { client := { conn := true, namespc := some [], ext := ext }, ps := MPState.init ops plugins } os
    let r := flush (messageProcessor ops) w interval percent v.ps
    r.2.2 = none →
    (named (c!"stats.gauge." ++ reportedAs inst name ++ c!".value") r.2.1).getLast? =
      some ⟨c!"stats.gauge." ++ reportedAs inst name ++ c!".value", .flt (.fin z), truncQ (w.clk v.ps.ticks)⟩ := by
  intro v r hok
  have hv := (C99_history (messageProcessor ops) w fmt hf inst ext (MPState.init ops plugins) os h).1
  have hps : v.ps = (runOps (messageProcessor ops) w (MPState.init ops plugins) (plainOps fmt inst os)).1 := by
    rw [← hv]
  obtain ⟨ys, h1, h2⟩ := collect_self hf (name := name) os h ho
  obtain ⟨pre, hn, _⟩ := named_gauge ops hq plugins w (plainOps fmt inst os) interval percent (reportedAs inst name) ys h2
    (by rw [← hps]; exact hok)
  rw [gaugeName, ← hps] at hn
  rw [show r = flush (messageProcessor ops) w interval percent v.ps from rfl, hn]
  obtain ⟨xs, hxs⟩ : ∃ xs, reportedValues name os = xs ++ [.int z] := by
    obtain ⟨xs, hxs⟩ := List.getLast?_eq_some_iff.1 hlast
    exact ⟨xs, hxs⟩
  rw [hxs] at h1
  obtain ⟨ys1, y, rfl, a⟩ := forall₂_last h1
  simp only [Num.render, parseFloat_intStr, IntExact.rnd_int z hz, Option.some.injEq] at a
  subst a
  simp

end

section
attribute [local instance] ratRounding

/-- C99, the expectation without the condition on names. False: an instance name with a colon (`platform.node()` is used as it is)
makes every report a bad message; nothing is delivered, under any name. -/
theorem C99_colon_refuted : ¬ ∀ (inst name : Str) (z : ℤ),
    let v := SelfState.run (messageProcessor noPlugins) exWorld exFmt inst
      { client := { conn := true, namespc := some [], ext := false }, ps := MPState.init noPlugins [] } [.report (.ok [(name, .int z)])]
    (flush (messageProcessor noPlugins) exWorld 10000 90 v.ps).2.1.any fun d => decide (d.value = .flt (.fin z)) := by
  intro h
  have := h c!"::1" c!"sys.mem" 7
  revert this
  decide +kernel

example : let os : List SelfOp := [.report (.ok [(c!"cpu", .int 3), (c!"mem", .int 5)]), .flush 10000 90, .report (.error .otherError),
      .msg c!"x:1|c", .report (.ok [(c!"cpu", .int 4)])]
    let v := SelfState.run (messageProcessor noPlugins) exWorld exFmt c!"host"
      { client := { conn := true, namespc := some [], ext := false }, ps := MPState.init noPlugins [] } os
    reportedValues c!"cpu" os = [.int 3, .int 4] ∧ v.failures = [false, true, false] ∧ outside os = [c!"x:1|c"] ∧
    (flush (messageProcessor noPlugins) exWorld 10000 90 v.ps).2.2 = none ∧
    (named c!"stats.gauge.host.cpu.value" (flush (messageProcessor noPlugins) exWorld 10000 90 v.ps).2.1).map (·.value)
      = [.flt (.fin 3), .flt (.fin 4)] := by decide +kernel

example : LegalReports c!"host" [.report (.ok [(c!"cpu", .int 3), (c!"mem", .int 5)]), .msg c!"x:1|c"] := by
  refine ⟨by intro c hc; simp at hc; rcases hc with rfl | rfl | rfl | rfl <;> (unfold Legal; decide), ?_⟩
  intro d hd n hn c hc
  simp only [List.mem_cons, List.not_mem_nil, or_false, SelfOp.report.injEq, Except.ok.injEq, reduceCtorEq] at hd
  subst hd
  simp [Dict.keys] at hn
  rcases hn with rfl | rfl <;> simp at hc <;> rcases hc with rfl | rfl | rfl <;> (unfold Legal; decide)

example (v : PyFloat) : ∀ m ∈ [c!"x:1|c"], ¬ Reading c!"g" (reportedAs c!"host" c!"cpu") m v := by
  intro m hm; simp only [List.mem_singleton] at hm; subst hm; exact not_reading_of (by decide +kernel) v

end
end Txstatsd
