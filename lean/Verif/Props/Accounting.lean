import Verif.Lemmas.Names
import Verif.Props.Gauges

/-!
# Self-accounting, timestamps and listing: C17, C18, C20, C21
-/

namespace Txstatsd
open Spec
section
variable [Rounding] {PF PM : Type}

/-- C17: a completed flush contains exactly one `statsd.flush.<kind>.count` for each kind, equal to the number of
counters, of timers with durations, of gauge readings, of meters and of plugin metrics held when it began, and exactly
one `statsd.numStats`, equal to their sum. -/
theorem C17_flush_counts (ops : PluginOps PF PM) (hq : Quiet ops c!"statsd.") (plugins : List PF) (w : World)
    (os : List Op) (interval percent : ℤ) :
    let s := (runOps (messageProcessor ops) w (MPState.init ops plugins) os).1
    let r := flush (messageProcessor ops) w interval percent s
    let ts := truncQ (w.clk s.ticks)
    let nt := (s.timers.filter fun p => !p.2.isEmpty).length
    r.2.2 = none →
    named c!"statsd.flush.counter.count" r.2.1 = [⟨c!"statsd.flush.counter.count", .int s.counters.length, ts⟩] ∧
    named c!"statsd.flush.timer.count" r.2.1 = [⟨c!"statsd.flush.timer.count", .int nt, ts⟩] ∧
    named c!"statsd.flush.gauge.count" r.2.1 = [⟨c!"statsd.flush.gauge.count", .int s.gauges.length, ts⟩] ∧
    named c!"statsd.flush.meter.count" r.2.1 = [⟨c!"statsd.flush.meter.count", .int s.meters.length, ts⟩] ∧
    named c!"statsd.flush.plugin.count" r.2.1 =
      [⟨c!"statsd.flush.plugin.count", .int s.pluginMetrics.length, ts⟩] ∧
    named c!"statsd.numStats" r.2.1 = [⟨c!"statsd.numStats",
      .int (s.counters.length + nt + s.gauges.length + s.meters.length + s.pluginMetrics.length : Nat), ts⟩] := by
  intro s r ts nt hok
  have hwf : MPWf ops s := mpwf_runOps ops w (mpwf_init ops plugins) os
  obtain ⟨acc, hacc, hn⟩ := named_summary ops hq w interval percent hwf hok
  have hc := summary_counts (messageProcessor ops) ts s hacc
  have hnum := summary_numStats (messageProcessor ops) ts acc s
  refine ⟨?_, ?_, ?_, ?_, ?_, ?_⟩
  · exact (hn c!"flush.counter.count").trans (hc (c!"counter", s.counters.length) (by simp))
  · exact (hn c!"flush.timer.count").trans (hc (c!"timer", nt) (by simp [nt]))
  · exact (hn c!"flush.gauge.count").trans (hc (c!"gauge", s.gauges.length) (by simp))
  · exact (hn c!"flush.meter.count").trans (hc (c!"meter", s.meters.length) (by simp))
  · exact (hn c!"flush.plugin.count").trans (hc (c!"plugin", s.pluginMetrics.length) (by simp))
  · refine (hn c!"numStats").trans (hnum.trans ?_)
    unfold numStatsPoint
    rw [acc_shape hacc]
    simp only [List.map_cons, List.map_nil, List.sum_cons, List.sum_nil, add_zero]
    simp only [add_assoc]
    rfl

/-- C18: a completed flush reports `statsd.receive.<t>.count` once, with the number of messages of type `t` that were
handled without an exception since the last completed flush, and not at all if there were none. -/
theorem C18_receive_counts (ops : PluginOps PF PM) (hq : Quiet ops c!"statsd.") (plugins : List PF) (w : World)
    (os : List Op) (interval percent : ℤ) (t : Str) :
    let s := (runOps (messageProcessor ops) w (MPState.init ops plugins) os).1
    let r := flush (messageProcessor ops) w interval percent s
    let n := handledSince (messageProcessor ops) w t (MPState.init ops plugins) 0 os
    r.2.2 = none →
    (n = 0 → named (c!"statsd.receive." ++ t ++ c!".count") r.2.1 = []) ∧
    (n ≠ 0 → named (c!"statsd.receive." ++ t ++ c!".count") r.2.1 =
      [⟨c!"statsd.receive." ++ t ++ c!".count", .int n, truncQ (w.clk s.ticks)⟩]) := by
  intro s r n hok
  have hwf : MPWf ops s := mpwf_runOps ops w (mpwf_init ops plugins) os
  obtain ⟨acc, hacc, hn⟩ := named_summary ops hq w interval percent hwf hok
  have hr := summary_receive (messageProcessor ops) (truncQ (w.clk s.ticks)) acc hwf.shared t
  have hb : s.byType.find t = positive n :=
    stored_byType w t (MPWf ops) (mp_local ops) (fun s m h => mpwf_process ops w h m) (fun s i p h => mpwf_flush ops w i p h)
      (fun s i p h => flush_byType ops w i p h) os (MPState.init ops plugins, []) 0 (mpwf_init ops plugins) rfl
  have e := hn (c!"receive." ++ t ++ c!".count")
  rw [hb] at hr
  have e' : named (c!"statsd.receive." ++ t ++ c!".count") r.2.1 =
      ((positive n).map fun n => (⟨c!"statsd.receive." ++ t ++ c!".count", .int n, truncQ (w.clk s.ticks)⟩ :
        Datapoint)).toList := e.trans hr
  constructor
  · intro h0; rw [e', h0]; rfl
  · intro h0; rw [e']; unfold positive; rw [if_neg h0]; rfl

/-- C20: every datapoint of a flush (completed or aborted) either was produced by a plugin metric for this flush, or
carries the integer part of the clock reading made when the flush began and a name in the namespace of its kind: that
of a stored counter, timer, gauge or meter, or the processor's own. -/
theorem C20_timestamp_and_prefix (ops : PluginOps PF PM) (plugins : List PF) (w : World) (os : List Op)
    (interval percent : ℤ) :
    let s := (runOps (messageProcessor ops) w (MPState.init ops plugins) os).1
    let ts := truncQ (w.clk s.ticks)
    ∀ d ∈ (flush (messageProcessor ops) w interval percent s).2.1,
      PluginPoint ops w statsPrefix (Int.fdiv interval 1000) ts d ∨
      (d.ts = ts ∧
        ((∃ k ∈ s.counters.keys, d.name = c!"stats." ++ k ∨ d.name = c!"stats_counts." ++ k) ∨
         (∃ k ∈ s.timers.keys, c!"stats.timers." ++ k <+: d.name) ∨
         (∃ p ∈ s.gauges, d.name = c!"stats.gauge." ++ p.2 ++ c!".value") ∨
         (∃ k ∈ s.meters.keys, c!"stats.meter." ++ k <+: d.name) ∨
         c!"statsd." <+: d.name)) := by
  intro s ts d hd
  have hwf : MPWf ops s := mpwf_runOps ops w (mpwf_init ops plugins) os
  obtain ⟨cc, tt, gg, mm, pp, su, he, _, h1, h2, h3, h4, h5, _, h6⟩ := flush_sections ops w interval percent hwf
  rw [he] at hd
  simp only [List.mem_append] at hd
  rcases hd with ((((hd | hd) | hd) | hd) | hd) | hd
  · exact Or.inr ⟨(h1 d hd).1, Or.inl (h1 d hd).2⟩
  · exact Or.inr ⟨(h2 d hd).1, Or.inr (Or.inl (h2 d hd).2)⟩
  · exact Or.inr ⟨(h3 d hd).1, Or.inr (Or.inr (Or.inl (h3 d hd).2))⟩
  · exact Or.inr ⟨(h4 d hd).1, Or.inr (Or.inr (Or.inr (Or.inl (h4 d hd).2)))⟩
  · exact Or.inl (h5 d hd)
  · exact Or.inr ⟨(h6 d hd).1, Or.inr (Or.inr (Or.inr (Or.inr (h6 d hd).2)))⟩

/-- C21: after any history of messages and flushes the listing has no repetitions and contains exactly the names
that some received message makes the processor remember. -/
theorem C21_listing (ops : PluginOps PF PM) (plugins : List PF) (w : World) (os : List Op) :
    let l := getMetricNames (runOps (messageProcessor ops) w (MPState.init ops plugins) os).1
    l.Nodup ∧ ∀ k, k ∈ l ↔ ∃ msg ∈ messages os, Names (plugins.map ops.mtype) k msg := by
  intro l
  refine ⟨List.nodup_dedup _, fun k => ?_⟩
  rw [storedName_iff]
  exact stored_names ops plugins w os k

end

/-! ## The hypotheses can be met -/

section
attribute [local instance] ratRounding

example : Quiet noPlugins c!"statsd." := by
  intro key m _ w t i ts l h d hd; simp [noPlugins] at h; subst h; simp at hd

/-- A history with every kind of metric whose next flush completes. -/
def exHistory : List Op :=
  [.msg c!"a:1|c", .msg c!"b:2|ms", .flush 1000 90, .msg c!"c:3|g", .msg c!"d:4|m", .msg c!"a:x|c", .msg c!"b:5|ms",
   .msg c!"c:oops|g", .msg c!"nonsense"]

example : (flush (messageProcessor noPlugins) exWorld 1000 90 (runOps (messageProcessor noPlugins) exWorld
    (MPState.init noPlugins []) exHistory).1).2.2 = none := by decide +kernel
example : (named c!"statsd.numStats" (flush (messageProcessor noPlugins) exWorld 1000 90 (runOps
    (messageProcessor noPlugins) exWorld (MPState.init noPlugins []) exHistory).1).2.1).map Datapoint.value =
    [.int 4] := by decide +kernel
example : getMetricNames (runOps (messageProcessor noPlugins) exWorld (MPState.init noPlugins []) exHistory).1 =
    [c!"b", c!"a", c!"c", c!"d"] := by decide +kernel
example : Names [] c!"d" c!"d:4|m" :=
  names_iff.2 (Or.inr (Or.inr (Or.inr (Or.inl ⟨.fin 4, reading_of (by decide +kernel)⟩))))

end
end Txstatsd
