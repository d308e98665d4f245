import Verif.Lemmas.Durations
import Verif.Lemmas.Site
import Verif.Props.Accounting

/-!
# C145: the durations of the summary
-/

set_option linter.unusedVariables false

namespace Txstatsd
open Spec
section
variable [Rounding] [Exact] {PF PM : Type}

theorem time_mul (x : ℚ) : (Num.flt (.fin x)).mul (.int 1000) = .flt (.fin (1000 * x)) := by
  simp [Num.mul, Num.toFloat, Exact.rnd_eq, PyFloat.mul, mul_comm]

theorem mp_time (ops : PluginOps PF PM) (plugins : List PF) (w : World) (os : List Op) (t : Str) :
    TimeOf (runOps (messageProcessor ops) w (MPState.init ops plugins) os).1 t
      (workedSince (messageProcessor ops) w (· = t) (MPState.init ops plugins) 0 os) :=
  stored_time w t (MPWf ops) (mp_local ops) (fun s m h => mpwf_process ops w h m) (fun s i p h => mpwf_flush ops w i p h)
    (fun s i p h => ⟨fun e => ((flush_recv (mp_timed ops) w i p h.shared).1 e).1,
      fun e => ((flush_recv (mp_timed ops) w i p h.shared).2 e).1⟩) os (MPState.init ops plugins, []) 0 (mpwf_init ops plugins)
    (Or.inl ⟨rfl, rfl⟩)

theorem cp_time (ops : PluginOps PF PM) (pre int : Str) (plugins : List PF) (w : World) (os : List Op) (t : Str) :
    TimeOf (runOps (configurable ops pre int) w (CPState.init ops plugins) os).1 t
      (workedSince (configurable ops pre int) w (· = t) (CPState.init ops plugins) 0 os) :=
  stored_time w t (CPWf ops pre) (cp_local ops pre int) (fun s m h => cpwf_process ops pre int w h m)
    (fun s i p h => cpwf_flush ops pre int w i p h)
    (fun s i p h => ⟨fun e => ((flush_recv (cp_timed ops pre int) w i p h.shared).1 e).1,
      fun e => ((flush_recv (cp_timed ops pre int) w i p h.shared).2 e).1⟩) os (CPState.init ops plugins, []) 0
    (cpwf_init ops pre plugins) (Or.inl ⟨rfl, rfl⟩)

/-- C145: a completed flush reports `statsd.receive.<t>.duration` once: in milliseconds, the time spent on the messages of type `t`
handled since the last completed flush; and not at all if there were none. -/
theorem C145_receive (ops : PluginOps PF PM) (hq : Quiet ops c!"statsd.") (plugins : List PF) (w : World)
    (os : List Op) (interval percent : ℤ) (t : Str) :
    let s := (runOps (messageProcessor ops) w (MPState.init ops plugins) os).1
    let r := flush (messageProcessor ops) w interval percent s
    let n := handledSince (messageProcessor ops) w t (MPState.init ops plugins) 0 os
    r.2.2 = none →
    (n = 0 → named (c!"statsd.receive." ++ t ++ c!".duration") r.2.1 = []) ∧
    (n ≠ 0 → named (c!"statsd.receive." ++ t ++ c!".duration") r.2.1 =
      [⟨c!"statsd.receive." ++ t ++ c!".duration",
        .flt (.fin (1000 * workedSince (messageProcessor ops) w (· = t) (MPState.init ops plugins) 0 os)),
        truncQ (w.clk s.ticks)⟩]) := by
  intro s r n hok
  have hwf : MPWf ops s := mpwf_runOps ops w (mpwf_init ops plugins) os
  obtain ⟨acc, hacc, hn⟩ := named_summary ops hq w interval percent hwf hok
  have hr := summary_receive_time (messageProcessor ops) (truncQ (w.clk s.ticks)) acc hwf.shared t
  have hb : s.byType.find t = positive n :=
    stored_byType w t (MPWf ops) (mp_local ops) (fun s m h => mpwf_process ops w h m) (fun s i p h => mpwf_flush ops w i p h)
      (fun s i p h => flush_byType ops w i p h) os (MPState.init ops plugins, []) 0 (mpwf_init ops plugins) rfl
  have ht := mp_time ops plugins w os t
  change TimeOf s t _ at ht
  have e := (hn (c!"receive." ++ t ++ c!".duration")).trans hr
  change named (c!"statsd.receive." ++ t ++ c!".duration") r.2.1 = _ at e
  have hk : (s.processTimings.find t = none) ↔ (s.byType.find t = none) := by
    rw [Dict.find_eq_none, Dict.find_eq_none, hwf.shared.recv]
  constructor
  · intro h0
    have : s.processTimings.find t = none := hk.2 (by rw [hb, h0]; rfl)
    rw [e, this]; rfl
  · intro h0
    have h1 : s.processTimings.find t ≠ none := fun h => by
      have := hk.1 h
      rw [hb] at this
      unfold positive at this
      rw [if_neg h0] at this
      cases this
    rcases ht with ⟨h, _⟩ | h
    · exact absurd h h1
    · rw [e, h]
      simp only [Option.map_some, Option.toList_some, time_mul]
      rfl

/-- C145: and `statsd.flush.<kind>.duration` once for each kind: in milliseconds, the time between two readings of the clock; the
stretches of the five kinds follow each other, from the second reading of the flush to its last. -/
theorem C145_flush (ops : PluginOps PF PM) (hq : Quiet ops c!"statsd.") (plugins : List PF) (w : World)
    (os : List Op) (interval percent : ℤ) :
    let s := (runOps (messageProcessor ops) w (MPState.init ops plugins) os).1
    let r := flush (messageProcessor ops) w interval percent s
    r.2.2 = none →
    ∃ ws, Tiles (s.ticks + 1) ws r.1.ticks ∧ ws.length = 5 ∧
      ∀ p ∈ flushKinds.zip ws, named (c!"statsd.flush." ++ p.1 ++ c!".duration") r.2.1 =
        [⟨c!"statsd.flush." ++ p.1 ++ c!".duration", .flt (.fin (1000 * (w.clk p.2.2 - w.clk p.2.1))), truncQ (w.clk s.ticks)⟩] := by
  intro s r hok
  have hwf : MPWf ops s := mpwf_runOps ops w (mpwf_init ops plugins) os
  obtain ⟨ws, acc, pre, t1, t2, t3, t4, _, _⟩ := flush_tiles (mp_timed ops) w interval percent hwf.shared hok
  obtain ⟨acc', hacc', hn⟩ := named_summary ops hq w interval percent hwf hok
  refine ⟨ws, t1, t2, fun p hp => ?_⟩
  rcases ws with _ | ⟨a, _ | ⟨b, _ | ⟨c, _ | ⟨d, _ | ⟨e, _ | ⟨f, ws⟩⟩⟩⟩⟩⟩ <;> simp at t2
  simp only [Exact.rnd_eq] at t3
  have hd := summary_durations (messageProcessor ops) (truncQ (w.clk s.ticks)) s t3
  have hacc : ∃ n0 n1 n2 n3 n4, (acc'.map fun (p : PerMetric) => (p.1, p.2.2)) =
      [(c!"counter", n0), (c!"timer", n1), (c!"gauge", n2), (c!"meter", n3), (c!"plugin", n4)] := by
    rcases acc' with _ | ⟨a', _ | ⟨b', _ | ⟨c', _ | ⟨d', _ | ⟨e', _ | ⟨f', acc'⟩⟩⟩⟩⟩⟩ <;> simp at hacc'
    obtain ⟨⟨h1, -⟩, ⟨h2, -⟩, ⟨h3, -⟩, ⟨h4, -⟩, ⟨h5, -⟩⟩ := hacc'
    exact ⟨a'.2.2, b'.2.2, c'.2.2, d'.2.2, e'.2.2, by simp [h1, h2, h3, h4, h5]⟩
  obtain ⟨n0, n1, n2, n3, n4, hacc⟩ := hacc
  have hd' := summary_durations (messageProcessor ops) (truncQ (w.clk s.ticks)) s hacc
  have key : ∀ (kind : Str) (x y : Num),
      named (c!"statsd." ++ c!"flush." ++ kind ++ c!".duration") (summaryPoints (messageProcessor ops) (truncQ (w.clk s.ticks)) acc s) =
        [⟨c!"statsd." ++ c!"flush." ++ kind ++ c!".duration", x.mul (.int 1000), truncQ (w.clk s.ticks)⟩] →
      named (c!"statsd." ++ c!"flush." ++ kind ++ c!".duration") (summaryPoints (messageProcessor ops) (truncQ (w.clk s.ticks)) acc' s) =
        [⟨c!"statsd." ++ c!"flush." ++ kind ++ c!".duration", y.mul (.int 1000), truncQ (w.clk s.ticks)⟩] →
      named (c!"statsd.flush." ++ kind ++ c!".duration") r.2.1 =
        [⟨c!"statsd.flush." ++ kind ++ c!".duration", x.mul (.int 1000), truncQ (w.clk s.ticks)⟩] := by
    intro kind x y h1 h2
    have h3 := hn (c!"flush." ++ kind ++ c!".duration")
    rw [t4, named_append] at h3
    have h4 : c!"statsd." ++ (c!"flush." ++ kind ++ c!".duration") = c!"statsd." ++ c!"flush." ++ kind ++ c!".duration" := by simp
    rw [h4, h1, h2] at h3
    have hl := congrArg List.length h3
    simp only [List.length_append, List.length_cons, List.length_nil] at hl
    have h0 : named (c!"statsd." ++ c!"flush." ++ kind ++ c!".duration") pre = [] := List.length_eq_zero_iff.1 (by omega)
    show named (c!"statsd." ++ c!"flush." ++ kind ++ c!".duration") (flush (messageProcessor ops) w interval percent s).2.1 = _
    rw [t4, named_append, h0, h1]
    rfl
  simp only [flushKinds, List.zip_cons_cons, List.zip_nil_right, List.mem_cons, List.not_mem_nil, or_false] at hp
  rcases hp with rfl | rfl | rfl | rfl | rfl
  · rw [key c!"counter" _ n0 (hd (c!"counter", .flt (.fin (w.clk a.2 - w.clk a.1))) (by simp)) (hd' (c!"counter", n0) (by simp)), time_mul]
  · rw [key c!"timer" _ n1 (hd (c!"timer", .flt (.fin (w.clk b.2 - w.clk b.1))) (by simp)) (hd' (c!"timer", n1) (by simp)), time_mul]
  · rw [key c!"gauge" _ n2 (hd (c!"gauge", .flt (.fin (w.clk c.2 - w.clk c.1))) (by simp)) (hd' (c!"gauge", n2) (by simp)), time_mul]
  · rw [key c!"meter" _ n3 (hd (c!"meter", .flt (.fin (w.clk d.2 - w.clk d.1))) (by simp)) (hd' (c!"meter", n3) (by simp)), time_mul]
  · rw [key c!"plugin" _ n4 (hd (c!"plugin", .flt (.fin (w.clk e.2 - w.clk e.1))) (by simp)) (hd' (c!"plugin", n4) (by simp)), time_mul]

theorem last_named {n : Str} {pre su : List Datapoint} {d : Datapoint} (h : named n su = [d]) :
    (named n (pre ++ su)).getLast? = some d := by
  rw [named_append, h]; simp

/-- C145: on the configurable processor the last datapoints of these names are the ones of the summary, with the same contents; the counts
are those of the messages handled. -/
theorem C145_configurable (ops : PluginOps PF PM) (pre int : Str) (plugins : List PF) (w : World)
    (os : List Op) (interval percent : ℤ) :
    let I := configurable ops pre int
    let s := (runOps I w (CPState.init ops plugins) os).1
    let r := flush I w interval percent s
    let ts := truncQ (w.clk s.ticks)
    r.2.2 = none →
    (∀ t, let n := handledSince I w t (CPState.init ops plugins) 0 os
      n ≠ 0 →
      (named (I.internalPrefix ++ c!"receive." ++ t ++ c!".count") r.2.1).getLast? =
        some ⟨I.internalPrefix ++ c!"receive." ++ t ++ c!".count", .int n, ts⟩ ∧
      (named (I.internalPrefix ++ c!"receive." ++ t ++ c!".duration") r.2.1).getLast? =
        some ⟨I.internalPrefix ++ c!"receive." ++ t ++ c!".duration",
          .flt (.fin (1000 * workedSince I w (· = t) (CPState.init ops plugins) 0 os)), ts⟩) ∧
    ∃ ws, Tiles (s.ticks + 1) ws r.1.ticks ∧ ws.length = 5 ∧
      ∀ p ∈ flushKinds.zip ws, (named (I.internalPrefix ++ c!"flush." ++ p.1 ++ c!".duration") r.2.1).getLast? =
        some ⟨I.internalPrefix ++ c!"flush." ++ p.1 ++ c!".duration", .flt (.fin (1000 * (w.clk p.2.2 - w.clk p.2.1))), ts⟩ := by
  intro I s r ts hok
  have hwf : CPWf ops pre s := cpwf_runOps ops pre int w (cpwf_init ops pre plugins) os
  obtain ⟨ws, acc, pre', t1, t2, t3, t4, _, _⟩ := flush_tiles (cp_timed ops pre int) w interval percent hwf.shared hok
  refine ⟨?_, ws, t1, t2, fun p hp => ?_⟩
  · intro t n h0
    have hb : s.byType.find t = positive n :=
      stored_byType w t (CPWf ops pre) (cp_local ops pre int) (fun s m h => cpwf_process ops pre int w h m)
        (fun s i p h => cpwf_flush ops pre int w i p h)
        (fun s i p h => ⟨fun e => ((flush_recv (cp_timed ops pre int) w i p h.shared).1 e).2,
          fun e => ((flush_recv (cp_timed ops pre int) w i p h.shared).2 e).2⟩) os (CPState.init ops plugins, []) 0
        (cpwf_init ops pre plugins) rfl
    have ht := cp_time ops pre int plugins w os t
    change TimeOf s t _ at ht
    unfold positive at hb
    rw [if_neg h0] at hb
    have hk : s.processTimings.find t ≠ none := by
      intro h
      rw [Dict.find_eq_none, ← hwf.shared.recv, ← Dict.find_eq_none, hb] at h
      cases h
    constructor
    · have h1 := summary_receive I ts acc hwf.shared t
      rw [hb] at h1
      change (named _ (flush I w interval percent s).2.1).getLast? = _
      rw [t4]
      exact last_named h1
    · have h1 := summary_receive_time I ts acc hwf.shared t
      rcases ht with ⟨h, _⟩ | h
      · exact absurd h hk
      · rw [h] at h1
        simp only [Option.map_some, Option.toList_some, time_mul] at h1
        change (named _ (flush I w interval percent s).2.1).getLast? = _
        rw [t4]
        exact last_named h1
  · rcases ws with _ | ⟨a, _ | ⟨b, _ | ⟨c, _ | ⟨d, _ | ⟨e, _ | ⟨f, ws⟩⟩⟩⟩⟩⟩ <;> simp at t2
    simp only [Exact.rnd_eq] at t3
    have hd := summary_durations I ts s t3
    change (named _ (flush I w interval percent s).2.1).getLast? = _
    rw [t4]
    simp only [flushKinds, List.zip_cons_cons, List.zip_nil_right, List.mem_cons, List.not_mem_nil, or_false] at hp
    rcases hp with rfl | rfl | rfl | rfl | rfl
    · have := hd (c!"counter", .flt (.fin (w.clk a.2 - w.clk a.1))) (by simp); rw [time_mul] at this; exact last_named this
    · have := hd (c!"timer", .flt (.fin (w.clk b.2 - w.clk b.1))) (by simp); rw [time_mul] at this; exact last_named this
    · have := hd (c!"gauge", .flt (.fin (w.clk c.2 - w.clk c.1))) (by simp); rw [time_mul] at this; exact last_named this
    · have := hd (c!"meter", .flt (.fin (w.clk d.2 - w.clk d.1))) (by simp); rw [time_mul] at this; exact last_named this
    · have := hd (c!"plugin", .flt (.fin (w.clk e.2 - w.clk e.1))) (by simp); rw [time_mul] at this; exact last_named this

theorem tiles_val {w : World} {acc : List PerMetric} : ∀ (ks : List Str) (ws : List (Nat × Nat)), ws.length = ks.length →
    (acc.map fun (p : PerMetric) => (p.1, p.2.2)) =
      List.zipWith (fun k (v : Nat × Nat) => (k, Num.flt (.fin (w.clk v.2 - w.clk v.1)))) ks ws →
    ∀ (n : Num) (x : ℚ), numVal n = some x →
    numVal (acc.foldl (fun (a : Num) (p : PerMetric) => a.add p.2.2) n) = some (x + (ws.map fun v => w.clk v.2 - w.clk v.1).sum) := by
  induction acc with
  | nil =>
    intro ks ws hl h n x hn
    rcases ws with _ | ⟨a, ws⟩
    · simpa using hn
    · rcases ks with _ | ⟨k, ks⟩
      · simp at hl
      · simp at h
  | cons q acc ih =>
    intro ks ws hl h n x hn
    rcases ws with _ | ⟨a, ws⟩
    · simp at h
    · rcases ks with _ | ⟨k, ks⟩
      · simp at hl
      · simp only [List.map_cons, List.zipWith_cons_cons, List.cons.injEq] at h
        have hq : numVal q.2.2 = some (w.clk a.2 - w.clk a.1) := by
          rw [congrArg Prod.snd h.1]; rfl
        have := ih ks ws (by simpa using hl) h.2 _ _ (numVal_add hn hq)
        simp only [List.foldl_cons, List.map_cons, List.sum_cons]
        rw [this]; congr 1; ring

/-- C145: after a completed flush the status page shows the sums of these times, in seconds; on the default processor. -/
theorem C145_status (ops : PluginOps PF PM) (plugins : List PF) (w : World) (os : List Op) (interval percent : ℤ) :
    let s := (runOps (messageProcessor ops) w (MPState.init ops plugins) os).1
    let r := flush (messageProcessor ops) w interval percent s
    r.2.2 = none →
    Amount r.1.lastProcess (workedSince (messageProcessor ops) w (fun _ => True) (MPState.init ops plugins) 0 os) ∧
    ∃ ws, Tiles (s.ticks + 1) ws r.1.ticks ∧ ws.length = 5 ∧ Amount r.1.lastFlush (ws.map fun v => w.clk v.2 - w.clk v.1).sum := by
  intro s r hok
  have hwf : MPWf ops s := mpwf_runOps ops w (mpwf_init ops plugins) os
  obtain ⟨ws, acc, pre', t1, t2, t3, t4, t5, t6⟩ := flush_tiles (mp_timed ops) w interval percent hwf.shared hok
  have htot := stored_total w (MPWf ops) (mp_local ops) (fun s m h => mpwf_process ops w h m)
    (fun s i p h => mpwf_flush ops w i p h)
    (fun s i p h => ⟨fun e => ((flush_recv (mp_timed ops) w i p h.shared).1 e).1,
      fun e => ((flush_recv (mp_timed ops) w i p h.shared).2 e).1⟩) os (MPState.init ops plugins, []) 0 (mpwf_init ops plugins)
    ⟨by simp [MPState.init], by simp [MPState.init, numVal]⟩
  simp only [Exact.rnd_eq] at t3
  refine ⟨?_, ws, t1, t2, ?_⟩
  · rw [show r.1.lastProcess = _ from t6]
    exact amount_of_val htot.2
  · rw [show r.1.lastFlush = _ from t5]
    have := tiles_val flushKinds ws t2 t3 (.int 0) 0 (by simp [numVal])
    rw [zero_add] at this
    exact amount_of_val this

/-- C145: the same on the configurable processor. -/
theorem C145_status_configurable (ops : PluginOps PF PM) (pre int : Str) (plugins : List PF) (w : World) (os : List Op)
    (interval percent : ℤ) :
    let s := (runOps (configurable ops pre int) w (CPState.init ops plugins) os).1
    let r := flush (configurable ops pre int) w interval percent s
    r.2.2 = none →
    Amount r.1.lastProcess (workedSince (configurable ops pre int) w (fun _ => True) (CPState.init ops plugins) 0 os) ∧
    ∃ ws, Tiles (s.ticks + 1) ws r.1.ticks ∧ ws.length = 5 ∧ Amount r.1.lastFlush (ws.map fun v => w.clk v.2 - w.clk v.1).sum := by
  intro s r hok
  have hwf : CPWf ops pre s := cpwf_runOps ops pre int w (cpwf_init ops pre plugins) os
  obtain ⟨ws, acc, pre', t1, t2, t3, t4, t5, t6⟩ := flush_tiles (cp_timed ops pre int) w interval percent hwf.shared hok
  have htot := stored_total w (CPWf ops pre) (cp_local ops pre int) (fun s m h => cpwf_process ops pre int w h m)
    (fun s i p h => cpwf_flush ops pre int w i p h)
    (fun s i p h => ⟨fun e => ((flush_recv (cp_timed ops pre int) w i p h.shared).1 e).1,
      fun e => ((flush_recv (cp_timed ops pre int) w i p h.shared).2 e).1⟩) os (CPState.init ops plugins, []) 0
    (cpwf_init ops pre plugins) ⟨by simp [CPState.init], by simp [CPState.init, numVal]⟩
  simp only [Exact.rnd_eq] at t3
  refine ⟨?_, ws, t1, t2, ?_⟩
  · rw [show r.1.lastProcess = _ from t6]
    exact amount_of_val htot.2
  · rw [show r.1.lastFlush = _ from t5]
    have := tiles_val flushKinds ws t2 t3 (.int 0) 0 (by simp [numVal])
    rw [zero_add] at this
    exact amount_of_val this

end

/-- With a clock that never goes back, the stretches add up to no more than the time of the flush. -/
theorem tiles_sum {w : World} (hw : ForwardClock w) {a b : Nat} {ws : List (Nat × Nat)} (h : Tiles a ws b) :
    0 ≤ (ws.map fun v => w.clk v.2 - w.clk v.1).sum ∧ (ws.map fun v => w.clk v.2 - w.clk v.1).sum ≤ w.clk b - w.clk a := by
  induction h with
  | nil a => simp
  | cons h _ ih =>
    rename_i a j b ws _
    have h1 : w.clk a ≤ w.clk j := hw _ _ (by omega)
    have h2 : w.clk j ≤ w.clk (j + 1) := hw _ _ (by omega)
    simp only [List.map_cons, List.sum_cons]
    constructor <;> linarith [ih.1, ih.2]

/-- C145: with a clock that never goes back, the stretches of a flush add up to no more than the time it takes. -/
theorem C145_within (w : World) (hw : ForwardClock w) (a b : Nat) (ws : List (Nat × Nat)) (h : Tiles a ws b) :
    (∀ v ∈ ws, 0 ≤ w.clk v.2 - w.clk v.1) ∧ (ws.map fun v => w.clk v.2 - w.clk v.1).sum ≤ w.clk b - w.clk a := by
  refine ⟨?_, (tiles_sum hw h).2⟩
  induction h with
  | nil a => simp
  | cons h _ ih =>
    intro v hv
    rcases List.mem_cons.1 hv with rfl | hv
    · exact sub_nonneg.2 (hw _ _ h.le)
    · exact ih v hv

section
attribute [local instance] ratRounding

example : let s := (runOps (messageProcessor noPlugins) exWorld (MPState.init noPlugins []) [.msg c!"a:1|c", .msg c!"b:1|c", .msg c!"t:5|ms"]).1
    let r := flush (messageProcessor noPlugins) exWorld 10000 90 s
    r.2.2 = none ∧ (named c!"statsd.receive.c.duration" r.2.1).map (·.value) = [.flt (.fin 2000)] ∧
    (named c!"statsd.receive.ms.duration" r.2.1).map (·.value) = [.flt (.fin 1000)] ∧
    (named c!"statsd.flush.gauge.duration" r.2.1).map (·.value) = [.flt (.fin 1000)] := by decide +kernel

example : Tiles 7 [(7, 8), (9, 10), (11, 12), (13, 14), (15, 16)] 17 :=
  .cons (by decide) (.cons (by decide) (.cons (by decide) (.cons (by decide) (.cons (by decide) (.nil _)))))

end
end Txstatsd
