import Verif.Lemmas.Gauge
import Verif.Spec.Meter

set_option linter.unusedSectionVars false
set_option linter.unusedSimpArgs false
set_option linter.unusedVariables false

namespace Txstatsd
open Spec
section
variable [Rounding] {PF PM : Type}

/-- A meter running through a history. -/
def Meter.apply (m : Meter) : MeterOp → Meter
  | .mark q => m.mark (.fin q)
  | .report ts => (m.report ts).1

def Meter.run (m : Meter) (h : List MeterOp) : Meter := h.foldl Meter.apply m

/-- A number that is finite. -/
def Num.IsFin (n : Num) : Prop := n.toFloat = .fin n.rat

theorem isFin_cases {n : Num} (h : n.IsFin) : (∃ z, n = .int z) ∨ ∃ q, n = .flt (.fin q) := by
  cases n with
  | int z => exact Or.inl ⟨z, rfl⟩
  | flt x =>
    cases x with
    | fin q => exact Or.inr ⟨q, rfl⟩
    | nan => simp [Num.IsFin, Num.toFloat] at h
    | inf b => simp [Num.IsFin, Num.toFloat] at h

theorem add_fin [Exact] {a b : Num} (ha : a.IsFin) (hb : b.IsFin) : (a.add b).IsFin ∧ (a.add b).rat = a.rat + b.rat := by
  rcases isFin_cases ha with ⟨x, rfl⟩ | ⟨x, rfl⟩ <;> rcases isFin_cases hb with ⟨y, rfl⟩ | ⟨y, rfl⟩ <;>
    simp [Num.IsFin, Num.add, Num.toFloat, Num.rat, Exact.rnd_eq, PyFloat.add]

structure MeterInv (start : ℚ) (h : List MeterOp) (m : Meter) : Prop where
  value : m.value.IsFin
  count : m.count.IsFin
  since : m.value.rat = (marksSince start h).sum
  all : m.count.rat + m.value.rat = (marks h).sum
  poll : m.pollTime = lastReport start h

theorem poll_fst (start : ℚ) (h : List MeterOp) :
    (h.foldl (fun (p : ℚ × List ℚ) o => match o with
    | .mark q => (p.1, p.2 ++ [q])
    | .report ts => (ts, if (ts : ℚ) = p.1 then p.2 else [])) (start, [])).1 = lastReport start h := by
  induction h using List.reverseRecOn with
  | nil => rfl
  | append_singleton h o ih =>
    unfold lastReport at *
    rw [List.foldl_append, List.foldl_append]
    cases o with
    | mark q => exact ih
    | report ts => rfl

theorem marksSince_mark (start : ℚ) (h : List MeterOp) (q : ℚ) :
    marksSince start (h ++ [.mark q]) = marksSince start h ++ [q] := by
  simp [marksSince, List.foldl_append]

theorem marksSince_report (start : ℚ) (h : List MeterOp) (ts : ℤ) :
    marksSince start (h ++ [.report ts]) = if (ts : ℚ) = lastReport start h then marksSince start h else [] := by
  rw [← poll_fst]
  unfold marksSince
  rw [List.foldl_append]
  rfl

theorem meter_report [Exact] {start : ℚ} {h : List MeterOp} {m : Meter} (hm : MeterInv start h m) (ts : ℤ) :
    ((ts : ℚ) = lastReport start h → m.report ts = ({ m with pollTime := ts }, .ok [])) ∧
    ((ts : ℚ) ≠ lastReport start h → ∃ c v,
      m.report ts = ({ m with pollTime := ts, count := c, value := .int 0 },
        .ok [⟨m.pre ++ m.name ++ c!".count", .flt (.fin ((roundHalfAway ((marks h).sum * 1000000) : ℚ) / 1000000)), ts⟩,
             ⟨m.pre ++ m.name ++ c!".rate", .flt (.fin v), ts⟩]) ∧
      v = (roundHalfAway ((marksSince start h).sum / (ts - lastReport start h) * 1000000) : ℚ) / 1000000 ∧
      c.IsFin ∧ c.rat = (marks h).sum) := by
  constructor
  · intro he
    unfold Meter.report; simp only
    rw [if_pos (by rw [hm.poll]; exact he)]
  · intro hne
    obtain ⟨h1, h2⟩ := add_fin hm.count hm.value
    have hd : (ts : ℚ) - lastReport start h ≠ 0 := sub_ne_zero.2 hne
    refine ⟨m.count.add m.value, _, ?_, rfl, h1, by rw [h2, hm.all]⟩
    unfold Meter.report; simp only
    rw [if_neg (by rw [hm.poll]; exact hne)]
    have hv : m.value.toFloat = .fin m.value.rat := hm.value
    have hc : (m.count.add m.value).toFloat = .fin (m.count.add m.value).rat := h1
    rw [hm.all] at h2
    simp only [hv, Exact.rnd_eq, PyFloat.div, hd, if_false, round6, hc, h2, hm.since, hm.poll]

theorem meter_inv [Exact] (name pre : Str) (start : ℚ) (h : List MeterOp) :
    MeterInv start h (Meter.run (Meter.init name pre start) h) := by
  induction h using List.reverseRecOn with
  | nil => exact ⟨by simp [Meter.run, Meter.init, Num.IsFin, Num.toFloat, Num.rat, Exact.rnd_eq],
      by simp [Meter.run, Meter.init, Num.IsFin, Num.toFloat, Num.rat, Exact.rnd_eq], by simp [Meter.run, Meter.init, marksSince, Num.rat],
      by simp [Meter.run, Meter.init, marks, Num.rat], rfl⟩
  | append_singleton h o ih =>
    have e : Meter.run (Meter.init name pre start) (h ++ [o]) = (Meter.run (Meter.init name pre start) h).apply o := by
      simp [Meter.run, List.foldl_append]
    rw [e]
    generalize Meter.run (Meter.init name pre start) h = m at ih
    cases o with
    | mark q =>
      obtain ⟨h1, h2⟩ := add_fin ih.value (b := .flt (.fin q)) rfl
      refine ⟨h1, ih.count, ?_, ?_, ?_⟩
      · rw [marksSince_mark, List.sum_append, List.sum_singleton, ← ih.since]; exact h2
      · simp only [marks, List.filterMap_append, List.filterMap_cons, List.filterMap_nil, List.sum_append,
          List.sum_singleton]
        have := ih.all
        simp only [Meter.apply, Meter.mark]
        rw [h2]
        simp only [marks] at this
        rw [← this]; simp only [Num.rat]; ring
      · simp only [Meter.apply, Meter.mark, lastReport, List.foldl_append]; exact ih.poll
    | report ts =>
      obtain ⟨k1, k2⟩ := meter_report ih ts
      have hma : marks (h ++ [.report ts]) = marks h := by simp [marks]
      have hla : lastReport start (h ++ [.report ts]) = ts := by simp [lastReport, List.foldl_append]
      by_cases he : (ts : ℚ) = lastReport start h
      · have := k1 he
        simp only [Meter.apply, this]
        refine ⟨ih.value, ih.count, ?_, ?_, ?_⟩
        · rw [marksSince_report, if_pos he]; exact ih.since
        · rw [hma]; exact ih.all
        · rw [hla]
      · obtain ⟨c, v, h1, _, h2, h3⟩ := k2 he
        simp only [Meter.apply, h1]
        refine ⟨by simp [Num.IsFin, Num.toFloat, Num.rat, Exact.rnd_eq], h2, ?_, ?_, ?_⟩
        · rw [marksSince_report, if_neg he]; simp [Num.rat]
        · rw [hma, ← h3]; simp [Num.rat]
        · rw [hla]

theorem roundHalfAway_near (x : ℚ) : |(roundHalfAway x : ℚ) - x| ≤ 1 / 2 := by
  unfold roundHalfAway
  split_ifs with h
  · have h1 := Int.floor_le (x + 1 / 2)
    have h2 := Int.lt_floor_add_one (x + 1 / 2)
    rw [abs_le]; constructor <;> linarith
  · have h1 := Int.floor_le (-x + 1 / 2)
    have h2 := Int.lt_floor_add_one (-x + 1 / 2)
    rw [abs_le]; push_cast; constructor <;> linarith

theorem near6 (x : ℚ) : Near6 ((roundHalfAway (x * 1000000) : ℚ) / 1000000) x := by
  refine ⟨⟨_, rfl⟩, ?_⟩
  have h := abs_le.1 (roundHalfAway_near (x * 1000000))
  rw [abs_le]
  constructor
  · rw [neg_le_sub_iff_le_add, ← sub_le_iff_le_add, le_div_iff₀ (by norm_num)]; linarith [h.1]
  · rw [sub_le_iff_le_add, div_le_iff₀ (by norm_num)]; linarith [h.2]

/-! ## In the processor -/

theorem meter_report_ok [Exact] (m : Meter) (ts : ℤ) : ∃ l, (m.report ts).2 = .ok l := by
  unfold Meter.report; simp only
  split_ifs with h
  · exact ⟨_, rfl⟩
  · obtain ⟨x, hx⟩ := div_ok (a := m.value.toFloat) (r := rnd ((ts : ℚ) - m.pollTime)) (by
      rw [Exact.rnd_eq]; intro h'; simp only [PyFloat.fin.injEq] at h'; exact h (sub_eq_zero.1 h'))
    simp only [hx]
    exact ⟨_, rfl⟩

theorem meterRes_ok [Exact] (ts : ℤ) (d : Dict Meter) :
    meterRes ts d = (d.map fun p => (p.1, (p.2.report ts).1),
      d.map fun p => (match (p.2.report ts).2 with | .ok l => l | .error _ => []), none) := by
  unfold meterRes
  rw [runElems_ok (fun _ (m : Meter) => (m.report ts).1) (fun _ m => (m.report ts).2.map some)
    (fun _ m => some (match (m.report ts).2 with | .ok l => l | .error _ => []))]
  · congr 1
    congr 1
    induction d with
    | nil => rfl
    | cons p ps ih => simp [ih]
  · intro p _
    obtain ⟨l, hl⟩ := meter_report_ok p.2 ts
    rw [hl]; rfl

/-- With exact arithmetic, whole seconds and sane percentages every flush reports all meters. -/
theorem flush_meters [Exact] (ops : PluginOps PF PM) (w : World) {interval : ℤ} (hi : 1000 ≤ interval) {percent : ℤ}
    (h50 : 50 ≤ percent) (h100 : percent ≤ 100) {s : MPState PF PM} (hs : MPWf ops s) :
    (flush (messageProcessor ops) w interval percent s).1.meters =
      s.meters.map fun p => (p.1, (p.2.report (truncQ (w.clk s.ticks))).1) := by
  rw [flush_mp ops w interval percent hs, counter_elems (fdiv_pos hi), timer_elems h50 h100, meterRes_ok]
  unfold flushForm
  simp only
  obtain ⟨tk, pm, gs, e, he, hk, _⟩ := plugin_phase (messageProcessor ops) w (Int.fdiv interval 1000)
    (truncQ (w.clk s.ticks))
    { s with
      ticks := s.ticks + 10
      counters := s.counters.map fun p => (p.1, Num.int 0)
      timers := s.timers.map fun p => (p.1, ([] : List PyFloat))
      meters := s.meters.map fun p => (p.1, (p.2.report (truncQ (w.clk s.ticks))).1) } hs.shared.pluginMetrics
  simp only at he hk
  rw [he]
  cases e with
  | some e => rfl
  | none =>
    simp only [runSummary]
    split <;> rfl

theorem applyMeter_find {pre : Str} {now : ℚ} {d : Dict Meter} {msg k : Str} :
    (∃ v, Reading c!"m" k msg v ∧
      (applyMeter pre now d (meterEffect msg)).find k = some (((d.find k).getD (Meter.init k pre now)).mark v)) ∨
    ((∀ v, ¬ Reading c!"m" k msg v) ∧ (applyMeter pre now d (meterEffect msg)).find k = d.find k) := by
  rcases he : meterEffect msg with _ | ⟨k', x⟩
  · right
    refine ⟨fun v hv => ?_, rfl⟩
    rw [meterEffect_iff.2 hv] at he; simp at he
  · by_cases hk : k = k'
    · subst hk
      exact Or.inl ⟨x, meterEffect_iff.1 he, Dict.find_put_self _ _ _⟩
    · right
      refine ⟨fun v hv => ?_, Dict.find_put_ne _ _ hk⟩
      rw [meterEffect_iff.2 hv] at he; simp at he; exact hk he.1

/-- The stored meter is the run of its history from its first mark on. -/
theorem stored_meter [Exact] (ops : PluginOps PF PM) (w : World) (key : Str) (os : List Op) (hw : WholeSeconds os)
    (hp : Percents os) (s : MPState PF PM) (hs : MPWf ops s) (h : List MeterOp)
    (hh : MeterHistory (messageProcessor ops) w key s os h) :
    (∀ m, s.meters.find key = some m →
      (runOps (messageProcessor ops) w s os).1.meters.find key = some (m.run h)) ∧
    (s.meters.find key = none →
      (marks h = [] → (runOps (messageProcessor ops) w s os).1.meters.find key = none) ∧
      (marks h ≠ [] → ∃ n pre rest, h = pre ++ rest ∧ marks pre = [] ∧
        (runOps (messageProcessor ops) w s os).1.meters.find key =
          some ((Meter.init key c!"stats.meter" (w.clk n)).run rest))) := by
  -- the emitted part of `runOps` does not matter
  have hrun : ∀ (o : Op) (os : List Op) (c : MPState PF PM × List Datapoint),
      ((o :: os).foldl (Op.apply (messageProcessor ops) w) c).1 =
      (runOps (messageProcessor ops) w (Op.apply (messageProcessor ops) w c o).1 os).1 := by
    have aux : ∀ (os : List Op) (a b : MPState PF PM × List Datapoint), a.1 = b.1 →
        (os.foldl (Op.apply (messageProcessor ops) w) a).1 = (os.foldl (Op.apply (messageProcessor ops) w) b).1 := by
      intro os
      induction os with
      | nil => intro a b h; exact h
      | cons o os ih =>
        intro a b h
        refine ih _ _ ?_
        cases o <;> simp [Op.apply, h]
    intro o os c
    rw [List.foldl_cons]
    exact aux os _ _ rfl
  induction hh with
  | nil => exact ⟨fun m hm => hm, fun hn => ⟨fun _ => hn, fun h => absurd rfl h⟩⟩
  | @mark s msg q os h hr _ ih =>
    have ih := ih (fun i p h => hw i p (by simp [h])) (fun i p h => hp i p (by simp [h])) (mpwf_process ops w hs msg)
    have e : runOps (messageProcessor ops) w s (.msg msg :: os) =
      (Op.msg msg :: os).foldl (Op.apply (messageProcessor ops) w) (s, []) := rfl
    rw [e, hrun]
    simp only [Op.apply]
    have hf : (process (messageProcessor ops) w s msg).1.meters.find key =
        some (((s.meters.find key).getD (Meter.init key c!"stats.meter" (w.clk (s.ticks + 1)))).mark (.fin q)) := by
      rw [process_meters]
      rcases applyMeter_find (pre := c!"stats.meter") (now := w.clk (s.ticks + 1)) (d := s.meters) (msg := msg) (k := key)
        with ⟨v, hv, hf⟩ | ⟨hn, _⟩
      · rw [hf, reading_unique hv hr]
      · exact absurd hr (hn _)
    constructor
    · intro m hm
      rw [hm] at hf
      exact ih.1 _ hf
    · intro hn
      rw [hn] at hf
      refine ⟨fun h => by simp [marks] at h, fun _ => ⟨s.ticks + 1, [], .mark q :: h, rfl, rfl, ?_⟩⟩
      exact ih.1 _ hf
  | @skip s msg os h hr _ ih =>
    have ih := ih (fun i p h => hw i p (by simp [h])) (fun i p h => hp i p (by simp [h])) (mpwf_process ops w hs msg)
    have e : runOps (messageProcessor ops) w s (.msg msg :: os) =
      (Op.msg msg :: os).foldl (Op.apply (messageProcessor ops) w) (s, []) := rfl
    rw [e, hrun]
    simp only [Op.apply]
    have hf : (process (messageProcessor ops) w s msg).1.meters.find key = s.meters.find key := by
      rw [process_meters]
      rcases applyMeter_find (pre := c!"stats.meter") (now := w.clk (s.ticks + 1)) (d := s.meters) (msg := msg) (k := key)
        with ⟨v, hv, hf⟩ | ⟨_, hf⟩
      · exact absurd hv (hr _)
      · exact hf
    rw [hf] at ih
    exact ih
  | @flush s i p os h _ ih =>
    obtain ⟨h50, h100⟩ := hp i p (by simp)
    have ih := ih (fun i p h => hw i p (by simp [h])) (fun i p h => hp i p (by simp [h])) (mpwf_flush ops w i p hs)
    have e : runOps (messageProcessor ops) w s (.flush i p :: os) =
      (Op.flush i p :: os).foldl (Op.apply (messageProcessor ops) w) (s, []) := rfl
    rw [e, hrun]
    simp only [Op.apply]
    have hf : (Txstatsd.flush (messageProcessor ops) w i p s).1.meters.find key =
        (s.meters.find key).map fun m => (m.report (truncQ (w.clk s.ticks))).1 := by
      rw [flush_meters ops w (hw i p (by simp)) h50 h100 hs]
      exact Dict.find_map s.meters (fun _ m => (m.report (truncQ (w.clk s.ticks))).1) key
    rw [hf] at ih
    constructor
    · intro m hm
      rw [hm] at ih
      exact ih.1 _ rfl
    · intro hn
      rw [hn] at ih
      obtain ⟨i1, i2⟩ := ih.2 rfl
      refine ⟨fun hm => i1 (by simpa [marks] using hm), fun hm => ?_⟩
      obtain ⟨n, pre, rest, rfl, h2, h3⟩ := i2 (by simpa [marks] using hm)
      exact ⟨n, .report (truncQ (w.clk s.ticks)) :: pre, rest, rfl, by simpa [marks] using h2, h3⟩

theorem named_meter (ops : PluginOps PF PM) (hq : Quiet ops c!"stats.meter.") (w : World) (interval percent : ℤ)
    {s : MPState PF PM} (hs : MPWf ops s) (hok : (flush (messageProcessor ops) w interval percent s).2.2 = none) (key : Str)
    (hnc : (c!"meter." ++ key ++ c!".count") ∉ s.counters.keys) {m : Meter} (hm : s.meters.find key = some m) :
    named (c!"stats.meter." ++ key ++ c!".count") (flush (messageProcessor ops) w interval percent s).2.1 =
      named (c!"stats.meter." ++ key ++ c!".count")
        (match (m.report (truncQ (w.clk s.ticks))).2 with | .ok l => l | .error _ => []) := by
  obtain ⟨_, _, hme, gs, acc, _, hgs, _, hout⟩ := flush_complete ops w interval percent hs hok
  obtain ⟨cc, tt, gg, mm, pp, su, he, hcc, hcn, ht, hg, hmm, hpp, _, hsu⟩ := flush_sections ops w interval percent hs
  generalize hnm : c!"stats.meter." ++ key ++ c!".count" = nm at *
  have hnm' : nm = c!"stats.meter." ++ (key ++ c!".count") := by rw [← hnm, List.append_assoc]
  have hpre : ∀ (l : List Datapoint) (p : Str), (∀ d ∈ l, p <+: d.name) → ¬ (p <+: nm) → named nm l = [] := by
    intro l p h hp
    unfold named; rw [List.filter_eq_nil_iff]
    intro d hd hn
    have hn : d.name = nm := by simpa using hn
    exact hp (hn ▸ h d hd)
  have e0 : named nm (runElems (fun _ _ => Num.int 0) (counterGroup (Int.fdiv interval 1000)
      (truncQ (w.clk s.ticks))) s.counters).2.1.flatten = [] := by
    rw [← hcc]
    unfold named; rw [List.filter_eq_nil_iff]
    intro d hd hn
    obtain ⟨_, k, hk, h⟩ := hcn d hd
    have hn : d.name = nm := by simpa using hn
    rw [hn, hnm'] at h
    rcases h with h | h
    · have : c!"meter." ++ key ++ c!".count" = k := by
        have : c!"stats." ++ (c!"meter." ++ key ++ c!".count") = c!"stats." ++ k := by
          rw [← h]; simp
        exact List.append_cancel_left this
      rw [this] at hnc; exact hnc hk
    · simp at h
  have e1 : named nm (runElems (fun _ _ => []) (timerGroup percent (truncQ (w.clk s.ticks))) s.timers).2.1.flatten = [] := by
    refine hpre _ c!"stats.timers." ?_ (by simp [hnm', List.cons_prefix_cons])
    intro d hd
    obtain ⟨gr, hgr, hd⟩ := List.mem_flatten.1 hd
    obtain ⟨⟨k, v⟩, hp, hgr⟩ := runElems_groups _ _ _ gr hgr
    exact timerGroup_prefix hgr d hd
  have e2 : named nm (s.gauges.map fun p => ⟨c!"stats.gauge." ++ p.2 ++ c!".value", Num.flt p.1, truncQ (w.clk s.ticks)⟩) = [] := by
    refine hpre _ c!"stats.gauge." ?_ (by simp [hnm', List.cons_prefix_cons])
    intro d hd
    obtain ⟨p, _, rfl⟩ := List.mem_map.1 hd
    simp only [List.append_assoc]; exact List.prefix_append _ _
  have e4 : named nm gs.flatten = [] := by
    unfold named; rw [List.filter_eq_nil_iff]
    intro d hd hn
    have hn : d.name = nm := by simpa using hn
    obtain ⟨gr, hgr, hd⟩ := List.mem_flatten.1 hd
    obtain ⟨t, k, m, l, h0, h, hd⟩ := hgs gr hgr d hd
    apply hq _ _ h0 _ _ _ _ _ h d hd
    rw [hn, hnm']; exact List.prefix_append _ _
  have e5 : named nm (numStatsPoint (messageProcessor ops) acc (truncQ (w.clk s.ticks)) ::
      (acc.flatMap (perMetricPoints (messageProcessor ops) (truncQ (w.clk s.ticks))) ++
         s.processTimings.flatMap fun p => receivePoints (messageProcessor ops) (truncQ (w.clk s.ticks)) p.1
          ((s.byType.find p.1).getD 0) p.2)) = [] := by
    refine hpre _ c!"statsd." (summary_prefix ops _ _ _) (by simp [hnm', List.cons_prefix_cons])
  rw [hout]
  unfold named at e0 e1 e2 e4 e5 ⊢
  simp only [List.filter_append, e0, e1, e2, e4, e5, List.append_nil, List.nil_append]
  have hmp := hs.meterPre
  have hmw := hs.shared.meters
  generalize truncQ (w.clk s.ticks) = ts at *
  clear e0 e1 e2 e4 e5 hout hcn ht hg hmm hpp hsu he hcc hgs hnc
  suffices H : ∀ d : Dict Meter, (meterRes ts d).2.2 = none → Dict.find d key = some m →
      (∀ p ∈ d, p.2.pre = c!"stats.meter." ∧ p.2.name = p.1) → Dict.Wf d →
      (meterRes ts d).2.1.flatten.filter (fun d => decide (d.name = nm)) =
        (match (m.report ts).2 with | .ok l => l | .error _ => []).filter (fun d => decide (d.name = nm)) by
    exact H s.meters hme hm hmp hmw
  clear hme hm hmp hmw
  -- the meter phase ran over all meters; only those under `key` use the name
  have aux : ∀ d : Dict Meter, (∀ p ∈ d, p.2.pre = c!"stats.meter." ∧ p.2.name = p.1) → key ∉ Dict.keys d →
      (meterRes ts d).2.1.flatten.filter (fun d => decide (d.name = nm)) = [] := by
    intro d hp hk
    rw [List.filter_eq_nil_iff]
    intro x hx hn
    have hn : x.name = nm := by simpa using hn
    obtain ⟨gr, hgr, hx⟩ := List.mem_flatten.1 hx
    obtain ⟨⟨k, m⟩, hmem, hgr⟩ := runElems_groups _ _ _ gr hgr
    cases hr : (m.report ts).2 with
    | error e => simp [hr, Except.map] at hgr
    | ok l =>
      simp only [hr, Except.map, Except.ok.injEq, Option.some.injEq] at hgr
      subst hgr
      obtain ⟨_, h2⟩ := meter_report_points hr x hx
      obtain ⟨p1, p2⟩ := hp _ hmem
      simp only at p1 p2
      rw [hn, p1, p2, hnm', List.append_assoc, List.append_assoc] at h2
      have hkk : k = key := by
        rcases h2 with h2 | h2
        · have := List.append_cancel_left h2
          exact (List.append_cancel_right this).symm
        · have := List.append_cancel_left h2
          have hl := congrArg List.getLast? this
          simp at hl
      exact hk (hkk ▸ Dict.mem_keys_of_mem hmem)
  intro d
  induction d with
  | nil => intro _ hm; simp [Dict.find] at hm
  | cons p ps ih =>
    intro hme hm hmp hmw
    obtain ⟨k, m'⟩ := p
    have hw' : Dict.Wf ps := (List.nodup_cons.1 hmw).2
    have hkn : k ∉ Dict.keys ps := (List.nodup_cons.1 hmw).1
    unfold meterRes at hme ⊢
    rw [runElems] at hme ⊢
    cases hr : (m'.report ts).2 with
    | error e => simp [hr, Except.map] at hme
    | ok l =>
      have hmap : Except.map some (m'.report ts).2 = .ok (some l) := by rw [hr]; rfl
      rw [hmap] at hme
      have hmap' : Except.map some (Except.ok l : Except PyErr (List Datapoint)) = .ok (some l) := rfl
      rw [hmap']
      simp only at hme ⊢
      simp only [Option.toList_some, List.singleton_append, List.flatten_cons, List.filter_append]
      by_cases hk : k = key
      · subst hk
        simp only [Dict.find, if_true, Option.some.injEq] at hm
        subst hm
        have := aux ps (fun p h => hmp p (by simp [h])) hkn
        unfold meterRes at this
        rw [this, List.append_nil, hr]
      · have hm' : Dict.find ps key = some m := by simpa [Dict.find, hk] using hm
        have h1 := ih hme hm' (fun p h => hmp p (by simp [h])) hw'
        unfold meterRes at h1
        rw [h1]
        have h2 := aux [(k, m')] (fun p h => hmp p (by simp at h; simp [h])) (by simp [Dict.keys, Ne.symm hk])
        unfold meterRes at h2
        rw [runElems] at h2
        rw [hmap] at h2
        simp only [runElems, Option.toList_some, List.singleton_append, List.flatten_cons, List.flatten_nil, List.append_nil] at h2
        rw [h2, List.nil_append]

end
end Txstatsd
