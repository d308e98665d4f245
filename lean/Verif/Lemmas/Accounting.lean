import Verif.Lemmas.Meter
import Verif.Spec.Accounting
import Verif.Lemmas.Isolation

set_option linter.unusedSectionVars false
set_option linter.unusedSimpArgs false
set_option linter.unusedVariables false

namespace Txstatsd
open Spec
section
variable [Rounding] {C T G PF PM : Type}

/-- The summary part of a flush. -/
def summaryPoints (I : Impl C T G PF PM) (ts : ℤ) (acc : List PerMetric) (s : PS C T G PF PM) : List Datapoint :=
  numStatsPoint I acc ts :: (acc.flatMap (perMetricPoints I ts) ++
    s.processTimings.flatMap fun p => receivePoints I ts p.1 ((s.byType.find p.1).getD 0) p.2)

theorem acc_shape {acc : List PerMetric} {l : List (Str × Nat)} (h : (acc.map fun (p : PerMetric) => (p.1, p.2.1)) = l) :
    (acc.map fun (p : PerMetric) => p.2.1) = l.map Prod.snd := by
  rw [← h, List.map_map]; rfl

theorem named_append (n : Str) (a b : List Datapoint) : named n (a ++ b) = named n a ++ named n b := by
  simp [named, List.filter_append]

theorem named_cons (n : Str) (a : Datapoint) (b : List Datapoint) : named n (a :: b) = named n [a] ++ named n b :=
  named_append n [a] b

theorem named_nil_of {n : Str} {l : List Datapoint} (h : ∀ d ∈ l, d.name ≠ n) : named n l = [] := by
  unfold named; rw [List.filter_eq_nil_iff]
  intro d hd hn
  exact h d hd (by simpa using hn)

theorem named_prefix_nil {n p : Str} {l : List Datapoint} (h : ∀ d ∈ l, p <+: d.name) (hp : ¬ (p <+: n)) :
    named n l = [] := named_nil_of fun d hd he => hp (he ▸ h d hd)

theorem recv_name (I : Impl C T G PF PM) (ts : ℤ) (s : PS C T G PF PM) :
    ∀ d ∈ s.processTimings.flatMap (fun p => receivePoints I ts p.1 ((s.byType.find p.1).getD 0) p.2),
      I.internalPrefix ++ c!"receive." <+: d.name := by
  intro d hd
  simp only [List.mem_flatMap, receivePoints, List.mem_cons, List.not_mem_nil, or_false] at hd
  obtain ⟨p, _, rfl | rfl⟩ := hd <;> simp only [List.append_assoc, List.prefix_append_right_inj] <;>
    exact List.prefix_append _ _

theorem summary_numStats (I : Impl C T G PF PM) (ts : ℤ) (acc : List PerMetric) (s : PS C T G PF PM) :
    named (I.internalPrefix ++ c!"numStats") (summaryPoints I ts acc s) = [numStatsPoint I acc ts] := by
  unfold summaryPoints
  have h1 : named (I.internalPrefix ++ c!"numStats") (acc.flatMap (perMetricPoints I ts)) = [] := by
    apply named_nil_of
    intro d hd
    simp only [List.mem_flatMap, perMetricPoints, List.mem_cons, List.not_mem_nil, or_false] at hd
    obtain ⟨p, _, rfl | rfl⟩ := hd <;> simp
  have h2 := named_prefix_nil (n := I.internalPrefix ++ c!"numStats") (recv_name I ts s)
    (by simp [List.prefix_append_right_inj, List.cons_prefix_cons])
  rw [named_cons, named_append, h1, h2]
  simp [named, numStatsPoint]

theorem summary_counts (I : Impl C T G PF PM) (ts : ℤ) {acc : List PerMetric} (s : PS C T G PF PM)
    {n0 n1 n2 n3 n4 : Nat}
    (h : (acc.map fun (p : PerMetric) => (p.1, p.2.1)) =
      [(c!"counter", n0), (c!"timer", n1), (c!"gauge", n2), (c!"meter", n3), (c!"plugin", n4)]) :
    ∀ p ∈ [(c!"counter", n0), (c!"timer", n1), (c!"gauge", n2), (c!"meter", n3), (c!"plugin", n4)],
    named (I.internalPrefix ++ c!"flush." ++ p.1 ++ c!".count") (summaryPoints I ts acc s) =
      [⟨I.internalPrefix ++ c!"flush." ++ p.1 ++ c!".count", .int p.2, ts⟩] := by
  obtain ⟨d0, d1, d2, d3, d4, rfl⟩ : ∃ d0 d1 d2 d3 d4, acc =
      [(c!"counter", n0, d0), (c!"timer", n1, d1), (c!"gauge", n2, d2), (c!"meter", n3, d3), (c!"plugin", n4, d4)] := by
    rcases acc with _ | ⟨a, _ | ⟨b, _ | ⟨c, _ | ⟨d, _ | ⟨e, _ | ⟨f, acc⟩⟩⟩⟩⟩⟩ <;> simp at h
    obtain ⟨⟨h1, h2⟩, ⟨h3, h4⟩, ⟨h5, h6⟩, ⟨h7, h8⟩, ⟨h9, h10⟩⟩ := h
    refine ⟨a.2.2, b.2.2, c.2.2, d.2.2, e.2.2, ?_⟩
    rw [← h1, ← h2, ← h3, ← h4, ← h5, ← h6, ← h7, ← h8, ← h9, ← h10]
  intro p hp
  have hpn : p.1 ∈ [c!"counter", c!"timer", c!"gauge", c!"meter", c!"plugin"] := by
    simp only [List.mem_cons, List.not_mem_nil, or_false] at hp ⊢
    rcases hp with rfl | rfl | rfl | rfl | rfl <;> simp
  have h2 := named_prefix_nil (n := I.internalPrefix ++ c!"flush." ++ p.1 ++ c!".count") (recv_name I ts s)
    (by simp [List.prefix_append_right_inj, List.cons_prefix_cons])
  unfold summaryPoints
  rw [named_cons, named_append, h2]
  simp only [List.mem_cons, List.not_mem_nil, or_false] at hp
  rcases hp with rfl | rfl | rfl | rfl | rfl <;>
    simp [named, numStatsPoint, perMetricPoints, List.filter_cons]

theorem summary_receive (I : Impl C T G PF PM) (ts : ℤ) (acc : List PerMetric) {s : PS C T G PF PM} (hs : Shared s)
    (t : Str) :
    named (I.internalPrefix ++ c!"receive." ++ t ++ c!".count") (summaryPoints I ts acc s) =
      ((s.byType.find t).map fun n =>
        (⟨I.internalPrefix ++ c!"receive." ++ t ++ c!".count", .int n, ts⟩ : Datapoint)).toList := by
  unfold summaryPoints
  have h1 : named (I.internalPrefix ++ c!"receive." ++ t ++ c!".count") (acc.flatMap (perMetricPoints I ts)) = [] := by
    apply named_nil_of
    intro d hd
    simp only [List.mem_flatMap, perMetricPoints, List.mem_cons, List.not_mem_nil, or_false] at hd
    obtain ⟨p, _, rfl | rfl⟩ := hd <;> simp
  have h0 : named (I.internalPrefix ++ c!"receive." ++ t ++ c!".count") [numStatsPoint I acc ts] = [] := by
    simp [named, numStatsPoint]
  rw [named_cons, named_append, h1, h0, List.nil_append, List.nil_append]
  have hk := hs.recv
  have hw := hs.processTimings
  -- one block per type
  have hblock : ∀ (p : Str × Num), named (I.internalPrefix ++ c!"receive." ++ t ++ c!".count")
      (receivePoints I ts p.1 ((s.byType.find p.1).getD 0) p.2) =
      if p.1 = t then [⟨I.internalPrefix ++ c!"receive." ++ t ++ c!".count", .int ((s.byType.find t).getD 0 : Nat), ts⟩] else [] := by
    intro p
    have hd : ¬ (p.1 ++ c!".duration" = t ++ c!".count") := by
      intro h
      have hl := congrArg List.getLast? h
      simp at hl
    by_cases hp : p.1 = t
    · subst hp
      simp [named, receivePoints, List.filter_cons]
    · simp only [named, receivePoints, List.filter_cons, List.append_assoc, List.append_cancel_left_eq, hd,
        List.append_cancel_right_eq, hp, decide_false, Bool.false_eq_true, if_false, List.filter_nil]
  have hfm : ∀ l : Dict Num, Dict.Wf l → named (I.internalPrefix ++ c!"receive." ++ t ++ c!".count")
      (l.flatMap fun p => receivePoints I ts p.1 ((s.byType.find p.1).getD 0) p.2) =
      if t ∈ Dict.keys l then [⟨I.internalPrefix ++ c!"receive." ++ t ++ c!".count", .int ((s.byType.find t).getD 0 : Nat), ts⟩] else [] := by
    intro l hl
    induction l with
    | nil => rfl
    | cons p ps ih =>
      have hl' := List.nodup_cons.1 hl
      rw [List.flatMap_cons, named_append, hblock, ih hl'.2]
      by_cases hp : p.1 = t
      · have : t ∉ Dict.keys ps := hp ▸ hl'.1
        simp [hp, this]
      · have : ¬ t = p.1 := fun h => hp h.symm
        simp [hp, this]
  rw [hfm _ hw, ← hk]
  split_ifs with h
  · rw [← Dict.find_isSome_iff, Option.isSome_iff_exists] at h
    obtain ⟨n, hn⟩ := h
    simp [hn]
  · rw [(Dict.find_eq_none _ _).2 h]; rfl

/-! ## byType -/

theorem dispatch_handled {I : Impl C T G PF PM} {w : World} {s : PS C T G PF PM} {msg : Str} {m : Metric} :
    (∃ r, dispatch I w s msg m = some r) ↔ (m.mtype ∈ builtinTypes ∨ m.mtype ∈ s.plugins.keys) := by
  unfold dispatch builtinTypes
  by_cases h1 : m.mtype = c!"c"
  · simp [h1]
  by_cases h2 : m.mtype = c!"ms"
  · simp [h2]
  by_cases h3 : m.mtype = c!"g"
  · simp [h3]
  by_cases h4 : m.mtype = c!"m"
  · simp [h4]
  simp only [h1, h2, h3, h4, if_false, List.mem_cons, List.not_mem_nil, or_false, false_or]
  rw [← Dict.find_isSome_iff, Option.isSome_iff_exists]
  cases s.plugins.find m.mtype <;> simp

theorem process_byType {I : Impl C T G PF PM} (hI : I.Local) (w : World) (s : PS C T G PF PM) (msg t : Str) :
    (Handled I w s t msg → (process I w s msg).1.byType.find t = some ((s.byType.find t).getD 0 + 1)) ∧
    (¬ Handled I w s t msg → (process I w s msg).1.byType.find t = s.byType.find t) := by
  unfold Handled
  cases hp : parseMessage msg with
  | none =>
    have h0 : ∀ key fields, ¬ Parsed msg t key fields := by
      intro k f h; rw [parsed_iff, hp] at h; cases h
    constructor
    · rintro ⟨⟨k, f, h⟩, _⟩; exact absurd h (h0 k f)
    · intro _; simp [process, hp]
  | some m =>
    have hpp : (∃ key fields, Parsed msg t key fields) ↔ m.mtype = t := by
      constructor
      · rintro ⟨k, f, h⟩; rw [parsed_iff, hp] at h; simp only [Option.some.injEq] at h; rw [h]
      · rintro rfl; exact ⟨m.key, m.fields, parsed_iff.2 hp⟩
    rw [hpp]
    have hd := dispatch_handled (I := I) (w := w) (s := { s with ticks := s.ticks + 1 }) (msg := msg) (m := m)
    simp only [process, hp, processMessage]
    cases hdd : dispatch I w { s with ticks := s.ticks + 1 } msg m with
    | none =>
      rw [hdd] at hd
      constructor
      · rintro ⟨rfl, h, _⟩
        obtain ⟨r, hr⟩ := hd.2 h; cases hr
      · intro _; rfl
    | some r =>
      have hreg : m.mtype ∈ builtinTypes ∨ m.mtype ∈ s.plugins.keys := hd.1 ⟨r, hdd⟩
      obtain ⟨_, hb, _⟩ := dispatch_recv hI w hdd
      simp only [finish]
      cases he : r.2.exc with
      | none =>
        simp only [account, hb, he]
        constructor
        · rintro ⟨rfl, _⟩; rw [Dict.find_put_self]
        · intro h
          rw [Dict.find_put_ne]
          rintro rfl; exact h ⟨rfl, hreg, trivial⟩
      | some e =>
        simp only [he, reduceCtorEq, and_false, false_implies, not_false_eq_true, forall_true_left, true_and, hb]

theorem handledSince_step (I : Impl C T G PF PM) (w : World) (t : Str) (s : PS C T G PF PM) (n : Nat) (o : Op)
    (os : List Op) (out : List Datapoint) :
    handledSince I w t s n (o :: os) =
      handledSince I w t (Op.apply I w (s, out) o).1 (handledSince I w t s n [o]) os := by
  cases o <;> rfl

/-- A count, absent when zero. -/
def positive (n : Nat) : Option Nat := if n = 0 then none else some n

/-- The stored count of a type is the number of handled messages; a type is stored iff that is positive. -/
theorem stored_byType {I : Impl C T G PF PM} (w : World) (t : Str) (Q : PS C T G PF PM → Prop)
    (hI : I.Local) (hQm : ∀ s m, Q s → Q (process I w s m).1) (hQf : ∀ s i p, Q s → Q (flush I w i p s).1)
    (hf : ∀ s i p, Q s → ((flush I w i p s).2.2 = none → (flush I w i p s).1.byType = []) ∧
      ((flush I w i p s).2.2 ≠ none → (flush I w i p s).1.byType = s.byType))
    (os : List Op) (c : PS C T G PF PM × List Datapoint) (n : Nat) (hc : Q c.1)
    (hn : c.1.byType.find t = positive n) :
    (os.foldl (Op.apply I w) c).1.byType.find t = positive (handledSince I w t c.1 n os) := by
  classical
  induction os generalizing c n with
  | nil => exact hn
  | cons o os ih =>
    rw [List.foldl_cons, handledSince_step (out := c.2)]
    cases o with
    | msg m =>
      refine ih _ _ (hQm _ _ hc) ?_
      simp only [Op.apply, handledSince]
      obtain ⟨h1, h2⟩ := process_byType hI w c.1 m t
      by_cases hh : Handled I w c.1 t m
      · rw [h1 hh, hn, if_pos hh]
        unfold positive
        by_cases h : n = 0 <;> simp [h]
      · rw [h2 hh, hn, if_neg hh]
    | flush i p =>
      refine ih _ _ (hQf _ _ _ hc) ?_
      simp only [Op.apply, handledSince]
      by_cases h : (flush I w i p c.1).2.2 = none
      · rw [(hf _ _ _ hc).1 h, if_pos h]; rfl
      · rw [(hf _ _ _ hc).2 h, if_neg h]; exact hn

end

section
variable [Rounding] {PF PM : Type}

theorem flushForm_byType {C T G : Type} (I : Impl C T G PF PM) (w : World) (secs ts : ℤ) (c : PhaseRes C) (t : PhaseRes T)
    (g : List (List Datapoint)) (m : PhaseRes Meter) (s : PS C T G PF PM) (hs : Shared s)
    (hm : Dict.keys m.1 = s.meters.keys) :
    ((flushForm I w secs ts c t g m s).2.2 = none → (flushForm I w secs ts c t g m s).1.byType = []) ∧
    ((flushForm I w secs ts c t g m s).2.2 ≠ none → (flushForm I w secs ts c t g m s).1.byType = s.byType) := by
  have hmw : Dict.Wf m.1 := by unfold Dict.Wf; rw [hm]; exact hs.meters
  unfold flushForm
  cases h0 : c.2.2 with
  | some e => simp
  | none =>
    cases h1 : t.2.2 with
    | some e => simp
    | none =>
      cases h3 : m.2.2 with
      | some e => simp
      | none =>
        simp only
        obtain ⟨tk, pm, gs, e, he, hk, hlen, hgr, _⟩ := plugin_phase I w secs ts
          { s with ticks := s.ticks + 10, counters := c.1, timers := t.1, meters := m.1 } hs.pluginMetrics
        simp only at he hk hlen
        rw [he]
        have hpw : Dict.Wf pm := by unfold Dict.Wf; rw [hk]; exact hs.pluginMetrics
        cases e with
        | some e => simp
        | none =>
          have hs6 : Shared { s with ticks := tk + 1, counters := c.1, timers := t.1, meters := m.1, pluginMetrics := pm } :=
            ⟨hmw, hpw, hs.3, hs.4, hs.5⟩
          simp only
          rw [runSummary_ok I ts _ hs6]
          simp

theorem flush_byType (ops : PluginOps PF PM) (w : World) (interval percent : ℤ) {s : MPState PF PM} (hs : MPWf ops s) :
    ((flush (messageProcessor ops) w interval percent s).2.2 = none →
      (flush (messageProcessor ops) w interval percent s).1.byType = []) ∧
    ((flush (messageProcessor ops) w interval percent s).2.2 ≠ none →
      (flush (messageProcessor ops) w interval percent s).1.byType = s.byType) := by
  rw [flush_mp ops w interval percent hs]
  exact flushForm_byType _ _ _ _ _ _ _ _ _ hs.shared (runElems_keys _ _ _)

theorem runElems_length {V : Type} (f : Str → V → V) (g : Str → V → VisitResult) (P : V → Bool)
    (hg : ∀ k v o, g k v = .ok o → (o.isSome = true ↔ P v = true)) (d : Dict V) (h : (runElems f g d).2.2 = none) :
    (runElems f g d).2.1.length = (d.filter fun p => P p.2).length := by
  induction d with
  | nil => rfl
  | cons p ps ih =>
    obtain ⟨k, v⟩ := p
    rw [runElems] at h ⊢
    cases hgk : g k v with
    | error e => simp [hgk] at h
    | ok o =>
      simp only [hgk] at h ⊢
      have := ih h
      have hp := hg k v o hgk
      cases o with
      | none =>
        have : P v = false := by
          cases hP : P v with
          | false => rfl
          | true => simp [hP] at hp
        simp [List.filter_cons, this, ih h]
      | some l =>
        have : P v = true := hp.1 rfl
        simp [List.filter_cons, this, ih h]

theorem counter_length {secs ts : ℤ} {d : Dict Num}
    (h : (runElems (fun _ _ => Num.int 0) (counterGroup secs ts) d).2.2 = none) :
    (runElems (fun _ _ => Num.int 0) (counterGroup secs ts) d).2.1.length = d.length := by
  rw [runElems_length _ _ (fun _ => true) _ _ h]
  · simp
  · intro k v o ho
    unfold counterGroup at ho
    split at ho
    · cases ho
    · simp only [Except.ok.injEq] at ho; subst ho; simp

theorem timer_length {percent ts : ℤ} {d : Dict (List PyFloat)}
    (h : (runElems (fun _ _ => []) (timerGroup percent ts) d).2.2 = none) :
    (runElems (fun _ _ => []) (timerGroup percent ts) d).2.1.length = (d.filter fun p => !p.2.isEmpty).length := by
  rw [runElems_length _ _ (fun v => !v.isEmpty) _ _ h]
  intro k v o ho
  unfold timerGroup at ho
  split_ifs at ho with hl
  · simp only at ho
    split at ho
    · cases ho
    · simp only [Except.ok.injEq] at ho; subst ho
      cases v <;> simp at hl ⊢
  · simp only [Except.ok.injEq] at ho; subst ho
    cases v <;> simp at hl ⊢

theorem meter_length {ts : ℤ} {d : Dict Meter} (h : (meterRes ts d).2.2 = none) :
    (meterRes ts d).2.1.length = d.length := by
  unfold meterRes at *
  rw [runElems_length _ _ (fun _ => true) _ _ h]
  · simp
  · intro k v o ho
    cases hr : (v.report ts).2 with
    | error e => simp [hr, Except.map] at ho
    | ok l => simp only [hr, Except.map, Except.ok.injEq] at ho; subst ho; simp

/-- The names under the internal prefix come from the summary only. -/
theorem named_summary (ops : PluginOps PF PM) (hq : Quiet ops c!"statsd.") (w : World) (interval percent : ℤ)
    {s : MPState PF PM} (hs : MPWf ops s) (hok : (flush (messageProcessor ops) w interval percent s).2.2 = none) :
    ∃ acc : List PerMetric,
      (acc.map fun (p : PerMetric) => (p.1, p.2.1)) =
        [(c!"counter", s.counters.length), (c!"timer", (s.timers.filter fun p => !p.2.isEmpty).length),
         (c!"gauge", s.gauges.length), (c!"meter", s.meters.length), (c!"plugin", s.pluginMetrics.length)] ∧
      ∀ n : Str, named (c!"statsd." ++ n) (flush (messageProcessor ops) w interval percent s).2.1 =
        named (c!"statsd." ++ n) (summaryPoints (messageProcessor ops) (truncQ (w.clk s.ticks)) acc s) := by
  obtain ⟨hce, hte, hme, gs, acc, hgl, hgs, hacc, hout⟩ := flush_complete ops w interval percent hs hok
  rw [counter_length hce, timer_length hte, meter_length hme, hgl] at hacc
  refine ⟨acc, hacc, fun n => ?_⟩
  obtain ⟨cc, tt, gg, mm, pp, su, he, hcc, hcn, _⟩ := flush_sections ops w interval percent hs
  have e0 : named (c!"statsd." ++ n) (runElems (fun _ _ => Num.int 0) (counterGroup (Int.fdiv interval 1000)
      (truncQ (w.clk s.ticks))) s.counters).2.1.flatten = [] := by
    rw [← hcc]
    refine named_nil_of fun d hd => ?_
    obtain ⟨_, k, _, h | h⟩ := hcn d hd <;> rw [h] <;> simp
  have e1 : named (c!"statsd." ++ n) (runElems (fun _ _ => []) (timerGroup percent (truncQ (w.clk s.ticks))) s.timers).2.1.flatten = [] := by
    refine named_prefix_nil (p := c!"stats.timers.") ?_ (by simp [List.cons_prefix_cons])
    intro d hd
    obtain ⟨gr, hgr, hd⟩ := List.mem_flatten.1 hd
    obtain ⟨⟨k, v⟩, hp, hgr⟩ := runElems_groups _ _ _ gr hgr
    exact timerGroup_prefix hgr d hd
  have e2 : named (c!"statsd." ++ n) (s.gauges.map fun p => ⟨c!"stats.gauge." ++ p.2 ++ c!".value", Num.flt p.1, truncQ (w.clk s.ticks)⟩) = [] := by
    refine named_prefix_nil (p := c!"stats.gauge.") ?_ (by simp [List.cons_prefix_cons])
    intro d hd
    obtain ⟨p, _, rfl⟩ := List.mem_map.1 hd
    simp only [List.append_assoc]; exact List.prefix_append _ _
  have e3 : named (c!"statsd." ++ n) (meterRes (truncQ (w.clk s.ticks)) s.meters).2.1.flatten = [] := by
    refine named_prefix_nil (p := c!"stats.meter.") ?_ (by simp [List.cons_prefix_cons])
    intro d hd
    obtain ⟨gr, hgr, hd⟩ := List.mem_flatten.1 hd
    exact meterGroup_prefix hs hgr d hd
  have e4 : named (c!"statsd." ++ n) gs.flatten = [] := by
    refine named_nil_of fun d hd hn => ?_
    obtain ⟨gr, hgr, hd⟩ := List.mem_flatten.1 hd
    obtain ⟨t, k, m, l, h0, h, hd⟩ := hgs gr hgr d hd
    apply hq _ _ h0 _ _ _ _ _ h d hd
    rw [hn]; exact List.prefix_append _ _
  rw [hout]
  simp only [named_append]
  rw [e0, e1, e2, e3, e4]
  rfl

end
end Txstatsd
