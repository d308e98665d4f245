import Verif.Lemmas.Counter
import Verif.Spec.History

set_option linter.unusedSectionVars false
set_option linter.unusedSimpArgs false
set_option linter.unusedVariables false

namespace Txstatsd
open Spec
section
variable [Rounding] {PF PM : Type}

theorem mpwf_flush (ops : PluginOps PF PM) (w : World) (interval percent : ℤ) {s : MPState PF PM}
    (hs : MPWf ops s) : MPWf ops (flush (messageProcessor ops) w interval percent s).1 := by
  rw [flush_mp ops w interval percent hs]
  obtain ⟨h1, h2, h3, h4, h5, h6, h7⟩ := flushForm_state (messageProcessor ops) w (Int.fdiv interval 1000)
    (truncQ (w.clk s.ticks))
    (runElems (fun _ _ => Num.int 0) (counterGroup (Int.fdiv interval 1000) (truncQ (w.clk s.ticks))) s.counters)
    (runElems (fun _ _ => []) (timerGroup percent (truncQ (w.clk s.ticks))) s.timers)
    (s.gauges.map fun p => [⟨c!"stats.gauge." ++ p.2 ++ c!".value", Num.flt p.1, truncQ (w.clk s.ticks)⟩])
    (meterRes (truncQ (w.clk s.ticks)) s.meters) s hs.shared (runElems_keys _ _ _)
  refine ⟨h1, ?_, ?_, ?_, came_flushForm _ _ _ _ _ _ _ _ _ hs.shared.pluginMetrics _ hs.came⟩
  · rw [h3]; unfold Dict.Wf; rw [runElems_keys]; exact hs.counters
  · rw [h4]; split_ifs
    · unfold Dict.Wf; rw [runElems_keys]; exact hs.timers
    · exact hs.timers
  · -- the meters are either untouched or reported
    have hm : ∀ p ∈ (meterRes (truncQ (w.clk s.ticks)) s.meters).1,
        p.2.pre = c!"stats.meter." ∧ p.2.name = p.1 := by
      refine runElems_forall (V := Meter) _ _ (fun p : Str × Meter => p.2.pre = c!"stats.meter." ∧ p.2.name = p.1)
        ?_ _ hs.meterPre
      intro k v h
      obtain ⟨e1, e2⟩ := meter_report_pre v (truncQ (w.clk s.ticks))
      simp only at h ⊢; rw [e1, e2]; exact h
    unfold flushForm
    split
    · exact hs.meterPre
    · split
      · exact hs.meterPre
      · split
        · exact hm
        · simp only
          obtain ⟨tk, pm, gs, e, he, hk, _⟩ := plugin_phase (messageProcessor ops) w (Int.fdiv interval 1000)
            (truncQ (w.clk s.ticks))
            { s with
              ticks := s.ticks + 10
              counters := (runElems (fun _ _ => Num.int 0) (counterGroup (Int.fdiv interval 1000) (truncQ (w.clk s.ticks))) s.counters).1
              timers := (runElems (fun _ _ => []) (timerGroup percent (truncQ (w.clk s.ticks))) s.timers).1
              meters := (meterRes (truncQ (w.clk s.ticks)) s.meters).1 } hs.shared.pluginMetrics
          simp only at he hk
          rw [he]
          cases e with
          | some e => exact hm
          | none =>
            simp only [runSummary]
            split <;> exact hm

theorem mpwf_apply (ops : PluginOps PF PM) (w : World) {c : MPState PF PM × List Datapoint} (hs : MPWf ops c.1)
    (o : Op) : MPWf ops (Op.apply (messageProcessor ops) w c o).1 := by
  cases o with
  | msg m => exact mpwf_process ops w hs m
  | flush i p => exact mpwf_flush ops w i p hs

theorem runOps_snoc {C T G : Type} (I : Impl C T G PF PM) (w : World) (s : PS C T G PF PM) (os : List Op) (o : Op) :
    runOps I w s (os ++ [o]) = Op.apply I w (runOps I w s os) o := by
  simp [runOps, List.foldl_append]

theorem mpwf_runOps (ops : PluginOps PF PM) (w : World) {s : MPState PF PM} (hs : MPWf ops s) (os : List Op) :
    MPWf ops (runOps (messageProcessor ops) w s os).1 := by
  induction os using List.reverseRecOn with
  | nil => exact hs
  | append_singleton os o ih => rw [runOps_snoc]; exact mpwf_apply ops w ih o

theorem messages_snoc_msg (os : List Op) (m : Str) : messages (os ++ [.msg m]) = messages os ++ [m] := by
  simp [messages]

theorem messages_snoc_flush (os : List Op) (i p : ℤ) : messages (os ++ [.flush i p]) = messages os := by
  simp [messages]

/-- No other section of a flush uses the counter names. -/
theorem not_counts_of_prefix {a b : Str} (h : c!"stats." <+: b ∨ c!"statsd." <+: b) (ha : b = c!"stats_counts." ++ a) :
    False := by
  subst ha
  rcases h with ⟨t, h⟩ | ⟨t, h⟩ <;> simp at h

/-- What a flush reports under `stats_counts.<key>`. -/
theorem flush_named_counts (ops : PluginOps PF PM) (hq : Quiet ops c!"stats_counts.") (w : World)
    {interval : ℤ} (hi : 1000 ≤ interval) (percent : ℤ) {s : MPState PF PM} (hs : MPWf ops s) (key : Str) :
    named (c!"stats_counts." ++ key) (flush (messageProcessor ops) w interval percent s).2.1 =
      ((s.counters.find key).map fun v =>
        (⟨c!"stats_counts." ++ key, v, truncQ (w.clk s.ticks)⟩ : Datapoint)).toList := by
  obtain ⟨cc, tt, gg, mm, pp, su, he, hcc, _, ht, hg, hm, hpp, _, hsu⟩ :=
    flush_sections ops w interval percent hs
  have h0 : ∀ l : List Datapoint, (∀ d ∈ l, c!"stats." <+: d.name ∨ c!"statsd." <+: d.name) →
      l.filter (fun x => decide (x.name = c!"stats_counts." ++ key)) = [] := by
    intro l hl
    rw [List.filter_eq_nil_iff]
    intro d hd hn
    exact not_counts_of_prefix (hl d hd) (by simpa using hn)
  have e1 := h0 tt (fun d hd => by
    obtain ⟨_, k, _, h⟩ := ht d hd; left; exact List.IsPrefix.trans ⟨c!"timers." ++ k, by simp⟩ h)
  have e2 := h0 gg (fun d hd => by
    obtain ⟨_, k, _, h⟩ := hg d hd; left; rw [h]; exact ⟨c!"gauge." ++ k.2 ++ c!".value", by simp⟩)
  have e3 := h0 mm (fun d hd => by
    obtain ⟨_, k, _, h⟩ := hm d hd; left; exact List.IsPrefix.trans ⟨c!"meter." ++ k, by simp⟩ h)
  have e5 := h0 su (fun d hd => Or.inr (hsu d hd).2)
  have e4 : pp.filter (fun x => decide (x.name = c!"stats_counts." ++ key)) = [] := by
    rw [List.filter_eq_nil_iff]
    intro d hd hn
    obtain ⟨t, k, m, l, h0, h1, h2⟩ := hpp d hd
    apply hq _ _ h0 _ _ _ _ _ h1 d h2
    have : d.name = c!"stats_counts." ++ key := by simpa using hn
    rw [this]; exact List.prefix_append _ _
  unfold named
  rw [he]
  simp only [List.filter_append, e1, e2, e3, e4, e5, List.append_nil]
  rw [hcc, counter_elems (fdiv_pos hi)]
  have := counter_filter (secs := Int.fdiv interval 1000) (ts := truncQ (w.clk s.ticks)) hs.counters key false
  simpa using this

theorem flush_counters (ops : PluginOps PF PM) (w : World) {interval : ℤ} (hi : 1000 ≤ interval) (percent : ℤ)
    {s : MPState PF PM} (hs : MPWf ops s) :
    (flush (messageProcessor ops) w interval percent s).1.counters = s.counters.map fun p => (p.1, Num.int 0) := by
  rw [flush_mp ops w interval percent hs]
  obtain ⟨_, _, h3, _⟩ := flushForm_state (messageProcessor ops) w (Int.fdiv interval 1000)
    (truncQ (w.clk s.ticks))
    (runElems (fun _ _ => Num.int 0) (counterGroup (Int.fdiv interval 1000) (truncQ (w.clk s.ticks))) s.counters)
    (runElems (fun _ _ => []) (timerGroup percent (truncQ (w.clk s.ticks))) s.timers)
    (s.gauges.map fun p => [⟨c!"stats.gauge." ++ p.2 ++ c!".value", Num.flt p.1, truncQ (w.clk s.ticks)⟩])
    (meterRes (truncQ (w.clk s.ticks)) s.meters) s hs.shared (runElems_keys _ _ _)
  rw [h3, counter_elems (fdiv_pos hi)]

theorem counterEffect_key {msg k : Str} {o : Option PyFloat} (h : counterEffect msg = some (k, o)) :
    ∃ fields, Parsed msg c!"c" k fields := by
  unfold counterEffect at h
  cases hp : parseMessage msg with
  | none => simp [hp] at h
  | some m =>
    simp only [hp] at h
    unfold counterEffectM at h
    split_ifs at h with h1 h2
    · refine ⟨m.fields, parsed_iff.2 ?_⟩
      have hk : m.key = k := by
        revert h
        repeat' split
        all_goals simp
        all_goals intros; assumption
      rw [hp, ← hk, ← h1]
    · refine ⟨m.fields, parsed_iff.2 ?_⟩
      have hk : m.key = k := by
        revert h
        repeat' split
        all_goals simp
        all_goals intros; assumption
      rw [hp, ← hk, ← h1]

theorem known_counter (ops : PluginOps PF PM) (w : World) (plugins : List PF) (msgs : List Str) (k : Str)
    (hk : k ∈ (processAll (messageProcessor ops) w (MPState.init ops plugins) msgs).counters.keys) :
    ∃ msg ∈ msgs, ∃ fields, Parsed msg c!"c" k fields := by
  induction msgs using List.reverseRecOn with
  | nil => simp [processAll, MPState.init, Dict.keys] at hk
  | append_singleton ms m ih =>
    have e : processAll (messageProcessor ops) w (MPState.init ops plugins) (ms ++ [m]) =
      (process (messageProcessor ops) w (processAll (messageProcessor ops) w (MPState.init ops plugins) ms) m).1 := by
      simp [processAll, List.foldl_append]
    rw [e, process_counters] at hk
    have h : k ∈ (processAll (messageProcessor ops) w (MPState.init ops plugins) ms).counters.keys ∨
        ∃ fields, Parsed m c!"c" k fields := by
      rcases he : counterEffect m with _ | ⟨k', _ | c⟩
      · rw [he] at hk; exact Or.inl hk
      · rw [he] at hk
        unfold applyCounter at hk
        simp only at hk
        split_ifs at hk with hh
        · exact Or.inl hk
        · rw [Dict.mem_keys_put] at hk
          rcases hk with rfl | hk
          · exact Or.inr (counterEffect_key he)
          · exact Or.inl hk
      · rw [he] at hk
        unfold applyCounter at hk
        simp only at hk
        rw [Dict.mem_keys_put] at hk
        rcases hk with rfl | hk
        · exact Or.inr (counterEffect_key he)
        · exact Or.inl hk
    rcases h with h | h
    · obtain ⟨msg, hm, hf⟩ := ih h
      exact ⟨msg, by simp [hm], hf⟩
    · exact ⟨m, by simp, h⟩

theorem increments_rate_ne {key : Str} {msgs : List Str} {incs : List (PyFloat × PyFloat)}
    (h : Increments key msgs incs) {p : PyFloat × PyFloat} (hp : p ∈ incs) : p.2 ≠ .fin 0 := by
  induction h with
  | nil => simp at hp
  | hit h1 _ ih =>
    rcases List.mem_cons.1 hp with rfl | hp
    · obtain ⟨_, _, _, _, _, h0⟩ := h1; exact h0
    · exact ih hp
  | skip _ _ ih => exact ih hp

/-- Reading an increment off a message by computation (for examples). -/
def readIncrement (msg : Str) : Option (Str × PyFloat × PyFloat) :=
  match parseMessage msg with
  | none => none
  | some m =>
    if m.mtype = c!"c" then
      match parseFloat (m.fields.headD []) with
      | none => none
      | some v =>
        if m.fields.length = 3 then
          match (rateMatch (m.fields.getD 2 [])).bind parseFloat with
          | none => none
          | some r => if r = .fin 0 then none else some (m.key, v, r)
        else if rnd 1 = .fin 0 then none else some (m.key, v, rnd 1)
    else none

theorem increment_of {msg k : Str} {v r : PyFloat} (h : readIncrement msg = some (k, v, r)) :
    Increment msg k v r := by
  unfold readIncrement at h
  cases hp : parseMessage msg with
  | none => simp [hp] at h
  | some m =>
    simp only [hp] at h
    by_cases h1 : m.mtype = c!"c"
    · rw [if_pos h1] at h
      cases hv : parseFloat (m.fields.headD []) with
      | none => simp only [hv] at h; cases h
      | some v' =>
        simp only [hv] at h
        rcases parse_fields hp with ⟨f0, hf⟩ | ⟨f0, f2, hf⟩
        · rw [if_neg (by simp [hf])] at h
          split_ifs at h with h3
          simp only [Option.some.injEq, Prod.mk.injEq] at h
          obtain ⟨rfl, rfl, rfl⟩ := h
          refine increment_iff.2 ⟨f0, [], ?_, by simpa [hf] using hv, Or.inl ⟨rfl, rfl⟩, h3⟩
          rw [hp, ← h1, ← hf]
        · rw [if_pos (by simp [hf])] at h
          simp only [hf, List.getD_cons_succ, List.getD_cons_zero] at h
          cases hr : rateMatch f2 with
          | none => simp [hr] at h
          | some g =>
            simp only [hr, Option.bind_some] at h
            cases hg : parseFloat g with
            | none => simp [hg] at h
            | some r' =>
              simp only [hg] at h
              split_ifs at h with h3
              simp only [Option.some.injEq, Prod.mk.injEq] at h
              obtain ⟨rfl, rfl, rfl⟩ := h
              obtain ⟨rest, e1, e2, e3, e4⟩ := rateMatch_some.1 hr
              refine increment_iff.2 ⟨f0, [f2], ?_, by simpa [hf] using hv,
                Or.inr ⟨g, rest, by rw [e1], e2, e3, e4, hg⟩, h3⟩
              rw [hp, ← h1, ← hf]
    · rw [if_neg h1] at h; cases h

theorem not_increment_of {msg k : Str} (h : ((counterEffect msg).map fun p => decide (p.1 = k) && p.2.isSome) ≠ some true) :
    ∀ v r, ¬ Increment msg k v r := by
  intro v r hi
  have := counterEffect_add.2 ⟨v, r, hi, rfl⟩
  rw [this] at h; simp at h

/-- Conservation over atomic histories. -/
theorem conservation (ops : PluginOps PF PM) (hq : Quiet ops c!"stats_counts.") (plugins : List PF) (w : World)
    (os : List Op) (hw : WholeSeconds os) (key : Str) :
    let c := runOps (messageProcessor ops) w (MPState.init ops plugins) os
    ∃ blocks last, Increments key (messages os) (blocks.flatten ++ last) ∧
      (named (c!"stats_counts." ++ key) c.2).map Datapoint.value = blocks.map total ∧
      (c.1.counters.find key).getD (.int 0) = total last ∧
      (key ∉ c.1.counters.keys → blocks = [] ∧ last = []) := by
  induction os using List.reverseRecOn with
  | nil => exact ⟨[], [], .nil, rfl, rfl, fun _ => ⟨rfl, rfl⟩⟩
  | append_singleton os o ih =>
    have hw' : WholeSeconds os := fun i p h => hw i p (by simp [h])
    obtain ⟨blocks, last, h1, h2, h3, h4⟩ := ih hw'
    have hwf := mpwf_runOps ops w (mpwf_init ops plugins) os
    intro c
    have hc : c = Op.apply (messageProcessor ops) w
      (runOps (messageProcessor ops) w (MPState.init ops plugins) os) o := runOps_snoc _ _ _ _ _
    revert hc
    generalize runOps (messageProcessor ops) w (MPState.init ops plugins) os = c0 at h2 h3 h4 hwf
    intro hc
    cases o with
    | msg m =>
      have e1 : c.1.counters = applyCounter c0.1.counters (counterEffect m) := by
        rw [hc]; exact process_counters ops w c0.1 m
      have e2 : c.2 = c0.2 := by rw [hc]; rfl
      rw [messages_snoc_msg, e2, e1]
      rcases applyCounter_find (d := c0.1.counters) (msg := m) (k := key) with ⟨v, r, hi, hf⟩ | ⟨hn, hf, hk⟩
      · refine ⟨blocks, last ++ [(v, r)], ?_, h2, ?_, ?_⟩
        · rw [← List.append_assoc]; exact increments_append h1 (.hit hi .nil)
        · rw [hf, h3]; simp only [Option.getD_some, ← addTo_total, ← addTo_append]
        · intro h; rw [← Dict.find_eq_none, hf] at h; simp at h
      · refine ⟨blocks, last, ?_, h2, ?_, ?_⟩
        · have := increments_append h1 (.skip hn .nil); simpa using this
        · rw [hf, h3]
        · intro h; exact h4 (fun h' => h (applyCounter_keys_mono h'))
    | flush i p =>
      have hi : 1000 ≤ i := hw i p (by simp)
      have e1 : c.1.counters = c0.1.counters.map fun p => (p.1, Num.int 0) := by
        rw [hc]; exact flush_counters ops w hi p hwf
      have e2 : named (c!"stats_counts." ++ key) c.2 = named (c!"stats_counts." ++ key) c0.2 ++
          ((c0.1.counters.find key).map fun v =>
            (⟨c!"stats_counts." ++ key, v, truncQ (w.clk c0.1.ticks)⟩ : Datapoint)).toList := by
        rw [hc, ← flush_named_counts ops hq w hi p hwf key]
        simp [Op.apply, named, List.filter_append]
      have e3 : c.1.counters.find key = (c0.1.counters.find key).map fun _ => Num.int 0 := by
        rw [e1]; exact Dict.find_map c0.1.counters (fun _ _ => Num.int 0) key
      rw [messages_snoc_flush, e2, e3]
      have hkk : key ∈ c.1.counters.keys ↔ key ∈ c0.1.counters.keys := by
        rw [e1]
        have := Dict.keys_map c0.1.counters (fun _ _ => Num.int 0)
        rw [this]
      cases hf : c0.1.counters.find key with
      | none =>
        have hn : key ∉ c0.1.counters.keys := (Dict.find_eq_none _ _).1 hf
        obtain ⟨rfl, rfl⟩ := h4 hn
        exact ⟨[], [], h1, by simpa [hf] using h2, rfl, fun _ => ⟨rfl, rfl⟩⟩
      | some v =>
        rw [hf] at h3
        refine ⟨blocks ++ [last], [], by simpa using h1, ?_, rfl, ?_⟩
        · simp only [List.map_append, h2, Option.map_some, Option.toList_some, List.map_cons, List.map_nil]
          simp at h3; rw [h3]
        · intro h; rw [hkk, ← Dict.find_eq_none, hf] at h; simp at h

end

section
variable [Rounding]

/-- Exact totals. -/
theorem total_exact [Exact] (qs : List (ℚ × ℚ)) (h0 : ∀ p ∈ qs, p.2 ≠ 0) (a : ℚ) :
    addTo (.flt (.fin a)) (qs.map fun p => (.fin p.1, .fin p.2)) =
      .flt (.fin (a + (qs.map fun p => p.1 / p.2).sum)) := by
  induction qs generalizing a with
  | nil => simp [addTo]
  | cons p ps ih =>
    have hp : p.2 ≠ 0 := h0 p (by simp)
    have := ih (fun q hq => h0 q (by simp [hq])) (a + p.1 / p.2)
    simp only [addTo, List.map_cons, List.foldl_cons, List.sum_cons] at this ⊢
    have e : Num.add (.flt (.fin a)) (.flt (PyFloat.mul (.fin p.1) (inverse (.fin p.2)))) = .flt (.fin (a + p.1 / p.2)) := by
      simp [inverse, PyFloat.div, Exact.rnd_eq, hp, PyFloat.mul, Num.add, Num.toFloat, PyFloat.add]
      ring
    rw [e, this]; ring_nf

theorem total_exact_ne [Exact] (qs : List (ℚ × ℚ)) (h0 : ∀ p ∈ qs, p.2 ≠ 0) (hne : qs ≠ []) :
    total (qs.map fun p => (.fin p.1, .fin p.2)) = .flt (.fin ((qs.map fun p => p.1 / p.2).sum)) := by
  cases qs with
  | nil => exact absurd rfl hne
  | cons p ps =>
    have hp : p.2 ≠ 0 := h0 p (by simp)
    have := total_exact ps (fun q hq => h0 q (by simp [hq])) (p.1 / p.2)
    rw [← addTo_total]
    simp only [addTo, List.map_cons, List.foldl_cons, List.sum_cons] at this ⊢
    have e : Num.add (.int 0) (.flt (PyFloat.mul (.fin p.1) (inverse (.fin p.2)))) = .flt (.fin (p.1 / p.2)) := by
      simp [inverse, PyFloat.div, Exact.rnd_eq, hp, PyFloat.mul, Num.add, Num.toFloat, PyFloat.add]
      ring
    rw [e, this]

theorem total_rat [Exact] (qs : List (ℚ × ℚ)) (h0 : ∀ p ∈ qs, p.2 ≠ 0) :
    (total (qs.map fun p => (.fin p.1, .fin p.2))).rat = (qs.map fun p => p.1 / p.2).sum := by
  cases qs with
  | nil => simp [total, Num.rat]
  | cons p ps => rw [total_exact_ne _ h0 (by simp)]; rfl

theorem total_rat' [Exact] (incs : List (PyFloat × PyFloat)) (val : PyFloat × PyFloat → ℚ × ℚ)
    (h : ∀ p ∈ incs, p = (.fin (val p).1, .fin (val p).2) ∧ (val p).2 ≠ 0) :
    (total incs).rat = (incs.map fun p => (val p).1 / (val p).2).sum := by
  have e : incs = (incs.map val).map fun p => (PyFloat.fin p.1, PyFloat.fin p.2) := by
    rw [List.map_map]; conv_lhs => rw [← List.map_id incs]
    apply List.map_congr_left; intro p hp; exact (h p hp).1
  conv_lhs => rw [e]
  rw [total_rat]
  · rw [List.map_map]; rfl
  · intro p hp; obtain ⟨q, hq, rfl⟩ := List.mem_map.1 hp; exact (h q hq).2

/-- Integer increments below 2^53 are exact in IEEE doubles. -/
theorem total_int [IntExact] (zs : List ℤ) (a : ℤ)
    (hb : ∀ l, l <+: zs → |a + l.sum| ≤ 2 ^ 53) (hz : ∀ z ∈ zs, |z| ≤ 2 ^ 53) :
    addTo (.flt (.fin a)) (zs.map fun z : ℤ => (.fin z, .fin 1)) = .flt (.fin ((a + zs.sum : ℤ) : ℚ)) := by
  induction zs generalizing a with
  | nil => simp [addTo]
  | cons z zs ih =>
    have h1 : rnd (1 : ℚ) = .fin 1 := by
      have := IntExact.rnd_int 1 (by norm_num); simpa using this
    have hz1 : rnd (z : ℚ) = .fin z := IntExact.rnd_int z (hz z (by simp))
    have ha : rnd ((a : ℚ) + z) = .fin ((a + z : ℤ) : ℚ) := by
      have := IntExact.rnd_int (a + z) (by have := hb [z] ⟨zs, rfl⟩; simpa using this)
      push_cast at this ⊢; exact this
    have hih := ih (a + z) (by
      intro l hl
      have := hb (z :: l) (by obtain ⟨t, rfl⟩ := hl; exact ⟨t, rfl⟩)
      rw [List.sum_cons] at this; rw [add_assoc]; exact this) (fun y hy => hz y (by simp [hy]))
    simp only [addTo, List.map_cons, List.foldl_cons, List.sum_cons] at hih ⊢
    have e : Num.add (.flt (.fin a)) (.flt (PyFloat.mul (.fin z) (inverse (.fin 1)))) = .flt (.fin ((a + z : ℤ) : ℚ)) := by
      simp [inverse, PyFloat.div, h1, PyFloat.mul, Num.add, Num.toFloat, PyFloat.add, hz1, ha]
    rw [e, hih]; congr 3; ring

/-- With exact arithmetic the totals of consecutive blocks of increments add up. -/
theorem balance_of_blocks [Exact] {key : Str} {msgs : List Str} {blocks : List (List (PyFloat × PyFloat))}
    {last : List (PyFloat × PyFloat)} (h1 : Increments key msgs (blocks.flatten ++ last)) (qs : List (ℚ × ℚ))
    (hinc : Increments key msgs (qs.map fun p => (.fin p.1, .fin p.2))) :
    (blocks.map fun b => (total b).rat).sum + (total last).rat = (qs.map fun p => p.1 / p.2).sum := by
  have hu := increments_unique hinc h1
  have hne : ∀ p ∈ qs, p.2 ≠ 0 := by
    intro p hp h0
    have := increments_rate_ne h1 (p := (.fin p.1, .fin p.2)) (by rw [← hu]; exact List.mem_map.2 ⟨p, hp, rfl⟩)
    simp [h0] at this
  let val : PyFloat × PyFloat → ℚ × ℚ := fun p => ((Num.flt p.1).rat, (Num.flt p.2).rat)
  have hval : ∀ p ∈ blocks.flatten ++ last, p = (.fin (val p).1, .fin (val p).2) ∧ (val p).2 ≠ 0 := by
    intro p hp
    rw [← hu] at hp
    obtain ⟨q, hq, rfl⟩ := List.mem_map.1 hp
    exact ⟨rfl, hne q hq⟩
  have hl : (total last).rat = (last.map fun p => (val p).1 / (val p).2).sum :=
    total_rat' last val (fun p hp => hval p (List.mem_append_right _ hp))
  have hb : ∀ bs : List (List (PyFloat × PyFloat)), (∀ b ∈ bs, b ∈ blocks) →
      (bs.map fun b => (total b).rat).sum = (bs.flatten.map fun p => (val p).1 / (val p).2).sum := by
    intro bs
    induction bs with
    | nil => intro _; rfl
    | cons b bs ih =>
      intro hbs
      have e := total_rat' b val (fun p hp => hval p (List.mem_append_left _
        (List.mem_flatten.2 ⟨b, hbs b (by simp), hp⟩)))
      simp only [List.map_cons, List.sum_cons, List.flatten_cons, List.map_append, List.sum_append]
      rw [e, ih (fun b hb => hbs b (by simp [hb]))]
  rw [hb blocks (fun _ h => h), hl, ← List.sum_append, ← List.map_append, ← hu, List.map_map]
  rfl

end
end Txstatsd
