import Verif.Spec.Reorder
import Verif.Lemmas.Reorder
import Verif.Lemmas.Configurable
import Verif.Lemmas.ConfigurableMisc
import Verif.Props.Counters
import Verif.Props.Gauges
import Verif.Props.Balance
import Verif.Props.Accounting

set_option linter.unusedSectionVars false

/-!
# C148: datagrams that overtake each other or arrive twice
-/

namespace Txstatsd
open Spec
section
variable [Rounding] {PF PM : Type}

theorem runOps_then (I : Impl C T G PF PM) (w : World) (s : PS C T G PF PM) (os : List Op) (ms : List Str) :
    (runOps I w s (os ++ ms.map Op.msg)).1 = processAll I w (runOps I w s os).1 ms := by
  unfold runOps
  rw [runOps_append]
  rw [show os.foldl (Op.apply I w) (s, []) = ((os.foldl (Op.apply I w) (s, [])).1, (os.foldl (Op.apply I w) (s, [])).2) from rfl,
    runOps_msgs]

/-- C148: the statistics of a timer do not depend on the order in which the messages since any earlier moment arrive, in every
arithmetic. (No duration is nan, both flushes complete, and no counter is called `timers.…`.) -/
theorem C148_timers (ops : PluginOps PF PM) (hq : Quiet ops c!"stats.timers.") (plugins : List PF) (w : World) (os : List Op)
    (ms ms' : List Str) (hp : ms.Perm ms') (key : Str) (hc : NoCounter c!"timers." (messages os ++ ms))
    (hn : ∀ m ∈ messages os ++ ms, ¬ Reading c!"ms" key m .nan) (interval percent : ℤ) :
    let r := fun l : List Str => flush (messageProcessor ops) w interval percent
      (runOps (messageProcessor ops) w (MPState.init ops plugins) (os ++ l.map Op.msg)).1
    (r ms).2.2 = none → (r ms').2.2 = none →
    said ((r ms).2.1.filter (ofTimer key)) = said ((r ms').2.1.filter (ofTimer key)) := by
  intro r h1 h2
  have hwf : MPWf ops (runOps (messageProcessor ops) w (MPState.init ops plugins) os).1 :=
    mpwf_runOps ops w (mpwf_init ops plugins) os
  have hst := stored_durations ops plugins w os key
  have hkeys : ∀ k ∈ (runOps (messageProcessor ops) w (MPState.init ops plugins) os).1.counters.keys, ¬ c!"timers." <+: k := by
    intro k hk
    obtain ⟨m, hm, o, ho⟩ := history_counter_keys ops plugins w os k hk
    obtain ⟨fs, hp⟩ := counterEffect_counts ho
    exact hc m (by simp [hm]) k fs hp
  simp only [r, runOps_then] at h1 h2 ⊢
  generalize (runOps (messageProcessor ops) w (MPState.init ops plugins) os).1 = s at *
  obtain ⟨hc1, hc2⟩ := noCounter_append.1 hc
  have hc3 : NoCounter c!"timers." ms' := fun m hm => hc2 m (hp.mem_iff.2 hm)
  obtain ⟨vs, hv⟩ := collect_exists (Reading c!"ms" key) ms
  obtain ⟨vs', hv', hvp⟩ := collect_perm hp hv
  rw [flush_ofTimer ops hq w interval percent (mpwf_processAll ops w ms hwf) (noCounter_all ops w hkeys hc2) key h1,
    flush_ofTimer ops hq w interval percent (mpwf_processAll ops w ms' hwf) (noCounter_all ops w hkeys hc3) key h2,
    processAll_timers ops w hv, processAll_timers ops w hv']
  unfold said
  rw [timerGroup_perm (hvp.append_left ((s.timers.find key).getD [])), timerGroup_ts]
  intro hm
  rcases List.mem_append.1 hm with hm | hm
  · obtain ⟨m, h3, h4⟩ := hst _ hm
    exact hn m (by simp [h3]) h4
  · obtain ⟨m, h3, h4⟩ := collect_mem hv _ hm
    exact hn m (by simp [h3]) h4

/-- C148: in exact arithmetic the totals of the counters do not depend on the order either. -/
theorem C148_counters [Exact] (ops : PluginOps PF PM) (hq : Quiet ops c!"stats_counts.") (plugins : List PF) (w : World)
    (os : List Op) (ms ms' : List Str) (hp : ms.Perm ms') (key : Str) (interval percent : ℤ) (hi : 1000 ≤ interval) :
    let r := fun l : List Str => flush (messageProcessor ops) w interval percent
      (runOps (messageProcessor ops) w (MPState.init ops plugins) (os ++ l.map Op.msg)).1
    said (named (c!"stats_counts." ++ key) (r ms).2.1) = said (named (c!"stats_counts." ++ key) (r ms').2.1) := by
  intro r
  have hwf : MPWf ops (runOps (messageProcessor ops) w (MPState.init ops plugins) os).1 :=
    mpwf_runOps ops w (mpwf_init ops plugins) os
  simp only [r, runOps_then]
  generalize (runOps (messageProcessor ops) w (MPState.init ops plugins) os).1 = s at *
  rw [flush_named_counts ops hq w hi percent (mpwf_processAll ops w ms hwf),
    flush_named_counts ops hq w hi percent (mpwf_processAll ops w ms' hwf)]
  obtain ⟨incs, hx⟩ := increments_exist key ms
  obtain ⟨incs', hx', hxp⟩ := increments_perm hp hx
  have e1 := (processAll_find ops w hx s).1
  have e2 := (processAll_find ops w hx' s).1
  have hk : key ∈ (processAll (messageProcessor ops) w s ms).counters.keys ↔
      key ∈ (processAll (messageProcessor ops) w s ms').counters.keys := by
    rw [processAll_counter_keys, processAll_counter_keys]
    simp only [hp.mem_iff]
  rw [addTo_perm hxp, ← e2] at e1
  cases h1 : (processAll (messageProcessor ops) w s ms).counters.find key with
  | none =>
    rw [(Dict.find_eq_none _ _).2 (fun h => (Dict.find_eq_none _ _).1 h1 (hk.2 h))]
    rfl
  | some v =>
    have h2 : key ∈ (processAll (messageProcessor ops) w s ms').counters.keys :=
      hk.1 ((Dict.find_isSome_iff _ _).1 (by rw [h1]; rfl))
    obtain ⟨v', h2⟩ := Option.isSome_iff_exists.1 ((Dict.find_isSome_iff _ _).2 h2)
    rw [h1, h2] at e1
    simp only [Option.getD_some] at e1
    subst e1
    rw [h2]; rfl

/-- C148: in floating point the totals of finite increments in two orders differ by at most twice the error of the arithmetic
(`AddsUp`: nothing for whole increments, C125_whole; a few units of the last place otherwise, C125_moderate). -/
theorem C148_counters_near (ops : PluginOps PF PM) (hq : Quiet ops c!"stats_counts.") (plugins : List PF) (w : World)
    (ms ms' : List Str) (hp : ms.Perm ms') (key : Str) (interval percent : ℤ) (hi : 1000 ≤ interval) (c : ℚ) (qs : List (ℚ × ℚ))
    (hinc : FiniteIncrements key ms qs) (hne : qs ≠ []) (hc : AddsUp c qs) :
    let r := fun l : List Str => flush (messageProcessor ops) w interval percent
      (processAll (messageProcessor ops) w (MPState.init ops plugins) l)
    ∃ v v' : Num, ∃ x x' : ℚ, said (named (c!"stats_counts." ++ key) (r ms).2.1) = [(c!"stats_counts." ++ key, v)] ∧
      said (named (c!"stats_counts." ++ key) (r ms').2.1) = [(c!"stats_counts." ++ key, v')] ∧
      v.exact = .fin x ∧ v'.exact = .fin x' ∧ |x - x'| ≤ 2 * c * sizes qs := by
  intro r
  obtain ⟨incs', hx', hxp⟩ := increments_perm hp hinc
  obtain ⟨qs', rfl, hqp⟩ : ∃ qs' : List (ℚ × ℚ), incs' = (qs'.map fun p => (PyFloat.fin p.1, PyFloat.fin p.2)) ∧ qs.Perm qs' := by
    let back : PyFloat × PyFloat → ℚ × ℚ := fun p => (match p.1 with | .fin q => q | _ => 0, match p.2 with | .fin q => q | _ => 0)
    refine ⟨incs'.map back, ?_, ?_⟩
    · rw [List.map_map]
      symm
      conv_rhs => rw [← List.map_id incs']
      refine List.map_congr_left fun p hp => ?_
      obtain ⟨q, _, rfl⟩ := List.mem_map.1 (hxp.mem_iff.2 hp)
      rfl
    · have := hxp.map back
      rw [List.map_map] at this
      have hid : (back ∘ fun p : ℚ × ℚ => (PyFloat.fin p.1, PyFloat.fin p.2)) = id := rfl
      rwa [hid, List.map_id] at this
  have h1 := C07_count_unique ops hq plugins w ms interval percent hi key _ hinc (by simpa using hne)
  have h2 := C07_count_unique ops hq plugins w ms' interval percent hi key _ hx' (by
    intro h; rw [List.map_eq_nil_iff] at h; subst h; exact hne (List.perm_nil.1 hqp))
  obtain ⟨x, e1, e2⟩ := hc qs (List.Subperm.refl _)
  obtain ⟨x', e3, e4⟩ := hc qs' hqp.symm.subperm
  refine ⟨_, _, x, x', by simp only [r]; rw [h1]; rfl, by simp only [r]; rw [h2]; rfl, e1, e3, ?_⟩
  have ha : amount qs' = amount qs := by unfold amount; exact (hqp.map _).sum_eq.symm
  have hz : sizes qs' = sizes qs := by unfold sizes; exact (hqp.map _).sum_eq.symm
  rw [ha, hz] at e4
  have := abs_sub_le x (amount qs) x'
  rw [abs_sub_comm (amount qs)] at this
  linarith

/-- C148: whole unsampled increments are counted alike in every order in doubles. -/
theorem C148_counters_whole [IntExact] (ops : PluginOps PF PM) (hq : Quiet ops c!"stats_counts.") (plugins : List PF) (w : World)
    (ms ms' : List Str) (hp : ms.Perm ms') (key : Str) (interval percent : ℤ) (hi : 1000 ≤ interval) (qs : List (ℚ × ℚ))
    (hinc : FiniteIncrements key ms qs) (hne : qs ≠ []) (hz : ∀ p ∈ qs, p.2 = 1 ∧ ∃ z : ℤ, p.1 = z) (hs : sizes qs ≤ 2 ^ 53) :
    let r := fun l : List Str => flush (messageProcessor ops) w interval percent
      (processAll (messageProcessor ops) w (MPState.init ops plugins) l)
    ∃ v v' : Num, ∃ x : ℚ, said (named (c!"stats_counts." ++ key) (r ms).2.1) = [(c!"stats_counts." ++ key, v)] ∧
      said (named (c!"stats_counts." ++ key) (r ms').2.1) = [(c!"stats_counts." ++ key, v')] ∧
      v.exact = .fin x ∧ v'.exact = .fin x := by
  intro r
  obtain ⟨v, v', x, x', h1, h2, h3, h4, h5⟩ := C148_counters_near ops hq plugins w ms ms' hp key interval percent hi 0 qs hinc hne
    (C125_whole qs hz hs)
  have : x = x' := by
    have h6 : |x - x'| ≤ 0 := by simpa using h5
    exact sub_eq_zero.1 (abs_eq_zero.1 (le_antisymm h6 (abs_nonneg _)))
  subst this
  exact ⟨v, v', x, h1, h2, h3, h4⟩

/-- C148: the readings of a gauge are reported in the order of their arrival, so another order of arrival permutes them. -/
theorem C148_gauges (ops : PluginOps PF PM) (hq : Quiet ops c!"stats.gauge.") (plugins : List PF) (w : World)
    (os : List Op) (ms ms' : List Str) (hp : ms.Perm ms') (interval percent : ℤ) (key : Str)
    (hc : NoCounter c!"gauge." (messages os ++ ms)) :
    let r := fun l : List Str => flush (messageProcessor ops) w interval percent
      (runOps (messageProcessor ops) w (MPState.init ops plugins) (os ++ l.map Op.msg)).1
    (r ms).2.2 = none → (r ms').2.2 = none →
    (said (named (c!"stats.gauge." ++ key ++ c!".value") (r ms).2.1)).Perm
      (said (named (c!"stats.gauge." ++ key ++ c!".value") (r ms').2.1)) := by
  intro r h1 h2
  have hm : ∀ l : List Str, messages (os ++ l.map Op.msg) = messages os ++ l := by
    intro l
    simp only [messages, List.filterMap_append, List.filterMap_map]
    congr 1
    exact List.filterMap_some
  have hkeys : ∀ l : List Str, ms.Perm l → (c!"gauge." ++ key ++ c!".value") ∉
      (runOps (messageProcessor ops) w (MPState.init ops plugins) (os ++ l.map Op.msg)).1.counters.keys := by
    intro l hl hk
    obtain ⟨m, hm', o, ho⟩ := history_counter_keys ops plugins w _ _ hk
    obtain ⟨fs, hp⟩ := counterEffect_counts ho
    rw [hm, List.mem_append, ← hl.mem_iff, ← List.mem_append] at hm'
    exact hc m hm' _ fs hp (by rw [List.append_assoc]; exact List.prefix_append _ _)
  obtain ⟨vs, hv⟩ := collect_exists (Reading c!"g" key) (messages os ++ ms)
  obtain ⟨vs', hv', hvp⟩ := collect_perm (hp.append_left (messages os)) hv
  have e1 := C15_backlog ops hq plugins w (os ++ ms.map Op.msg) interval percent key vs (by rw [hm]; exact hv) (hkeys ms (.refl _)) h1
  have e2 := C15_backlog ops hq plugins w (os ++ ms'.map Op.msg) interval percent key vs' (by rw [hm]; exact hv') (hkeys ms' hp) h2
  simp only [r]
  rw [e1, e2]
  unfold said
  rw [List.map_map, List.map_map]
  exact hvp.map _

/-- C148: neither does the listing of the names, in any arithmetic. -/
theorem C148_listing (ops : PluginOps PF PM) (plugins : List PF) (w : World) (os : List Op)
    (ms ms' : List Str) (hp : ms.Perm ms') :
    let l := fun l : List Str => getMetricNames
      (runOps (messageProcessor ops) w (MPState.init ops plugins) (os ++ l.map Op.msg)).1
    (l ms).Perm (l ms') := by
  intro l
  have h1 := C21_listing ops plugins w (os ++ ms.map Op.msg)
  have h2 := C21_listing ops plugins w (os ++ ms'.map Op.msg)
  refine (List.perm_ext_iff_of_nodup h1.1 h2.1).2 fun k => ?_
  rw [h1.2, h2.2]
  have hm : ∀ l : List Str, messages (os ++ l.map Op.msg) = messages os ++ l := by
    intro l
    simp only [messages, List.filterMap_append, List.filterMap_map]
    congr 1
    exact List.filterMap_some
  simp only [hm, List.mem_append, hp.mem_iff]

theorem applyRead_twice {V : Type} {new : Str → V} {mark : V → PyFloat → V} (hm : ∀ x v, mark (mark x v) v = mark x v) (d : Dict V)
    (e : Option (Str × PyFloat)) : applyRead new mark (applyRead new mark d e) e = applyRead new mark d e := by
  rcases e with _ | ⟨k, v⟩
  · rfl
  · simp only [applyRead, Dict.find_put_self, Option.getD_some, hm, Dict.put_put]

/-- C148: on the configurable processor it makes no difference to the counters and gauges how often a datagram is repeated. -/
theorem C148_repeated (ops : PluginOps PF PM) (pre int : Str) (w : World) (s : CPState PF PM) (ms : List (Str × Nat)) :
    (processAll (configurable ops pre int) w s (repeated ms)).counters =
      (processAll (configurable ops pre int) w s (ms.map Prod.fst)).counters ∧
    (processAll (configurable ops pre int) w s (repeated ms)).gauges =
      (processAll (configurable ops pre int) w s (ms.map Prod.fst)).gauges := by
  have hcount : ∀ (l : List Str) (s : CPState PF PM), (processAll (configurable ops pre int) w s l).counters =
      l.foldl (fun d m => applyRead (CounterRep.init · pre) CounterRep.mark d (readEffect c!"c" m)) s.counters ∧
      (processAll (configurable ops pre int) w s l).gauges =
      l.foldl (fun d m => applyRead (GaugeRep.init · pre) GaugeRep.mark d (readEffect c!"g" m)) s.gauges := by
    intro l
    induction l with
    | nil => intro s; exact ⟨rfl, rfl⟩
    | cons m l ih =>
      intro s
      have e := effect ops pre int w s m
      have := ih (process (configurable ops pre int) w s m).1
      rw [e.counters, e.gauges] at this
      exact this
  have hrep : ∀ {V : Type} (f : Dict V → Str → Dict V), (∀ d m, f (f d m) m = f d m) → ∀ d,
      (repeated ms).foldl f d = (ms.map Prod.fst).foldl f d := by
    intro V f hf
    have h1 : ∀ n m d, (List.replicate (n + 1) m).foldl f d = f d m := by
      intro n m
      induction n with
      | zero => intro d; rfl
      | succ n ih => intro d; rw [List.replicate_succ, List.foldl_cons, ih, hf]
    induction ms with
    | nil => intro d; rfl
    | cons p ms ih =>
      intro d
      simp only [repeated, List.flatMap_cons, List.foldl_append, h1, List.map_cons, List.foldl_cons]
      exact ih _
  rw [(hcount _ s).1, (hcount _ s).2, (hcount _ s).1, (hcount _ s).2]
  exact ⟨hrep _ (fun d m => applyRead_twice (mark := CounterRep.mark) (fun _ _ => rfl) _ _) _,
    hrep _ (fun d m => applyRead_twice (mark := GaugeRep.mark) (fun _ _ => rfl) _ _) _⟩

end

section
attribute [local instance] binary64

/-- C148: in doubles the order of the datagrams can change the total of a counter. -/
theorem C148_counters_refuted : ¬ ∀ (w : World) (ms ms' : List Str), ms.Perm ms' →
    said (named c!"stats_counts.a" (flush (messageProcessor noPlugins) w 1000 90
      (processAll (messageProcessor noPlugins) w (MPState.init noPlugins []) ms)).2.1) =
    said (named c!"stats_counts.a" (flush (messageProcessor noPlugins) w 1000 90
      (processAll (messageProcessor noPlugins) w (MPState.init noPlugins []) ms')).2.1) := by
  intro h
  have := h exWorld [c!"a:1e16|c", c!"a:1|c", c!"a:-1e16|c"] [c!"a:1e16|c", c!"a:-1e16|c", c!"a:1|c"]
    (by decide +kernel)
  revert this
  decide +kernel

/-- C148: the order of the datagrams can change which reading of a gauge is the latest reported. -/
theorem C148_gauges_refuted : ¬ ∀ (w : World) (ms ms' : List Str), ms.Perm ms' →
    said (named c!"stats.gauge.a.value" (flush (messageProcessor noPlugins) w 1000 90
      (processAll (messageProcessor noPlugins) w (MPState.init noPlugins []) ms)).2.1) =
    said (named c!"stats.gauge.a.value" (flush (messageProcessor noPlugins) w 1000 90
      (processAll (messageProcessor noPlugins) w (MPState.init noPlugins []) ms')).2.1) := by
  intro h
  have := h exWorld [c!"a:1|g", c!"a:2|g"] [c!"a:2|g", c!"a:1|g"] (by decide +kernel)
  revert this
  decide +kernel

/-- C148: on the default processor a repeated datagram changes the counters. -/
theorem C148_repeated_refuted : ¬ ∀ (w : World) (ms : List (Str × Nat)),
    (processAll (messageProcessor noPlugins) w (MPState.init noPlugins []) (repeated ms)).counters =
      (processAll (messageProcessor noPlugins) w (MPState.init noPlugins []) (ms.map Prod.fst)).counters := by
  intro h
  have := h exWorld [(c!"a:1|c", 1)]
  revert this
  decide +kernel

/-! ## The hypotheses can be met -/

/-- Two orders of the same messages. -/
def exOrder : List Str := [c!"t:3|ms", c!"a:1|c", c!"t:0.5|ms", c!"g:1|g", c!"t:1|ms"]
def exOrder' : List Str := [c!"t:1|ms", c!"g:1|g", c!"t:3|ms", c!"t:0.5|ms", c!"a:1|c"]

example : exOrder.Perm exOrder' := by decide +kernel

example : NoCounter c!"timers." (messages [Op.msg c!"t:7|ms", .flush 1000 90] ++ exOrder) := by
  intro m hm k fs hp hk
  have h1 := parsed_iff.1 hp
  have : ∀ m ∈ messages [Op.msg c!"t:7|ms", .flush 1000 90] ++ exOrder,
      (parseMessage m).all (fun p => decide (p.mtype ≠ c!"c") || !(c!"timers.").isPrefixOf p.key) := by
    decide +kernel
  have := this m hm
  rw [h1] at this
  simp only [Option.all_some, Bool.or_eq_true, decide_eq_true_eq, Bool.not_eq_true'] at this
  rcases this with h | h
  · exact h rfl
  · rw [List.isPrefixOf_iff_prefix.2 hk] at h; cases h

example : ∀ m ∈ exOrder, ¬ Reading c!"ms" c!"t" m .nan := by
  intro m hm hr
  have : ∀ m ∈ exOrder, timerEffect m ≠ some (c!"t", .nan) := by decide +kernel
  exact this m hm (timerEffect_iff.2 hr)

example : said ((flush (messageProcessor noPlugins) exWorld 1000 90 (processAll (messageProcessor noPlugins) exWorld
    (MPState.init noPlugins []) [c!"t:3|ms"])).2.1.filter (ofTimer c!"t")) =
  [(c!"stats.timers.t.count", .int 1), (c!"stats.timers.t.lower", .flt (.fin 3)), (c!"stats.timers.t.mean", .flt (.fin 3)),
   (c!"stats.timers.t.upper", .flt (.fin 3)), (c!"stats.timers.t.upper_90", .flt (.fin 3))] := by decide +kernel

end

section
attribute [local instance] ratRounding

/-- The flush of both orders completes. -/
theorem exOrder_completes (l : List Str) (h : l = exOrder ∨ l = exOrder') :
    (flush (messageProcessor noPlugins) exWorld 1000 90 (processAll (messageProcessor noPlugins) exWorld
      (MPState.init noPlugins []) l)).2.2 = none := by
  have : Exact := ⟨fun _ => rfl⟩
  have hwf := mpwf_processAll noPlugins exWorld l (mpwf_init noPlugins [])
  rw [flush_mp noPlugins exWorld 1000 90 hwf]
  refine flushForm_survives _ _ _ _ _ _ _ _ _ ?_ (runElems_none fun p hp => ?_) ?_ hwf.shared (runElems_keys _ _ _) ?_
  · rcases h with rfl | rfl <;> decide +kernel
  · obtain ⟨o, ho, _⟩ := timerGroup_ok (percent := 90) (by norm_num) (by norm_num) _ p.1 p.2
    exact ⟨o, ho⟩
  · rcases h with rfl | rfl <;> decide +kernel
  · rcases h with rfl | rfl <;> decide +kernel

end
end Txstatsd
