import Verif.Props.UniqueNames
import Verif.Lemmas.Kept
import Verif.Props.Counters
import Verif.Props.Accounting
import Verif.Props.FlushTask

set_option linter.unusedSectionVars false
set_option linter.unusedVariables false

/-!
# C174: what carbon keeps of the counts
-/

namespace Txstatsd
open Spec
section
variable [Rounding] {PF PM : Type}

/-- C174: if flushes begin at least a second apart, carbon keeps every count of every counter. -/
theorem C174_counts (ops : PluginOps PF PM) (hq : Quiet ops c!"stats_counts.") (plugins : List PF) (w : World) (hc : ∀ n, 0 ≤ w.clk n)
    (os : List Op) (hw : WholeSeconds os) (ha : FlushesApart (messageProcessor ops) w (MPState.init ops plugins) os) (key : Str) :
    let out := (runOps (messageProcessor ops) w (MPState.init ops plugins) os).2
    named (c!"stats_counts." ++ key) (carbonKeeps out) = named (c!"stats_counts." ++ key) out := by
  intro out
  refine kept_named (P := fun n => decide (n = c!"stats_counts." ++ key)) ?_
  refine (kept_run (fun n => decide (n = c!"stats_counts." ++ key)) hc os ha ?_).1
  intro a c i p e
  have hwf := mpwf_runOps ops w (mpwf_init ops plugins) a
  have hi : 1000 ≤ i := hw i p (by rw [e]; simp)
  have hn := flush_named_counts ops hq w hi p hwf key
  unfold named at hn
  constructor
  · rw [hn]
    cases (runOps (messageProcessor ops) w (MPState.init ops plugins) a).1.counters.find key <;> simp
  · intro d hd hp
    have : d ∈ (flush (messageProcessor ops) w i p (runOps (messageProcessor ops) w (MPState.init ops plugins) a).1).2.1.filter
        (fun d => decide (d.name = c!"stats_counts." ++ key)) := List.mem_filter.2 ⟨hd, hp⟩
    rw [hn] at this
    cases hf : (runOps (messageProcessor ops) w (MPState.init ops plugins) a).1.counters.find key with
    | none => rw [hf] at this; simp at this
    | some v => rw [hf] at this; simp at this; rw [this]

/-- C174: then, in exact arithmetic, what carbon keeps of a counter and what the processor holds of it add up to the increments received. -/
theorem C174_balance [Exact] (ops : PluginOps PF PM) (hq : Quiet ops c!"stats_counts.") (plugins : List PF) (w : World)
    (hc : ∀ n, 0 ≤ w.clk n) (os : List Op) (hw : WholeSeconds os)
    (ha : FlushesApart (messageProcessor ops) w (MPState.init ops plugins) os) (key : Str) (qs : List (ℚ × ℚ))
    (hinc : Increments key (messages os) (qs.map fun p => (.fin p.1, .fin p.2))) :
    let c := runOps (messageProcessor ops) w (MPState.init ops plugins) os
    ((named (c!"stats_counts." ++ key) (carbonKeeps c.2)).map fun d => d.value.rat).sum
      + ((c.1.counters.find key).getD (.int 0)).rat = (qs.map fun p => p.1 / p.2).sum := by
  intro c
  rw [C174_counts ops hq plugins w hc os hw ha key]
  exact C08_exact_balance ops hq plugins w os hw key qs hinc

theorem kept_last {n : Str} {l pre : List Datapoint} {d : Datapoint} (h : named n l = pre ++ [d]) (ht : ∀ e ∈ pre, e.ts = d.ts) :
    named n (carbonKeeps l) = [d] := by
  induction l generalizing pre with
  | nil => simp [named] at h
  | cons x l ih =>
    unfold named at h ih ⊢
    rw [carbonKeeps]
    by_cases hx : x.name = n
    · rw [List.filter_cons_of_pos (by simp [hx])] at h
      cases pre with
      | nil =>
        simp only [List.nil_append, List.cons.injEq] at h
        have hn : ¬ ∃ e ∈ l, e.name = x.name ∧ e.ts = x.ts := by
          rintro ⟨e, he, h1, -⟩
          have : e ∈ l.filter fun d => decide (d.name = n) := List.mem_filter.2 ⟨he, by simp [h1, hx]⟩
          rw [h.2] at this; cases this
        rw [if_neg hn, List.filter_cons_of_pos (by simp [hx])]
        have hs := (kept_sublist l).filter (fun d => decide (d.name = n))
        rw [h.2, List.sublist_nil] at hs
        rw [hs, h.1]
      | cons y pre =>
        simp only [List.cons_append, List.cons.injEq] at h
        obtain ⟨rfl, h⟩ := h
        have hd : d ∈ l.filter fun d => decide (d.name = n) := by rw [h]; simp
        obtain ⟨hd, hdn⟩ := List.mem_filter.1 hd
        rw [if_pos ⟨d, hd, by rw [hx]; exact of_decide_eq_true hdn, (ht x (by simp)).symm⟩]
        exact ih h fun e he => ht e (by simp [he])
    · rw [List.filter_cons_of_neg (by simp [hx])] at h
      split_ifs
      · exact ih h ht
      · rw [List.filter_cons_of_neg (by simp [hx])]; exact ih h ht

/-- C174: of the readings of a gauge that a completed flush repeats, carbon keeps the last one received, and nothing else under the name. -/
theorem C174_gauges (ops : PluginOps PF PM) (hq : Quiet ops c!"stats.gauge.") (plugins : List PF) (w : World) (os : List Op)
    (interval percent : ℤ) (key : Str) (v : PyFloat) (hv : Latest c!"g" key (messages os) v)
    (hc : ∀ m ∈ messages os, ∀ fs, ¬ Parsed m c!"c" (c!"gauge." ++ key ++ c!".value") fs) :
    let s := (runOps (messageProcessor ops) w (MPState.init ops plugins) os).1
    let r := flush (messageProcessor ops) w interval percent s
    r.2.2 = none →
    named (c!"stats.gauge." ++ key ++ c!".value") (carbonKeeps r.2.1) =
      [⟨c!"stats.gauge." ++ key ++ c!".value", .flt v, truncQ (w.clk s.ticks)⟩] := by
  intro s r hok
  obtain ⟨before, m, after, hmsgs, hm, hafter⟩ := hv
  have hlast := C14_last_reading ops hq plugins w os interval percent key v before after m hmsgs hm hafter hok
  obtain ⟨vs, hvs⟩ := collect_exists (Reading c!"g" key) (messages os)
  have hall := C15_backlog ops hq plugins w os interval percent key vs hvs (by
    intro hk
    obtain ⟨m, hm, o, ho⟩ := history_counter_keys ops plugins w os _ hk
    obtain ⟨fs, hp⟩ := counterEffect_counts ho
    exact hc m hm fs hp) hok
  obtain ⟨pre, hpre⟩ := List.getLast?_eq_some_iff.1 hlast
  refine kept_last hpre ?_
  intro e he
  have : e ∈ named (c!"stats.gauge." ++ key ++ c!".value") r.2.1 := by rw [hpre]; exact List.mem_append_left _ he
  rw [show named (c!"stats.gauge." ++ key ++ c!".value") r.2.1 = _ from hall] at this
  obtain ⟨_, _, rfl⟩ := List.mem_map.1 this
  rfl

theorem messages_split {os a c : List Op} {i p : ℤ} (e : os = a ++ Op.flush i p :: c) : ∃ b, messages os = messages a ++ b := by
  subst e
  exact ⟨messages (Op.flush i p :: c), by simp [messages]⟩

theorem oneReading_before {a b : List Str} (h : OneReading (a ++ b)) : OneReading a := by
  intro key vs hv
  obtain ⟨ys, hy⟩ := collect_exists (Reading c!"g" key) b
  have := h key _ (collect_append hv hy)
  rw [List.length_append] at this
  omega

theorem times_default (ops : PluginOps PF PM) (w : World) (i p : ℤ) {s : MPState PF PM} (hwf : MPWf ops s)
    (hp : ∀ d, PluginPoint ops w statsPrefix (Int.fdiv i 1000) (truncQ (w.clk s.ticks)) d → d.ts = truncQ (w.clk s.ticks)) :
    ∀ d ∈ (flush (messageProcessor ops) w i p s).2.1, d.ts = truncQ (w.clk s.ticks) := by
  intro d hd
  obtain ⟨cc, tt, gg, mm, pp, su, he, _, h1, h2, h3, h4, h5, h5', h6⟩ := flush_sections ops w i p hwf
  rw [he] at hd
  simp only [List.mem_append] at hd
  rcases hd with ((((hd | hd) | hd) | hd) | hd) | hd
  · exact (h1 d hd).1
  · exact (h2 d hd).1
  · exact (h3 d hd).1
  · exact (h4 d hd).1
  · exact hp d (h5 d hd)
  · exact (h6 d hd).1

theorem times_configurable (ops : PluginOps PF PM) (pre int : Str) (w : World) (i p : ℤ) {s : CPState PF PM} (hwf : CPWf ops pre s)
    (hp : ∀ d, PluginPoint ops w (fun _ => pre) (Int.fdiv i 1000) (truncQ (w.clk s.ticks)) d → d.ts = truncQ (w.clk s.ticks)) :
    ∀ d ∈ (flush (configurable ops pre int) w i p s).2.1, d.ts = truncQ (w.clk s.ticks) := by
  intro d hd
  obtain ⟨tt, gg, mm, pp, su, he, h2, h3, h4, h5, h5', h6⟩ := flush_sectionsC ops pre int w i p hwf
  rw [he] at hd
  simp only [List.mem_append] at hd
  rcases hd with ((((hd | hd) | hd) | hd) | hd) | hd
  · obtain ⟨gr, hgr, hd⟩ := List.mem_flatten.1 hd
    obtain ⟨q, _, hgp⟩ := runElems_groups _ _ _ gr hgr
    simp only [CounterRep.report] at hgp
    split at hgp
    · simp only [Except.map, Except.ok.injEq, Option.some.injEq] at hgp; subst hgp
      simp only [List.mem_singleton] at hd; subst hd; rfl
    · simp [Except.map] at hgp
  · rcases h2 with rfl | rfl
    · cases hd
    obtain ⟨gr, hgr, hd⟩ := List.mem_flatten.1 hd
    obtain ⟨q, _, hgp⟩ := runElems_groups _ _ _ gr hgr
    simp only [TimerRep.report] at hgp
    split at hgp
    · simp [Except.map] at hgp
    · simp only [Except.map, Except.ok.injEq, Option.some.injEq] at hgp; subst hgp
      obtain ⟨x, _, rfl⟩ := List.mem_map.1 hd; rfl
  · rcases h3 with rfl | rfl
    · cases hd
    obtain ⟨gr, hgr, hd⟩ := List.mem_flatten.1 hd
    obtain ⟨q, _, rfl⟩ := List.mem_map.1 hgr
    simp only [GaugeRep.report, List.mem_singleton] at hd; subst hd; rfl
  · rcases h4 with rfl | rfl
    · cases hd
    obtain ⟨gr, hgr, hd⟩ := List.mem_flatten.1 hd
    obtain ⟨q, _, hgp⟩ := runElems_groups _ _ _ gr hgr
    simp only [Meter.report] at hgp
    split at hgp
    · simp only [Except.map, Except.ok.injEq, Option.some.injEq] at hgp; subst hgp; cases hd
    · split at hgp
      · simp [Except.map] at hgp
      · simp only [Except.map, Except.ok.injEq, Option.some.injEq] at hgp; subst hgp
        simp only [List.mem_cons, List.not_mem_nil, or_false] at hd
        rcases hd with rfl | rfl <;> rfl
  · exact hp d (h5 d hd)
  · exact (h6 d hd).1

theorem shipped_ts [Power] {w : World} {pre : Str → Str} {secs ts : ℤ} {d : Datapoint} (h : PluginPoint shippedOps w pre secs ts d) :
    d.ts = ts := by
  obtain ⟨n, key, m, l, -, hl, hd⟩ := h
  cases m with
  | sli r =>
    simp only [shippedOps, SliReporter.flush, Except.ok.injEq] at hl
    subst hl
    simp only [List.mem_append, List.mem_map, List.mem_cons, List.not_mem_nil, or_false] at hd
    rcases hd with ⟨kv, -, rfl⟩ | rfl | rfl <;> rfl
  | distinct r =>
    have hl : r.flush (w.clk n) ts = .ok l := hl
    unfold DistinctReporter.flush at hl
    simp only [bind, Except.bind] at hl
    split at hl
    · cases hl
    · split at hl
      · cases hl
      · split at hl
        · cases hl
        · split at hl
          · cases hl
          · simp only [Except.ok.injEq] at hl; subst hl
            simp only [List.mem_cons, List.not_mem_nil, or_false] at hd
            rcases hd with rfl | rfl | rfl | rfl <;> rfl

/-- C174: under the conditions of C173, and if no flush raises and flushes begin at least a second apart, carbon keeps everything. -/
theorem C174_everything_partial (ops : PluginOps PF PM) (plugins : List PF) (w : World) (hc : ∀ n, 0 ≤ w.clk n) (os : List Op)
    (hp : NoPluginUse ops plugins (messages os)) (hg : OneReading (messages os))
    (ht : NoCounter c!"timers." (messages os)) (hgc : NoCounter c!"gauge." (messages os)) (hm : NoCounter c!"meter." (messages os))
    (ha : FlushesApart (messageProcessor ops) w (MPState.init ops plugins) os)
    (hok : AllComplete (messageProcessor ops) w (MPState.init ops plugins) os) :
    let out := (runOps (messageProcessor ops) w (MPState.init ops plugins) os).2
    carbonKeeps out = out := by
  intro out
  refine kept_all ?_
  have := (kept_run (s := MPState.init ops plugins) (fun _ => true) hc os ha ?_).1
  · simpa using this
  intro a c i p e
  obtain ⟨b, hb⟩ := messages_split e
  rw [hb] at hp hg ht hgc hm
  have hp' := (noPluginUse_append.1 hp).1
  have hu := C173_default_partial ops plugins w a i p hp' (oneReading_before hg)
    (fun m hm' => ht m (List.mem_append_left _ hm')) (fun m hm' => hgc m (List.mem_append_left _ hm'))
    (fun m hm' => hm m (List.mem_append_left _ hm')) (hok a c i p e)
  refine ⟨by simpa [UniqueNames] using hu, ?_⟩
  intro d hd _
  have hwf := mpwf_runOps ops w (mpwf_init ops plugins) a
  obtain ⟨cc, tt, gg, mm, pp, su, he, _, h1, h2, h3, h4, h5, h5', h6⟩ := flush_sections ops w i p hwf
  rw [h5' (unused_plugins ops plugins w a hp')] at he
  rw [he] at hd
  simp only [List.mem_append, List.append_nil] at hd
  rcases hd with (((hd | hd) | hd) | hd) | hd
  · exact (h1 d hd).1
  · exact (h2 d hd).1
  · exact (h3 d hd).1
  · exact (h4 d hd).1
  · exact (h6 d hd).1

/-- C174: the same of the processor with prefixes. -/
theorem C174_everythingC_partial (ops : PluginOps PF PM) (pre int : Str) (plugins : List PF) (w : World) (hc : ∀ n, 0 ≤ w.clk n)
    (os : List Op) (hp : NoPluginUse ops plugins (messages os)) (hk : OneKind (messages os))
    (ha : FlushesApart (configurable ops pre int) w (CPState.init ops plugins) os)
    (hok : AllComplete (configurable ops pre int) w (CPState.init ops plugins) os) :
    let self := if int = [] then (if pre = [] then c!"statsd." else pre ++ c!".statsd.") else int
    (∀ t k suffix, Received t k (messages os) → (t, suffix) ∈ suffixes → ¬ self <+: prefixed pre k suffix) →
    let out := (runOps (configurable ops pre int) w (CPState.init ops plugins) os).2
    carbonKeeps out = out := by
  intro self hown out
  refine kept_all ?_
  have := (kept_run (s := CPState.init ops plugins) (fun _ => true) hc os ha ?_).1
  · simpa using this
  intro a c i p e
  obtain ⟨b, hb⟩ := messages_split e
  rw [hb] at hp hk hown
  have hp' := (noPluginUse_append.1 hp).1
  have hr : ∀ {t k}, Received t k (messages a) → Received t k (messages a ++ b) := by
    rintro t k ⟨m, hm, h⟩
    exact ⟨m, List.mem_append_left _ hm, h⟩
  have hu := C173_configurable_partial ops pre int plugins w a i p hp'
    (fun k => ⟨fun h => (hk k).1 ⟨hr h.1, hr h.2⟩, fun h => (hk k).2.1 ⟨hr h.1, hr h.2⟩, fun h => (hk k).2.2 ⟨hr h.1, hr h.2⟩⟩)
    (fun t k sfx h hs => hown t k sfx (hr h) hs) (hok a c i p e)
  refine ⟨by simpa [UniqueNames] using hu, ?_⟩
  intro d hd _
  have hwf := cpwf_runOps ops pre int w (cpwf_init ops pre plugins) a
  obtain ⟨tt, gg, mm, pp, su, he, h2, h3, h4, h5, h5', h6⟩ := flush_sectionsC ops pre int w i p hwf
  rw [h5' (unused_pluginsC ops pre int plugins w a hp').1] at he
  rw [he] at hd
  simp only [List.mem_append, List.append_nil] at hd
  rcases hd with (((hd | hd) | hd) | hd) | hd
  · obtain ⟨gr, hgr, hd⟩ := List.mem_flatten.1 hd
    obtain ⟨q, _, hgp⟩ := runElems_groups _ _ _ gr hgr
    simp only [CounterRep.report] at hgp
    split at hgp
    · simp only [Except.map, Except.ok.injEq, Option.some.injEq] at hgp; subst hgp
      simp only [List.mem_singleton] at hd; subst hd; rfl
    · simp [Except.map] at hgp
  · rcases h2 with rfl | rfl
    · cases hd
    obtain ⟨gr, hgr, hd⟩ := List.mem_flatten.1 hd
    obtain ⟨q, _, hgp⟩ := runElems_groups _ _ _ gr hgr
    simp only [TimerRep.report] at hgp
    split at hgp
    · simp [Except.map] at hgp
    · simp only [Except.map, Except.ok.injEq, Option.some.injEq] at hgp; subst hgp
      obtain ⟨x, _, rfl⟩ := List.mem_map.1 hd; rfl
  · rcases h3 with rfl | rfl
    · cases hd
    obtain ⟨gr, hgr, hd⟩ := List.mem_flatten.1 hd
    obtain ⟨q, _, rfl⟩ := List.mem_map.1 hgr
    simp only [GaugeRep.report, List.mem_singleton] at hd; subst hd; rfl
  · rcases h4 with rfl | rfl
    · cases hd
    obtain ⟨gr, hgr, hd⟩ := List.mem_flatten.1 hd
    obtain ⟨q, _, hgp⟩ := runElems_groups _ _ _ gr hgr
    simp only [Meter.report] at hgp
    split at hgp
    · simp only [Except.map, Except.ok.injEq, Option.some.injEq] at hgp; subst hgp; cases hd
    · split at hgp
      · simp [Except.map] at hgp
      · simp only [Except.map, Except.ok.injEq, Option.some.injEq] at hgp; subst hgp
        simp only [List.mem_cons, List.not_mem_nil, or_false] at hd
        rcases hd with rfl | rfl <;> rfl
  · exact (h6 d hd).1

/-- C174: with the two plugins that come with the program, used in any way, under the conditions of C173. -/
theorem C174_shipped_partial [Power] (cfg : SliConfig) (hl : DotlessLabels cfg) (w : World) (hc : ∀ n, 0 ≤ w.clk n) (os : List Op)
    (hg : OneReading (messages os))
    (hn : ∀ word ∈ [c!"timers.", c!"gauge.", c!"meter.", c!"SLI.", c!"pdistinct."], NoCounter word (messages os))
    (ha : FlushesApart (messageProcessor shippedOps) w (MPState.init shippedOps [.distinct, .sli cfg]) os)
    (hok : AllComplete (messageProcessor shippedOps) w (MPState.init shippedOps [.distinct, .sli cfg]) os) :
    let out := (runOps (messageProcessor shippedOps) w (MPState.init shippedOps [.distinct, .sli cfg]) os).2
    carbonKeeps out = out := by
  intro out
  refine kept_all ?_
  have := (kept_run (s := MPState.init shippedOps [.distinct, .sli cfg]) (fun _ => true) hc os ha ?_).1
  · simpa using this
  intro a c i p e
  obtain ⟨b, hb⟩ := messages_split e
  rw [hb] at hg hn
  have hu := C173_shipped_partial cfg hl w a i p (oneReading_before hg)
    (fun word hw m hm => hn word hw m (List.mem_append_left _ hm)) (hok a c i p e)
  refine ⟨by simpa [UniqueNames] using hu, ?_⟩
  intro d hd _
  exact times_default shippedOps w i p (mpwf_runOps shippedOps w (mpwf_init shippedOps [.distinct, .sli cfg]) a)
    (fun d h => shipped_ts h) d hd

/-- C174: the same of the processor with prefixes. -/
theorem C174_shippedC_partial [Power] (cfg : SliConfig) (hl : DotlessLabels cfg) (pre int : Str) (hpre : pre.getLast? ≠ some '.') (w : World)
    (hc : ∀ n, 0 ≤ w.clk n) (os : List Op) (hk : OneKind (messages os)) (hpk : PluginsApart (messages os))
    (ha : FlushesApart (configurable shippedOps pre int) w (CPState.init shippedOps [.distinct, .sli cfg]) os)
    (hok : AllComplete (configurable shippedOps pre int) w (CPState.init shippedOps [.distinct, .sli cfg]) os) :
    let self := if int = [] then (if pre = [] then c!"statsd." else pre ++ c!".statsd.") else int
    (∀ t k suffix, Received t k (messages os) → (t, suffix) ∈ suffixes → ¬ self <+: prefixed pre k suffix) →
    (∀ k y, ForPlugin k (messages os) → '.' ∉ y → ¬ self <+: prefixed pre k ('.' :: y)) →
    let out := (runOps (configurable shippedOps pre int) w (CPState.init shippedOps [.distinct, .sli cfg]) os).2
    carbonKeeps out = out := by
  intro self hown hownp out
  refine kept_all ?_
  have := (kept_run (s := CPState.init shippedOps [.distinct, .sli cfg]) (fun _ => true) hc os ha ?_).1
  · simpa using this
  intro a c i p e
  obtain ⟨b, hb⟩ := messages_split e
  rw [hb] at hk hpk hown hownp
  have hr : ∀ {t k}, Received t k (messages a) → Received t k (messages a ++ b) := by
    rintro t k ⟨m, hm, h⟩
    exact ⟨m, List.mem_append_left _ hm, h⟩
  have hf : ∀ {k}, ForPlugin k (messages a) → ForPlugin k (messages a ++ b) := by
    rintro k ⟨m, hm, h⟩
    exact ⟨m, List.mem_append_left _ hm, h⟩
  have hu := C173_shippedC_partial cfg hl pre int hpre w a i p
    (fun k => ⟨fun h => (hk k).1 ⟨hr h.1, hr h.2⟩, fun h => (hk k).2.1 ⟨hr h.1, hr h.2⟩, fun h => (hk k).2.2 ⟨hr h.1, hr h.2⟩⟩)
    (fun k h => ⟨fun x => (hpk k (hf h)).1 (hr x), fun x => (hpk k (hf h)).2.1 (hr x), fun x => (hpk k (hf h)).2.2 (hr x)⟩)
    (fun t k sfx h hs => hown t k sfx (hr h) hs) (fun k y h hy => hownp k y (hf h) hy) (hok a c i p e)
  refine ⟨by simpa [UniqueNames] using hu, ?_⟩
  intro d hd _
  exact times_configurable shippedOps pre int w i p (cpwf_runOps shippedOps pre int w (cpwf_init shippedOps pre [.distinct, .sli cfg]) a)
    (fun d h => shipped_ts h) d hd


theorem apart_of {C T G : Type} {I : Impl C T G PF PM} {w : World} {s : PS C T G PF PM} {os : List Op}
    (h : ∀ k < os.length, ∀ j < k, w.clk (runOps I w s (os.take j)).1.ticks + 1 ≤ w.clk (runOps I w s (os.take k)).1.ticks) :
    FlushesApart I w s os := by
  intro a b c i p i' p' e
  have h1 := h (a.length + 1 + b.length) (by rw [e]; simp; omega) a.length (by omega)
  have e1 : os.take a.length = a := by rw [e]; simp
  have e2 : os.take (a.length + 1 + b.length) = a ++ Op.flush i p :: b := by
    rw [e, show a ++ Op.flush i p :: (b ++ Op.flush i' p' :: c) = (a ++ Op.flush i p :: b) ++ Op.flush i' p' :: c by simp,
      show a.length + 1 + b.length = (a ++ Op.flush i p :: b).length by simp; omega]
    exact List.take_left
  rw [e1, e2] at h1
  exact h1

end

/-- C174: while the service runs, flushes begin in different seconds counted from its start; so they get different timestamps if it was
started at a whole second. -/
theorem C174_begun_partial [Rounding] {R S : Type} (P : Proc S) (cf : AppConf R) (w : World) (p : ℤ) (hw : SecondsIn cf.flushInterval p) (hp : 0 < p)
    (v : Life S) (hr : v.task.running = false) (s : ℚ) (es : List TaskEvent) (hs : NoStop es) :
    ∃ new : List ℚ, (v.run P cf w (.start s :: es)).task.calls = v.task.calls ++ new.map (fun t => (s, t)) ∧
      new.Pairwise (fun t t' => ⌊t - s⌋ < ⌊t' - s⌋) ∧ ((∃ z : ℤ, s = z) → 0 ≤ s → new.Pairwise fun t t' => truncQ t < truncQ t') := by
  obtain ⟨new, h1, -, h3, h4, -⟩ := C156_times P cf w p hw hp v hr s es hs
  have key : ∀ t t' : ℚ, ⌊(t - s) / p⌋ < ⌊(t' - s) / p⌋ → ⌊t - s⌋ < ⌊t' - s⌋ := by
    intro t t' h
    by_contra hn
    have h5 : ⌊t' - s⌋ ≤ ⌊t - s⌋ := not_lt.1 hn
    have hpq : (0 : ℚ) < p := by exact_mod_cast hp
    have h6 := Int.floor_le ((t' - s) / p)
    have h7 := Int.lt_floor_add_one ((t - s) / p)
    have h8 : ((⌊(t - s) / p⌋ : ℚ) + 1) ≤ ⌊(t' - s) / p⌋ := by exact_mod_cast h
    have h9 : (⌊(t' - s) / p⌋ : ℚ) * p ≤ t' - s := (le_div_iff₀ hpq).1 h6
    have h10 : t - s < (⌊(t - s) / p⌋ + 1 : ℚ) * p := (div_lt_iff₀ hpq).1 h7
    have h11 : ⌊(t' - s) / p⌋ * p ≤ ⌊t' - s⌋ := Int.le_floor.2 (by push_cast; exact h9)
    have h12 : ⌊t - s⌋ < ⌊(t' - s) / p⌋ * p := by
      refine Int.floor_lt.2 ?_
      push_cast
      exact lt_of_lt_of_le h10 (mul_le_mul_of_nonneg_right h8 hpq.le)
    omega
  refine ⟨new, h1, h4.imp (fun h => key _ _ h), ?_⟩
  rintro ⟨z, rfl⟩ hz
  have hpos : ∀ t ∈ new, 0 ≤ t := by
    intro t ht
    have := h3 t ht
    have hpq : (0 : ℚ) < p := by exact_mod_cast hp
    linarith
  refine List.Pairwise.imp_of_mem ?_ h4
  intro t t' ht ht' h
  have := key _ _ h
  rw [Int.floor_sub_intCast, Int.floor_sub_intCast] at this
  unfold truncQ
  rw [if_pos (hpos t ht), if_pos (hpos t' ht')]
  omega

section
attribute [local instance] ratRounding

/-- C174: otherwise not: a flush that comes late may be followed in the same second by the next. -/
theorem C174_begun_refuted : ¬ ∀ (s : ℚ) (es : List TaskEvent) (_ : 0 ≤ s) (_ : NoStop es) (new : List ℚ),
    (Life.run (messageProcessor noPlugins).proc exAppConf exWorld { app := { ps := MPState.init noPlugins [] } } (.start s :: es)).task.calls =
      new.map (fun t => (s, t)) → new.Pairwise fun t t' => truncQ t < truncQ t' := by
  intro h
  have := h (3 / 10) [.clock (1201 / 10), .clock (1203 / 10)] (by norm_num) (by simp [NoStop]) [1201 / 10, 1203 / 10] (by decide +kernel)
  revert this
  decide +kernel

/-- C174: two flushes in one second: carbon keeps 0 of the increment received, and the processor holds 0. -/
theorem C174_counts_refuted : ¬ ∀ (w : World) (os : List Op) (_ : ∀ n, 0 ≤ w.clk n) (_ : WholeSeconds os) (qs : List (ℚ × ℚ)),
    Increments c!"a" (messages os) (qs.map fun p => (.fin p.1, .fin p.2)) →
    let c := runOps (messageProcessor noPlugins) w (MPState.init noPlugins []) os
    ((named c!"stats_counts.a" (carbonKeeps c.2)).map fun d => d.value.rat).sum
      + ((c.1.counters.find c!"a").getD (.int 0)).rat = (qs.map fun p => p.1 / p.2).sum := by
  intro h
  have := h { exWorld with clk := fun _ => 7 } [.msg c!"a:1|c", .flush 1000 90, .flush 1000 90] (by intro n; norm_num)
    (by intro i p hi; simp at hi; omega) [(1, 1)]
    (.hit (increment_of (by decide +kernel)) .nil)
  revert this
  decide +kernel


/-- The hypotheses of `C174_counts` and `C174_balance` are met, and counts are kept. -/
example :
    let os : List Op := [.msg c!"a:1|c", .msg c!"a:3|g", .flush 10000 90, .msg c!"a:4|c", .msg c!"a:3|g", .flush 1000 90]
    FlushesApart (messageProcessor noPlugins) exWorld (MPState.init noPlugins []) os ∧ WholeSeconds os ∧ (∀ n, 0 ≤ exWorld.clk n) ∧
    ((named c!"stats_counts.a" (carbonKeeps (runOps (messageProcessor noPlugins) exWorld (MPState.init noPlugins []) os).2)).map
      fun d => d.value.rat) = [1, 4] := by
  intro os
  refine ⟨apart_of (by decide +kernel), ?_, fun n => Nat.cast_nonneg n, by decide +kernel⟩
  intro i p hi
  simp only [os, List.mem_cons, reduceCtorEq, Op.flush.injEq, List.not_mem_nil, or_false, false_or] at hi
  omega

/-- No flush raises and all are apart; the other hypotheses of `C174_everything_partial` are met as at C173. -/
example :
    let os : List Op := [.msg c!"a:1|c", .msg c!"a:3|g", .flush 10000 90, .msg c!"a:4|m", .msg c!"b:4|c", .flush 10000 90]
    FlushesApart (messageProcessor noPlugins) exWorld (MPState.init noPlugins []) os ∧
    AllComplete (messageProcessor noPlugins) exWorld (MPState.init noPlugins []) os ∧
    FlushesApart (configurable noPlugins c!"p" []) exWorld (CPState.init noPlugins []) os ∧
    AllComplete (configurable noPlugins c!"p" []) exWorld (CPState.init noPlugins []) os := by
  intro os
  have fl : ∀ (a c : List Op) (i p : ℤ), os = a ++ Op.flush i p :: c → a.length ∈ [2, 5] ∧ a = os.take a.length ∧ i = 10000 ∧ p = 90 := by
    intro a c i p e
    have e1 : a = os.take a.length := by rw [e]; simp
    have e2 : os[a.length]? = some (Op.flush i p) := by rw [e]; simp
    have hl : a.length < 6 := by
      have := congrArg List.length e
      simp [os] at this
      omega
    generalize a.length = n at *
    match n, hl with
    | 0, _ => simp [os] at e2
    | 1, _ => simp [os] at e2
    | 2, _ => simp [os] at e2; exact ⟨by simp, e1, e2.1.symm, e2.2.symm⟩
    | 3, _ => simp [os] at e2
    | 4, _ => simp [os] at e2
    | 5, _ => simp [os] at e2; exact ⟨by simp, e1, e2.1.symm, e2.2.symm⟩
  refine ⟨apart_of (by decide +kernel), ?_, apart_of (by decide +kernel), ?_⟩
  · intro a c i p e
    obtain ⟨h1, h2, rfl, rfl⟩ := fl a c i p e
    rw [h2]
    simp only [List.mem_cons, List.not_mem_nil, or_false] at h1
    rcases h1 with h | h <;> rw [h] <;> decide +kernel
  · intro a c i p e
    obtain ⟨h1, h2, rfl, rfl⟩ := fl a c i p e
    rw [h2]
    simp only [List.mem_cons, List.not_mem_nil, or_false] at h1
    rcases h1 with h | h <;> rw [h] <;> decide +kernel

/-- The same with the plugins; the other hypotheses of `C174_shipped_partial` are met as at C173. -/
example : ∀ os : List Op, os = [.msg c!"a:1|c", .msg c!"b:3|g", .flush 10000 90, .msg c!"b:x|pd", .msg c!"d:4|sli", .flush 10000 90] →
    FlushesApart (@messageProcessor ratRounding _ _ (@shippedOps ratRounding exPower)) exWorld
      (MPState.init (@shippedOps ratRounding exPower) [.distinct, .sli exSliCfg]) os ∧
    AllComplete (@messageProcessor ratRounding _ _ (@shippedOps ratRounding exPower)) exWorld
      (MPState.init (@shippedOps ratRounding exPower) [.distinct, .sli exSliCfg]) os ∧
    FlushesApart (@configurable ratRounding _ _ (@shippedOps ratRounding exPower) c!"p" []) exWorld
      (CPState.init (@shippedOps ratRounding exPower) [.distinct, .sli exSliCfg]) os ∧
    AllComplete (@configurable ratRounding _ _ (@shippedOps ratRounding exPower) c!"p" []) exWorld
      (CPState.init (@shippedOps ratRounding exPower) [.distinct, .sli exSliCfg]) os := by
  intro os hos
  have fl : ∀ (a c : List Op) (i p : ℤ), os = a ++ Op.flush i p :: c → a.length ∈ [2, 5] ∧ a = os.take a.length ∧ i = 10000 ∧ p = 90 := by
    intro a c i p e
    have e1 : a = os.take a.length := by rw [e]; simp
    have e2 : os[a.length]? = some (Op.flush i p) := by rw [e]; simp
    have hl : a.length < 6 := by
      have := congrArg List.length e
      simp [hos] at this
      omega
    generalize a.length = n at *
    match n, hl with
    | 0, _ => simp [hos] at e2
    | 1, _ => simp [hos] at e2
    | 2, _ => simp [hos] at e2; exact ⟨by simp, e1, e2.1.symm, e2.2.symm⟩
    | 3, _ => simp [hos] at e2
    | 4, _ => simp [hos] at e2
    | 5, _ => simp [hos] at e2; exact ⟨by simp, e1, e2.1.symm, e2.2.symm⟩
  subst hos
  refine ⟨apart_of (by decide +kernel), ?_, apart_of (by decide +kernel), ?_⟩
  · intro a c i p e
    obtain ⟨h1, h2, rfl, rfl⟩ := fl a c i p e
    rw [h2]
    simp only [List.mem_cons, List.not_mem_nil, or_false] at h1
    rcases h1 with h | h <;> rw [h] <;> decide +kernel
  · intro a c i p e
    obtain ⟨h1, h2, rfl, rfl⟩ := fl a c i p e
    rw [h2]
    simp only [List.mem_cons, List.not_mem_nil, or_false] at h1
    rcases h1 with h | h <;> rw [h] <;> decide +kernel

/-- The hypotheses of `C174_begun_partial` are met: started at a whole second, with a late reading. -/
example : SecondsIn exAppConf.flushInterval 60 ∧ NoStop [.clock (1201 / 10), .clock (1203 / 10), .clock 180] ∧
    (Life.run (messageProcessor noPlugins).proc exAppConf exWorld { app := { ps := MPState.init noPlugins [] } }
      [.start 0, .clock (1199 / 10), .clock (1203 / 10), .clock 180]).task.calls = [(0, 1199 / 10), (0, 1203 / 10), (0, 180)] := by
  refine ⟨⟨by decide +kernel, by decide +kernel⟩, by simp [NoStop], by decide +kernel⟩

/-- The hypotheses of `C174_gauges` are met by a gauge with two readings. -/
example :
    let os : List Op := [.msg c!"a:1|g", .msg c!"a:1|c", .flush 10000 90, .msg c!"a:3|g", .msg c!"b:4|g"]
    Latest c!"g" c!"a" (messages os) (.fin 3) ∧
    (∀ m ∈ messages os, ∀ fs, ¬ Parsed m c!"c" (c!"gauge." ++ c!"a" ++ c!".value") fs) ∧
    (flush (messageProcessor noPlugins) exWorld 10000 90
      (runOps (messageProcessor noPlugins) exWorld (MPState.init noPlugins []) os).1).2.2 = none := by
  intro os
  refine ⟨⟨[c!"a:1|g", c!"a:1|c"], c!"a:3|g", [c!"b:4|g"], rfl, ⟨c!"3", [c!"g"], parsed_iff.2 (by decide +kernel), by decide +kernel⟩, ?_⟩, ?_, by decide +kernel⟩
  · rintro m' hm' v' ⟨f0, rest, h, -⟩
    simp only [List.mem_singleton] at hm'
    subst hm'
    have e : parseMessage c!"b:4|g" = some ⟨c!"g", c!"b", [c!"4", c!"g"]⟩ := by decide +kernel
    rw [parsed_iff, e] at h
    simp at h
  · intro m hm fs h
    have h2 : ∀ m ∈ messages os, ((parseMessage m).map fun x => x.key) ∈ [some c!"a", some c!"b"] := by decide +kernel
    have h3 := h2 m hm
    rw [parsed_iff.1 h] at h3
    simp at h3

end
end Txstatsd
