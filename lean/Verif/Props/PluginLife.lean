import Verif.Lemmas.ShippedLife
import Verif.Props.Interleaved
import Verif.Props.Plugins
import Verif.Props.Distinct

/-!
# C129-C132: plugins of the configurable processor
-/

namespace Txstatsd
open Spec
section
variable [Rounding]

/-! ## C129 -/

/-- C129: in every schedule of messages and overlapping flushes of the configurable processor, a plugin metric goes through one life:
it is built with the configured prefix by the plugin of the type of its first message, is handed exactly the messages of plugin
types under its name, in the order of their arrival, and what was emitted or is under way for the name is exactly what its flushes made.
The plugins may be any whose metrics name their points after their own name. -/
theorem C129_plugin_life {PF PM : Type} (ops : PluginOps PF PM) (pre int : Str) (plugins : List PF) (w : World) (key : Str)
    (hpts : ∀ k m, Reachable ops w (CPState.init ops plugins).plugins (fun _ => pre) k m → ∀ n secs ts,
      ∀ d ∈ madeBy (ops.flush w n m secs ts).2.2, ofKey pre key d = decide (k = key))
    (hi1 : ¬ internalPrefixOf pre int <+: prefixed pre key ['.']) (hi2 : ¬ prefixed pre key ['.'] <+: internalPrefixOf pre int)
    (es : List Event) (hno : ∀ T ∈ [c!"c", c!"ms", c!"g", c!"m"], ¬ Received T key (arrivals es)) :
    let P := (CPState.init ops plugins).plugins
    let v := (startUp (CPState.init ops plugins)).run (configurable ops pre int) w es
    let pts := (v.out ++ underWay v.gens).filter (ofKey pre key)
    (v.ps.pluginMetrics.find key = none ∧ pluginMsgs P key (arrivals es) = [] ∧ pts = []) ∨
    ∃ m t gs, v.ps.pluginMetrics.find key = some m ∧
      PluginLife ops w P (fun _ => pre) key t (pluginMsgs P key (arrivals es)) gs m ∧ pts.Perm gs.flatten := by
  intro P v pts
  have W := plugin_watch (cp_local ops pre int) (cp_timed ops pre int) (cp_apart ops pre int) w P key (ofKey pre key) (fun _ _ => True)
    hpts (internal_not_key hi1 hi2) (fun s ms => CPWf ops pre s ∧ StoredC pre s ms)
    (fun ms => ∀ T ∈ [c!"c", c!"ms", c!"g", c!"m"], ¬ Received T key ms)
    (fun ms m h T hT hr => h T hT (received_snoc.2 (Or.inl hr))) (fun h => h.1.shared)
    (fun hs h => ⟨cpwf_same hs h.1, storedC_keys h.2 hs.counters hs.gauges (by rw [hs.timers]) (by rw [hs.meters])⟩)
    (fun m h => ⟨cpwf_process ops pre int w h.1 m, storedC_process ops pre int w h.2 m⟩)
    (fun k cursor ts secs percent h _ =>
      have hfr := visit_frameC ops pre int w secs percent ts k h.1 cursor
      ⟨hfr.wf, storedC_keys h.2 hfr.counters hfr.gauges hfr.keys1 hfr.keys3⟩)
    (fun k cursor ts secs percent h hh hk => visit_not_key ops pre int w secs percent ts hk h.1 h.2 hh cursor)
  obtain ⟨_, _, h⟩ := (watch_run W (s := CPState.init ops plugins)
    ⟨⟨cpwf_init ops pre plugins, storedC_init ops pre plugins⟩, lives_init ops w _ rfl, fun _ => Or.inl ⟨rfl, rfl, rfl⟩⟩ es
    (fun _ _ _ => trivial)).2
  rcases h hno with h | ⟨m, t, gs, h1, _, h3, h4⟩
  · exact Or.inl h
  · exact Or.inr ⟨m, t, gs, h1, h3, h4⟩

variable [Power]

/-! ## C130 -/

theorem shipped_dotless {cfg : SliConfig} (hl : DotlessLabels cfg) :
    ∀ t c, (CPState.init shippedOps [.distinct, .sli cfg]).plugins.find t = some (.sli c) → DotlessLabels c := by
  intro t c h
  have e : (CPState.init shippedOps [.distinct, .sli cfg]).plugins = [(c!"pd", .distinct), (c!"sli", .sli cfg)] := rfl
  rw [e] at h
  simp only [Dict.find] at h
  split_ifs at h with h1 h2
  · simp only [Option.some.injEq] at h; cases h
  · simp only [Option.some.injEq, Factory.sli.injEq] at h; subst h; exact hl

theorem shipped_msgs {cfg : SliConfig} (key : Str) (ms : List Str) :
    ∀ x ∈ pluginMsgs (CPState.init shippedOps [.distinct, .sli cfg]).plugins key ms,
      ∃ msg ∈ ms, parseMessage msg = some x ∧ x.key = key ∧ (x.mtype = c!"sli" ∨ x.mtype = c!"pd") := by
  intro x hx
  obtain ⟨msg, hm, h⟩ := List.mem_filterMap.1 hx
  cases hp : parseMessage msg with
  | none => simp [hp] at h
  | some y =>
    simp only [hp] at h
    split_ifs at h with hc
    simp only [Option.some.injEq] at h
    subst h
    refine ⟨msg, hm, hp, hc.1, ?_⟩
    have e : (CPState.init shippedOps [.distinct, .sli cfg]).plugins = [(c!"pd", .distinct), (c!"sli", .sli cfg)] := rfl
    have h3 := hc.2.2
    rw [e] at h3
    simp only [Dict.find] at h3
    split_ifs at h3 with h1 h2
    · exact .inr h1.symm
    · exact .inl h2.symm
    · cases h3

theorem shipped_sliEvents {cfg : SliConfig} {key : Str} {ms : List Str} (hd : NoDistinct key ms) :
    sliEvents key ms = (pluginMsgs (CPState.init shippedOps [.distinct, .sli cfg]).plugins key ms).flatMap
      fun x => (sliEvent x.fields).toList := by
  induction ms with
  | nil => rfl
  | cons m ms ih =>
    have ih := ih (fun x hx => hd x (by simp [hx]))
    have e1 : sliEvents key (m :: ms) = sliEvents key [m] ++ sliEvents key ms := by simp [sliEvents]
    have e2 : ∀ P : Dict Factory, pluginMsgs P key (m :: ms) = pluginMsgs P key [m] ++ pluginMsgs P key ms := by
      intro P
      have : m :: ms = [m] ++ ms := rfl
      rw [this]; unfold pluginMsgs; rw [List.filterMap_append]
    rw [e1, e2, List.flatMap_append, ← ih]
    congr 1
    cases hp : parseMessage m with
    | none => simp [sliEvents, pluginMsgs, hp]
    | some x =>
      by_cases hk : x.key = key
      · have hpd := hd m (by simp) x hp hk
        by_cases ht : x.mtype = c!"sli"
        · have hf : ((CPState.init shippedOps [.distinct, .sli cfg]).plugins.find c!"sli").isSome = true := rfl
          simp [sliEvents, pluginMsgs, hp, hk, ht, hf]
        · have hf : (CPState.init shippedOps [.distinct, .sli cfg]).plugins.find x.mtype = none := by
            have e : (CPState.init shippedOps [.distinct, .sli cfg]).plugins = [(c!"pd", .distinct), (c!"sli", .sli cfg)] := rfl
            rw [e]
            simp [Dict.find, Ne.symm ht, Ne.symm hpd]
          simp [sliEvents, pluginMsgs, hp, hk, ht, hf]
      · simp [sliEvents, pluginMsgs, hp, hk]

theorem shipped_pdItems {cfg : SliConfig} {key : Str} {ms : List Str} (hd : NoSli key ms) :
    pdItems key ms = (pluginMsgs (CPState.init shippedOps [.distinct, .sli cfg]).plugins key ms).flatMap
      fun x => x.fields.head?.toList := by
  induction ms with
  | nil => rfl
  | cons m ms ih =>
    have ih := ih (fun x hx => hd x (by simp [hx]))
    have e1 : pdItems key (m :: ms) = pdItems key [m] ++ pdItems key ms := by simp [pdItems]
    have e2 : ∀ P : Dict Factory, pluginMsgs P key (m :: ms) = pluginMsgs P key [m] ++ pluginMsgs P key ms := by
      intro P
      have : m :: ms = [m] ++ ms := rfl
      rw [this]; unfold pluginMsgs; rw [List.filterMap_append]
    rw [e1, e2, List.flatMap_append, ← ih]
    congr 1
    cases hp : parseMessage m with
    | none => simp [pdItems, pluginMsgs, hp]
    | some x =>
      by_cases hk : x.key = key
      · have hsl := hd m (by simp) x hp hk
        by_cases ht : x.mtype = c!"pd"
        · have hf : ((CPState.init shippedOps [.distinct, .sli cfg]).plugins.find c!"pd").isSome = true := rfl
          simp [pdItems, pluginMsgs, hp, hk, ht, hf]
        · have hf : (CPState.init shippedOps [.distinct, .sli cfg]).plugins.find x.mtype = none := by
            have e : (CPState.init shippedOps [.distinct, .sli cfg]).plugins = [(c!"pd", .distinct), (c!"sli", .sli cfg)] := rfl
            rw [e]
            simp [Dict.find, Ne.symm ht, Ne.symm hsl]
          simp [pdItems, pluginMsgs, hp, hk, ht, hf]
      · simp [pdItems, pluginMsgs, hp, hk]

/-- C130: in every schedule of the configurable processor with the shipped plugins, the events of an SLI metric can be cut into
consecutive blocks such that what was emitted or is under way for the name is exactly one report of each block, named prefix, dot, key,
with all counts right, and the stored metric would report the rest. -/
theorem C130_sli (w : World) (cfg : SliConfig) (hl : DotlessLabels cfg) (pre int key : Str) (hpre : pre.getLast? ≠ some '.')
    (hpc : ProperConditions (buildSli cfg pre key).conditions)
    (hi1 : ¬ internalPrefixOf pre int <+: prefixed pre key ['.']) (hi2 : ¬ prefixed pre key ['.'] <+: internalPrefixOf pre int)
    (es : List Event) (hno : ∀ T ∈ [c!"c", c!"ms", c!"g", c!"m"], ¬ Received T key (arrivals es)) (hd : NoDistinct key (arrivals es)) :
    let v := (startUp (CPState.init shippedOps [.distinct, .sli cfg])).run (configurable shippedOps pre int) w es
    let conds := (buildSli cfg pre key).conditions
    ∃ (blocks : List (List (Option PyFloat × Num) × ℤ)) (last : List (Option PyFloat × Num)),
      sliEvents key (arrivals es) = blocks.flatMap (·.1) ++ last ∧
      ((v.out ++ underWay v.gens).filter (ofKey pre key)).Perm
        (blocks.flatMap fun b => sliPoints (prefixed pre key []) conds b.1 b.2) ∧
      ((v.ps.pluginMetrics.find key = none ∧ blocks = [] ∧ last = []) ∨
       ∃ r, v.ps.pluginMetrics.find key = some (.sli r) ∧ r.count = last.length ∧
         ∀ ts, (r.flush ts).2 = sliPoints (prefixed pre key []) conds last ts) := by
  intro v conds
  rw [shipped_sliEvents (cfg := cfg) hd]
  rcases C129_plugin_life shippedOps pre int [.distinct, .sli cfg] w key
    (fun k m h n secs ts => shipped_ofKey (shipped_dotless hl) hpre key h n secs ts) hi1 hi2 es hno with ⟨h1, h2, h3⟩ | ⟨m, t, gs, h1, h2, h3⟩
  · rw [h2]
    exact ⟨[], [], rfl, by rw [h3]; exact .refl _, .inl ⟨h1, rfl, rfl⟩⟩
  · obtain ⟨b, la, g1, g2, rfl⟩ := sli_life (cfg := cfg) rfl hpc h2 (fun x hx => by
      obtain ⟨msg, hm, hp, hk, ht⟩ := shipped_msgs key _ x hx
      rcases ht with ht | ht
      · exact ht
      · exact absurd ht (hd msg hm x hp hk))
    rw [sliPath_eq hpre] at g2 h1
    refine ⟨b, la, g1, ?_, .inr ⟨_, h1, rfl, fun ts => by rw [flush_state]⟩⟩
    rw [g2, ← List.flatMap_def] at h3
    exact h3

/-- C130: the reported counts, emitted or under way, and the stored count add up to the number of events, at every moment of every
schedule. -/
theorem C130_counts (w : World) (cfg : SliConfig) (hl : DotlessLabels cfg) (pre int key : Str) (hpre : pre.getLast? ≠ some '.')
    (hpc : ProperConditions (buildSli cfg pre key).conditions)
    (hi1 : ¬ internalPrefixOf pre int <+: prefixed pre key ['.']) (hi2 : ¬ prefixed pre key ['.'] <+: internalPrefixOf pre int)
    (es : List Event) (hno : ∀ T ∈ [c!"c", c!"ms", c!"g", c!"m"], ¬ Received T key (arrivals es)) (hd : NoDistinct key (arrivals es)) :
    let v := (startUp (CPState.init shippedOps [.distinct, .sli cfg])).run (configurable shippedOps pre int) w es
    ((named (prefixed pre key c!".count") v.out).map fun d => d.value.rat).sum +
      ((named (prefixed pre key c!".count") (underWay v.gens)).map fun d => d.value.rat).sum +
      sliCount v.ps key = (sliEvents key (arrivals es)).length := by
  intro v
  obtain ⟨b, la, h1, h2, h3⟩ := C130_sli w cfg hl pre int key hpre hpc hi1 hi2 es hno hd
  have hname : prefixed pre key [] ++ c!".count" = prefixed pre key c!".count" := by simp [prefixed]
  have hfil : ∀ ds : List Datapoint, named (prefixed pre key c!".count") (ds.filter (ofKey pre key)) = named (prefixed pre key c!".count") ds := by
    intro ds
    unfold named
    rw [List.filter_filter]
    apply List.filter_congr
    intro d _
    by_cases hd : d.name = prefixed pre key c!".count"
    · have : ofKey pre key d = true := ofKey_iff.2 ⟨c!"count", by decide, hd⟩
      rw [this, Bool.and_true]
    · rw [decide_eq_false hd, Bool.false_and]
  have hs := sliPoints_count_sum (prefixed pre key []) (buildSli cfg pre key).conditions b
  rw [hname] at hs
  have hp := ((h2.filter fun d => decide (d.name = prefixed pre key c!".count")).map fun d : Datapoint => d.value.rat).sum_eq
  have hp' : ((named (prefixed pre key c!".count") ((v.out ++ underWay v.gens).filter (ofKey pre key))).map fun d => d.value.rat).sum = _ := hp.trans hs
  rw [hfil, named_append, List.map_append, List.sum_append] at hp'
  rw [hp', h1, List.length_append]
  have hst : sliCount v.ps key = la.length := by
    unfold sliCount
    rcases h3 with ⟨e1, _, e2⟩ | ⟨r, e1, e2, _⟩
    · have e1 : v.ps.pluginMetrics.find key = none := e1
      rw [e1, e2]; rfl
    · have e1 : v.ps.pluginMetrics.find key = _ := e1
      rw [e1]; exact e2
  rw [hst]
  push_cast
  ring

/-! ## C131 -/

/-- C131: in every schedule of the configurable processor with the shipped plugins, with a clock that never goes back, what was emitted
or is under way for a distinct metric is one report for each of a list of moments, named prefix, dot, key: each report gives the
estimates for a beginning of the stream of items, through the same 32 hash tables all the time. The stored metric would report the whole
stream. -/
theorem C131_distinct {w : World} (hw : ∀ i j, i ≤ j → w.clk i ≤ w.clk j) (h0 : ∀ n, 86400 ≤ w.clk n) (cfg : SliConfig)
    (hl : DotlessLabels cfg) (pre int key : Str) (hpre : pre.getLast? ≠ some '.')
    (hi1 : ¬ internalPrefixOf pre int <+: prefixed pre key ['.']) (hi2 : ¬ prefixed pre key ['.'] <+: internalPrefixOf pre int)
    (es : List Event) (hno : ∀ T ∈ [c!"c", c!"ms", c!"g", c!"m"], ¬ Received T key (arrivals es)) (hd : NoSli key (arrivals es)) :
    let v := (startUp (CPState.init shippedOps [.distinct, .sli cfg])).run (configurable shippedOps pre int) w es
    ∃ (tables : List (Nat → Nat)) (h : List (ℚ × Str)) (reports : List (List (ℚ × Str) × ℚ × ℤ)) (groups : List (List Datapoint)),
      tables.length = 32 ∧ h.map Prod.snd = pdItems key (arrivals es) ∧ Ordered h ∧ (∀ e ∈ h, ∃ n, e.1 = w.clk n) ∧
      (∀ rep ∈ reports, rep.1 ≠ [] ∧ rep.1 <+: h ∧ (∃ n, rep.2.1 = w.clk n) ∧ ∀ e ∈ rep.1, e.1 ≤ rep.2.1) ∧
      List.Forall₂ (fun rep g => DistinctReport tables (prefixed pre key []) rep.1 rep.2.1 rep.2.2 g) reports groups ∧
      ((v.out ++ underWay v.gens).filter (ofKey pre key)).Perm groups.flatten ∧
      ((v.ps.pluginMetrics.find key = none ∧ h = [] ∧ reports = []) ∨
       ∃ r, v.ps.pluginMetrics.find key = some (.distinct r) ∧
         ∀ now ts, 86400 ≤ now → ∃ g, r.flush now ts = .ok g ∧ DistinctReport tables (prefixed pre key []) h now ts g) := by
  intro v
  rw [shipped_pdItems (cfg := cfg) hd]
  rcases C129_plugin_life shippedOps pre int [.distinct, .sli cfg] w key
    (fun k m h n secs ts => shipped_ofKey (shipped_dotless hl) hpre key h n secs ts) hi1 hi2 es hno with ⟨h1, h2, h3⟩ | ⟨m, t, gs, h1, h2, h3⟩
  · rw [h2]
    exact ⟨List.replicate 32 id, [], [], [], by simp, rfl, .nil, by simp, by simp, .nil, by rw [h3]; exact .refl _, .inl ⟨h1, rfl, rfl⟩⟩
  · obtain ⟨tb, h, rp, c, a1, a2, a3, a4, a5, a6, a7, a8, rfl⟩ := distinct_life hw h0 rfl h2 (fun x hx => by
      obtain ⟨msg, hm, hp, hk, ht⟩ := shipped_msgs key _ x hx
      refine ⟨?_, ?_⟩
      · rcases ht with ht | ht
        · exact absurd ht (hd msg hm x hp hk)
        · exact ht
      · rcases parse_fields hp with ⟨f0, h⟩ | ⟨f0, f2, h⟩ <;> simp [h])
    refine ⟨tb, h, rp, gs, a1, a2, a3, fun e he => (a4 e he).imp fun n hn => hn.2, a5, a6, h3, .inr ⟨_, h1, fun now ts hnow => ?_⟩⟩
    have e : prefixed pre key [] = (if pre = [] then [] else pre ++ ['.']) ++ key := by simp [prefixed]
    rw [e]
    exact distinct_report (by intro h; rw [h] at a1; simp at a1) a3 a8 hnow ts

/-! ## C132 -/

/-- C132: everything that a flush of the configurable processor with the shipped plugins emits, in any schedule, is named prefix, dot,
the key of a message, dot and a word, or is one of the processor's own statistics, if the prefix does not end in a dot.
(For other prefixes SLI metrics are named otherwise, see `C132_refuted`.) -/
theorem C132_names_partial (w : World) (cfg : SliConfig) (hl : DotlessLabels cfg) (pre int : Str) (hpre : pre.getLast? ≠ some '.')
    (es es' : List Event) (i : Nat) (interval percent : ℤ) :
    let v := (startUp (CPState.init shippedOps [.distinct, .sli cfg])).run (configurable shippedOps pre int) w es
    v.gens[i]? = some ⟨interval, percent, .fresh⟩ →
    ∀ d ∈ emits (configurable shippedOps pre int) w i v es',
      KeyName pre (arrivals es ++ arrivals es') d.name ∨ internalPrefixOf pre int <+: d.name := by
  intro v hg d hd
  obtain ⟨es1, es2, he, h⟩ := C103_configurable shippedOps pre int [.distinct, .sli cfg] w es es' i interval percent hg d hd
  have hsub : ∀ m ∈ arrivals es ++ arrivals es1, m ∈ arrivals es ++ arrivals es' := by
    intro m hm
    rw [he]
    unfold arrivals at hm ⊢
    rw [List.filterMap_append]
    simp only [List.mem_append] at hm ⊢
    tauto
  have word : ∀ {T k sfx : Str}, (T, sfx) ∈ suffixes → d.name = prefixed pre k sfx → (∃ m ∈ arrivals es ++ arrivals es1, ∃ v, Reading T k m v) →
      KeyName pre (arrivals es ++ arrivals es') d.name := by
    intro T k sfx h1 h2 ⟨m, hm, v, f0, rest, hp⟩
    obtain ⟨y, h3, rfl⟩ := suffix_shape h1
    obtain ⟨x, hx, hk⟩ : ∃ x, parseMessage m = some x ∧ x.key = k := ⟨_, parsed_iff.1 hp.1, rfl⟩
    exact ⟨m, hsub m hm, x, hx, y, h3, by rw [hk]; exact h2⟩
  rcases h with ⟨k, q, z, ⟨a, m, b, e, hr, _⟩, _, hn, _⟩ | ⟨k, u, ⟨a, m, b, e, hr, _⟩, hn, _⟩ | ⟨k, sfx, hr, hs, hn⟩ |
      ⟨k, hr, hn⟩ | h | ⟨k, m, t, gs, n, secs, ts, hlf, _, hdl⟩
  · exact .inl (word (T := c!"c") (by decide) hn ⟨m, by rw [e]; simp, _, hr⟩)
  · exact .inl (word (T := c!"g") (by decide) hn ⟨m, by rw [e]; simp, _, hr⟩)
  · exact .inl (word hs hn hr)
  · rcases hn with hn | ⟨hn, _⟩
    · exact .inl (word (T := c!"m") (by decide) hn hr)
    · exact .inl (word (T := c!"m") (by decide) hn hr)
  · exact .inr h
  · left
    have hne := life_nonempty hlf
    obtain ⟨x, hx⟩ := List.exists_mem_of_ne_nil _ hne
    obtain ⟨msg, hm, hp, hk, _⟩ := shipped_msgs k _ x hx
    obtain ⟨y, hy, hn⟩ := shipped_word (shipped_dotless hl) hpre ⟨t, _, gs, hlf⟩ hdl
    exact ⟨msg, hsub msg hm, x, hp, y, hy, by rw [hk]; exact hn⟩

end

/-! ### Examples -/

section
attribute [local instance] ratRounding exPower

def exSliCfg : SliConfig := [(c!"*", [(c!"fast", .below (.fin 100) (.fin 0))])]
def exSliRun : List Event := [.arrive c!"a:3|sli", .arrive c!"a:200|sli", .spawn 1000 90]
def exSliTail : List Event := List.replicate 14 (.advance 0)

/-- C132: the full statement, for any prefix, is false: with the prefix "p." the SLI metric `a` is reported as "p.a.count", though every
other kind of metric under that prefix is named "p..a.count". -/
theorem C132_refuted : ¬ ∀ (w : World) (cfg : SliConfig) (_ : DotlessLabels cfg) (pre int : Str) (es es' : List Event) (i : Nat)
    (interval percent : ℤ),
    let v := (startUp (CPState.init shippedOps [.distinct, .sli cfg])).run (configurable shippedOps pre int) w es
    v.gens[i]? = some ⟨interval, percent, .fresh⟩ →
    ∀ d ∈ emits (configurable shippedOps pre int) w i v es',
      KeyName pre (arrivals es ++ arrivals es') d.name ∨ internalPrefixOf pre int <+: d.name := by
  intro h
  have hl : DotlessLabels [] := by intro pc hpc; cases hpc
  have h := h exWorld [] hl c!"p." [] exSliRun exSliTail 0 1000 90 (by rfl)
  have hd : (emits (configurable shippedOps c!"p." []) exWorld 0
      ((startUp (CPState.init shippedOps [.distinct, .sli []])).run (configurable shippedOps c!"p." []) exWorld exSliRun) exSliTail).any
      (fun d => decide (d.name = c!"p.a.count")) = true := by decide +kernel
  obtain ⟨d, hd, hn⟩ := List.any_eq_true.1 hd
  have hn := of_decide_eq_true hn
  rcases h d hd with ⟨msg, _, x, _, y, _, e⟩ | e
  · rw [hn] at e
    have := congrArg (List.take 3) e
    simp [prefixed] at this
  · rw [hn] at e
    exact absurd (List.isPrefixOf_iff_prefix.2 e) (by decide)

theorem exSliCfg_dotless : DotlessLabels exSliCfg := by
  intro pc hpc kc hkc
  unfold exSliCfg at hpc
  simp only [List.mem_singleton] at hpc; subst hpc
  simp only [List.mem_singleton] at hkc; subst hkc
  decide

/-- The plugins that are shipped name their points as C129 asks. -/
example : ∀ k m, Reachable shippedOps exWorld (CPState.init shippedOps [.distinct, .sli exSliCfg]).plugins (fun _ => c!"p") k m →
    ∀ n secs ts, ∀ d ∈ madeBy (shippedOps.flush exWorld n m secs ts).2.2, ofKey c!"p" c!"a" d = decide (k = c!"a") :=
  fun k m h n secs ts => shipped_ofKey (shipped_dotless exSliCfg_dotless) (by decide) c!"a" h n secs ts

example : ¬ internalPrefixOf c!"p" [] <+: prefixed c!"p" c!"a" ['.'] ∧ ¬ prefixed c!"p" c!"a" ['.'] <+: internalPrefixOf c!"p" [] := by
  constructor <;> intro h <;> exact absurd (List.isPrefixOf_iff_prefix.2 h) (by decide)

example : ProperConditions (buildSli exSliCfg c!"p" c!"a").conditions := by
  have e : (buildSli exSliCfg c!"p" c!"a").conditions = [(c!"fast", .below (.fin 100) (.fin 0))] := by decide +kernel
  rw [e]
  refine ⟨by decide, ?_⟩
  intro kc hkc
  simp only [List.mem_singleton] at hkc; subst hkc
  simp

example : (∀ T ∈ [c!"c", c!"ms", c!"g", c!"m"], ¬ Received T c!"a" (arrivals exSliRun)) ∧ NoDistinct c!"a" (arrivals exSliRun) := by
  have e : arrivals exSliRun = [c!"a:3|sli", c!"a:200|sli"] := by decide +kernel
  have p1 : parseMessage c!"a:3|sli" = some ⟨c!"sli", c!"a", [c!"3", c!"sli"]⟩ := by decide +kernel
  have p2 : parseMessage c!"a:200|sli" = some ⟨c!"sli", c!"a", [c!"200", c!"sli"]⟩ := by decide +kernel
  rw [e]
  constructor
  · rintro T hT ⟨m, hm, v, f0, rest, hp, _⟩
    have hp := parsed_iff.1 hp
    simp only [List.mem_cons, List.not_mem_nil, or_false] at hm
    rcases hm with rfl | rfl
    · rw [p1] at hp; simp only [Option.some.injEq, Metric.mk.injEq] at hp; rw [← hp.1] at hT; exact absurd hT (by decide)
    · rw [p2] at hp; simp only [Option.some.injEq, Metric.mk.injEq] at hp; rw [← hp.1] at hT; exact absurd hT (by decide)
  · intro m hm x hx _ ht
    simp only [List.mem_cons, List.not_mem_nil, or_false] at hm
    rcases hm with rfl | rfl
    · rw [p1] at hx; simp only [Option.some.injEq] at hx; subst hx; exact absurd ht (by decide)
    · rw [p2] at hx; simp only [Option.some.injEq] at hx; subst hx; exact absurd ht (by decide)

/-- The same name with items instead of events meets the hypotheses of C131. -/
example : NoSli c!"a" [c!"a:bob|pd", c!"a:eve|pd"] ∧ pdItems c!"a" [c!"a:bob|pd", c!"a:eve|pd"] = [c!"bob", c!"eve"] := by
  refine ⟨?_, by decide +kernel⟩
  have p1 : parseMessage c!"a:bob|pd" = some ⟨c!"pd", c!"a", [c!"bob", c!"pd"]⟩ := by decide +kernel
  have p2 : parseMessage c!"a:eve|pd" = some ⟨c!"pd", c!"a", [c!"eve", c!"pd"]⟩ := by decide +kernel
  intro m hm x hx _ ht
  simp only [List.mem_cons, List.not_mem_nil, or_false] at hm
  rcases hm with rfl | rfl
  · rw [p1] at hx; simp only [Option.some.injEq] at hx; subst hx; exact absurd ht (by decide)
  · rw [p2] at hx; simp only [Option.some.injEq] at hx; subst hx; exact absurd ht (by decide)

/-- What is emitted for the SLI metric in this schedule. -/
example :
    let v := (startUp (CPState.init shippedOps [.distinct, .sli exSliCfg])).run (configurable shippedOps c!"p" []) exWorld
      (exSliRun ++ exSliTail)
    ((v.out ++ underWay v.gens).filter (ofKey c!"p" c!"a")).map (fun d => (d.name, d.value)) =
      [(c!"p.a.count_fast", .int 1), (c!"p.a.count", .int 2), (c!"p.a.error", .int 0)] := by decide +kernel

end

section
attribute [local instance] ratRounding exPower

/-- The shipped plugins are quiet in the sense of the theorems about counters, timers, gauges, meters and the processor's own
statistics, and in the sense of C104, C127 and C128. -/
example : Quiet shippedOps c!"stats_counts." ∧ Quiet shippedOps c!"stats.timers." ∧
    Quiet shippedOps c!"stats.gauge." ∧ Quiet shippedOps c!"stats.meter." ∧ Quiet shippedOps c!"statsd." := quiet_shipped_builtin
example : OthersQuiet shippedOps exWorld (CPState.init shippedOps [.distinct, .sli exSliCfg]).plugins (fun _ => c!"p") c!"t"
    (ofTimerC c!"p" c!"t") := shipped_others_timer (shipped_dotless exSliCfg_dotless) (by decide) c!"t"
example : OthersQuiet shippedOps exWorld (CPState.init shippedOps [.distinct, .sli exSliCfg]).plugins (fun _ => c!"p") c!"t"
    (fun d => decide (d.name = prefixed c!"p" c!"t" c!".count")) :=
  shipped_others (shipped_dotless exSliCfg_dotless) (by decide) c!"t" fun d hd => ⟨c!"count", by decide, of_decide_eq_true hd⟩

end
end Txstatsd
