import Verif.Lemmas.PluginFlow
import Verif.Lemmas.DistinctFlow
import Verif.Props.Plugins

/-!
# C122, C123: SLI and distinct metrics in schedules
-/

namespace Txstatsd
open Spec
section
variable [Rounding] [Power]

/-! ## C122 -/

theorem sli_schedule (w : World) (cfg : SliConfig) (hl : DotlessLabels cfg) (key : Str)
    (hpc : ProperConditions (buildSli cfg c!"stats.SLI" key).conditions) (es : List Event)
    (hn : NoCounter c!"SLI." (arrivals es)) (hd : NoDistinct key (arrivals es)) :
    let v := (startUp (shippedServer cfg)).run (messageProcessor shippedOps) w es
    SliWatch cfg key v.ps (arrivals es) ((v.out ++ underWay v.gens).filter (ofSli key)) := by
  intro v
  have h0 : SliWatch cfg key (shippedServer cfg) [] [] := by
    refine ⟨mpwf_init _ _, ⟨shipped_sli cfg, ?_⟩, ?_, fun _ _ => ⟨?_, [], [], rfl, .refl _, .inl ⟨rfl, rfl, rfl⟩⟩⟩
    · intro t f h
      rw [shipped_plugins] at h
      simp only [Dict.find] at h
      split_ifs at h with h1 h2
      · simp only [Option.some.injEq] at h; exact .inr ⟨h1.symm, h.symm⟩
      · simp only [Option.some.injEq] at h; exact .inl ⟨h2.symm, h.symm⟩
    · intro k pm h
      have : (shippedServer cfg).pluginMetrics = [] := rfl
      rw [this] at h; simp at h
    · intro k hk
      have : (shippedServer cfg).counters = [] := rfl
      rw [this] at hk; simp at hk
  exact (watch_run (sli_watch w cfg hl key hpc) h0 es (fun _ _ _ => trivial)).2

/-- C122: in every schedule of messages and overlapping flushes, the events of an SLI metric can be cut into consecutive blocks such
that what was emitted or is under way for the metric is exactly one report of each block, with all counts right, and the stored
metric would report the rest. -/
theorem C122_sli (w : World) (cfg : SliConfig) (hl : DotlessLabels cfg) (key : Str)
    (hpc : ProperConditions (buildSli cfg c!"stats.SLI" key).conditions) (es : List Event)
    (hn : NoCounter c!"SLI." (arrivals es)) (hd : NoDistinct key (arrivals es)) :
    let v := (startUp (shippedServer cfg)).run (messageProcessor shippedOps) w es
    let conds := (buildSli cfg c!"stats.SLI" key).conditions
    ∃ (blocks : List (List (Option PyFloat × Num) × ℤ)) (last : List (Option PyFloat × Num)),
      sliEvents key (arrivals es) = blocks.flatMap (·.1) ++ last ∧
      ((v.out ++ underWay v.gens).filter (ofSli key)).Perm
        (blocks.flatMap fun b => sliPoints (c!"stats.SLI." ++ key) conds b.1 b.2) ∧
      ((v.ps.pluginMetrics.find key = none ∧ blocks = [] ∧ last = []) ∨
       ∃ r, v.ps.pluginMetrics.find key = some (.sli r) ∧ ∀ ts, (r.flush ts).2 = sliPoints (c!"stats.SLI." ++ key) conds last ts) := by
  intro v conds
  obtain ⟨_, _, _, h⟩ := sli_schedule w cfg hl key hpc es hn hd
  obtain ⟨_, b, la, h1, h2, h3⟩ := h hn hd
  refine ⟨b, la, h1, h2, ?_⟩
  rcases h3 with h3 | h3
  · exact .inl h3
  · exact .inr ⟨_, h3, fun ts => by rw [flush_state]⟩

/-- C122: the reported counts, emitted or under way, and the stored count add up to the number of events, at every moment of every
schedule. -/
theorem C122_counts (w : World) (cfg : SliConfig) (hl : DotlessLabels cfg) (key : Str)
    (hpc : ProperConditions (buildSli cfg c!"stats.SLI" key).conditions) (es : List Event)
    (hn : NoCounter c!"SLI." (arrivals es)) (hd : NoDistinct key (arrivals es)) :
    let v := (startUp (shippedServer cfg)).run (messageProcessor shippedOps) w es
    ((named (c!"stats.SLI." ++ key ++ c!".count") v.out).map fun d => d.value.rat).sum +
      ((named (c!"stats.SLI." ++ key ++ c!".count") (underWay v.gens)).map fun d => d.value.rat).sum +
      sliCount v.ps key = (sliEvents key (arrivals es)).length := by
  intro v
  obtain ⟨_, _, _, h⟩ := sli_schedule w cfg hl key hpc es hn hd
  obtain ⟨_, b, la, h1, h2, h3⟩ := h hn hd
  set n := c!"stats.SLI." ++ key ++ c!".count" with hnn
  have hfil : ∀ ds : List Datapoint, named n (ds.filter (ofSli key)) = named n ds := by
    intro ds
    unfold named
    rw [List.filter_filter]
    apply List.filter_congr
    intro d _
    by_cases hd : d.name = n
    · have : ofSli key d = true := ofSli_iff.2 ⟨c!"count", by decide, hd⟩
      rw [this, Bool.and_true]
    · rw [decide_eq_false hd, Bool.false_and]
  have hone : ∀ (e : List (Option PyFloat × Num)) (ts : ℤ),
      named n (sliPoints (c!"stats.SLI." ++ key) (buildSli cfg c!"stats.SLI" key).conditions e ts) = [⟨n, .int e.length, ts⟩] := by
    intro e ts
    have ne : ∀ x : Str, x ≠ c!".count" → c!"stats.SLI." ++ key ++ x ≠ n := fun x hx h => hx (List.append_cancel_left h)
    unfold named sliPoints
    rw [List.filter_append]
    have e1 : (List.map (fun kc : Str × SliCond => (⟨c!"stats.SLI." ++ key ++ c!".count_" ++ kc.1, .int (e.countP (Good kc.2)), ts⟩ : Datapoint))
        (buildSli cfg c!"stats.SLI" key).conditions).filter (fun d => decide (d.name = n)) = [] := by
      rw [List.filter_eq_nil_iff]
      intro d hd
      obtain ⟨kc, _, rfl⟩ := List.mem_map.1 hd
      have := ne (c!".count_" ++ kc.1) (by intro h; have := congrArg (List.drop 6) h; simp at this)
      simpa using this
    have e2 : c!"stats.SLI." ++ key ++ c!".error" ≠ n := ne _ (by decide)
    rw [e1]
    simp [List.filter_cons, e2, hnn]
  have hsum : ∀ bs : List (List (Option PyFloat × Num) × ℤ),
      ((named n (bs.flatMap fun b => sliPoints (c!"stats.SLI." ++ key) (buildSli cfg c!"stats.SLI" key).conditions b.1 b.2)).map
        fun d => d.value.rat).sum = ((bs.flatMap (·.1)).length : ℚ) := by
    intro bs
    induction bs with
    | nil => rfl
    | cons b bs ih =>
      rw [List.flatMap_cons, List.flatMap_cons, named_append, hone, List.map_append, List.sum_append, ih]
      simp [Num.rat]
  have hperm := ((h2.filter fun d => decide (d.name = n)).map fun d : Datapoint => d.value.rat).sum_eq
  have hperm' : ((named n ((v.out ++ underWay v.gens).filter (ofSli key))).map fun d => d.value.rat).sum = _ := hperm.trans (hsum b)
  rw [hfil, named_append, List.map_append, List.sum_append] at hperm'
  rw [hperm', h1, List.length_append]
  have hst : sliCount v.ps key = la.length := by
    unfold sliCount
    rcases h3 with ⟨e1, _, e2⟩ | e1
    · have e1 : v.ps.pluginMetrics.find key = none := e1
      rw [e1, e2]; rfl
    · have e1 : v.ps.pluginMetrics.find key = _ := e1
      rw [e1]; rfl
  rw [hst]
  push_cast
  ring

/-! ## C123 -/

/-- C123: in every schedule of messages and overlapping flushes, with a clock that never goes back, what was emitted or is under way
for a distinct metric is one report for each of a list of moments: each report gives the estimates for a beginning of the stream of
items, each item seen not later than the report, through the same 32 hash tables all the time; flushing loses no sighting. The
stored metric would report the whole stream. -/
theorem C123_distinct {w : World} (hw : ∀ i j, i ≤ j → w.clk i ≤ w.clk j) (h0 : ∀ n, 86400 ≤ w.clk n) (cfg : SliConfig)
    (hl : DotlessLabels cfg) (key : Str) (es : List Event)
    (hn : NoCounter c!"pdistinct." (arrivals es)) (hd : NoSli key (arrivals es)) :
    let v := (startUp (shippedServer cfg)).run (messageProcessor shippedOps) w es
    ∃ (tables : List (Nat → Nat)) (h : List (ℚ × Str)) (reports : List (List (ℚ × Str) × ℚ × ℤ)) (groups : List (List Datapoint)),
      tables.length = 32 ∧ h.map Prod.snd = pdItems key (arrivals es) ∧ Ordered h ∧ (∀ e ∈ h, ∃ n, e.1 = w.clk n) ∧
      (∀ rep ∈ reports, rep.1 ≠ [] ∧ rep.1 <+: h ∧ (∃ n, rep.2.1 = w.clk n) ∧ ∀ e ∈ rep.1, e.1 ≤ rep.2.1) ∧
      List.Forall₂ (fun rep g => DistinctReport tables (c!"stats.pdistinct." ++ key) rep.1 rep.2.1 rep.2.2 g) reports groups ∧
      ((v.out ++ underWay v.gens).filter (ofDistinct key)).Perm groups.flatten ∧
      ((v.ps.pluginMetrics.find key = none ∧ h = [] ∧ reports = []) ∨
       ∃ r, v.ps.pluginMetrics.find key = some (.distinct r) ∧
         ∀ now ts, 86400 ≤ now → ∃ g, r.flush now ts = .ok g ∧ DistinctReport tables (c!"stats.pdistinct." ++ key) h now ts g) := by
  intro v
  have hs : DistinctWatch w cfg key (shippedServer cfg) [] [] := by
    refine ⟨mpwf_init _ _, ⟨by rw [shipped_plugins]; rfl, ?_⟩, ?_, fun _ _ => ⟨?_, List.replicate 32 id, [], [], [], by simp, rfl, .nil, by simp, by simp, .nil, .refl _, .inl ⟨rfl, rfl, rfl⟩⟩⟩
    · intro t f h
      rw [shipped_plugins] at h
      simp only [Dict.find] at h
      split_ifs at h with h1 h2
      · simp only [Option.some.injEq] at h; exact .inr ⟨h1.symm, h.symm⟩
      · simp only [Option.some.injEq] at h; exact .inl ⟨h2.symm, h.symm⟩
    · intro k pm h
      have : (shippedServer cfg).pluginMetrics = [] := rfl
      rw [this] at h; simp at h
    · intro k hk
      have : (shippedServer cfg).counters = [] := rfl
      rw [this] at hk; simp at hk
  obtain ⟨_, _, _, h⟩ := (watch_run (distinct_watch hw h0 cfg hl key) hs es (fun _ _ _ => trivial)).2
  obtain ⟨_, tb, h, rp, gs, a1, a2, a3, a4, a5, a6, a7, a8⟩ := h hn hd
  refine ⟨tb, h, rp, gs, a1, a2, a3, fun e he => (a4 e he).imp fun n hn => hn.2, a5, a6, a7, ?_⟩
  rcases a8 with a8 | ⟨c, _, e1, e2⟩
  · exact .inl a8
  · exact .inr ⟨_, e2, fun now ts hnow => distinct_report (by intro h; rw [h] at a1; simp at a1) a3 e1 hnow ts⟩

/-- C123: with no item ever seen nothing is reported. -/
theorem C123_silent {w : World} (hw : ∀ i j, i ≤ j → w.clk i ≤ w.clk j) (h0 : ∀ n, 86400 ≤ w.clk n) (cfg : SliConfig)
    (hl : DotlessLabels cfg) (key : Str) (es : List Event)
    (hn : NoCounter c!"pdistinct." (arrivals es)) (hd : NoSli key (arrivals es)) (hi : pdItems key (arrivals es) = []) :
    let v := (startUp (shippedServer cfg)).run (messageProcessor shippedOps) w es
    ∀ d ∈ v.out ++ underWay v.gens, ofDistinct key d = false := by
  intro v
  obtain ⟨tb, h, rp, gs, a1, a2, a3, a4, a5, a6, a7, a8⟩ := C123_distinct hw h0 cfg hl key es hn hd
  rw [hi, List.map_eq_nil_iff] at a2
  subst a2
  have : rp = [] := by
    rw [List.eq_nil_iff_forall_not_mem]
    intro rep hrep
    exact (a5 rep hrep).1 (List.prefix_nil.1 (a5 rep hrep).2.1)
  subst this
  cases a6
  have hnil := a7.eq_nil
  intro d hd'
  by_contra hc
  have : d ∈ (v.out ++ underWay v.gens).filter (ofDistinct key) := List.mem_filter.2 ⟨hd', by simpa using hc⟩
  rw [hnil] at this
  simp at this

end

/-! ### Examples -/

attribute [local instance] ratRounding

example : DotlessLabels [(c!"*", [(c!"fast", .below (.fin 100) (.fin 0))])] := by
  intro pc hpc kc hkc
  simp only [List.mem_singleton] at hpc; subst hpc
  simp only [List.mem_singleton] at hkc; subst hkc
  decide

example : NoDistinct c!"a" [c!"a:3|sli", c!"b:bob|pd"] := by
  intro m hm x hx hk ht
  simp only [List.mem_cons, List.not_mem_nil, or_false] at hm
  rcases hm with rfl | rfl
  · have h : parseMessage c!"a:3|sli" = some ⟨c!"sli", c!"a", [c!"3", c!"sli"]⟩ := by decide +kernel
    rw [h] at hx; simp only [Option.some.injEq] at hx; subst hx; exact absurd ht (by decide)
  · have h : parseMessage c!"b:bob|pd" = some ⟨c!"pd", c!"b", [c!"bob", c!"pd"]⟩ := by decide +kernel
    rw [h] at hx; simp only [Option.some.injEq] at hx; subst hx; exact absurd hk (by decide)

/-- A clock and a stream that meet the hypotheses of C123. -/
example : let w : World := { clk := fun n => 86400 + n, rand := fun _ => 0, sbox := fun _ _ n => n }
    (∀ i j, i ≤ j → w.clk i ≤ w.clk j) ∧ (∀ n, 86400 ≤ w.clk n) ∧
    pdItems c!"b" [c!"a:3|sli", c!"b:bob|pd", c!"b:eve|pd"] = [c!"bob", c!"eve"] := by
  refine ⟨?_, ?_, by decide +kernel⟩
  · intro i j h
    have : (i : ℚ) ≤ j := by exact_mod_cast h
    show (86400 + i : ℚ) ≤ 86400 + j
    linarith
  · intro n
    have : (0 : ℚ) ≤ n := by positivity
    show (86400 : ℚ) ≤ 86400 + n
    linarith

example : NoSli c!"b" [c!"a:3|sli", c!"b:bob|pd"] := by
  intro m hm x hx hk ht
  simp only [List.mem_cons, List.not_mem_nil, or_false] at hm
  rcases hm with rfl | rfl
  · have h : parseMessage c!"a:3|sli" = some ⟨c!"sli", c!"a", [c!"3", c!"sli"]⟩ := by decide +kernel
    rw [h] at hx; simp only [Option.some.injEq] at hx; subst hx; exact absurd hk (by decide)
  · have h : parseMessage c!"b:bob|pd" = some ⟨c!"pd", c!"b", [c!"bob", c!"pd"]⟩ := by decide +kernel
    rw [h] at hx; simp only [Option.some.injEq] at hx; subst hx; exact absurd ht (by decide)

end Txstatsd
