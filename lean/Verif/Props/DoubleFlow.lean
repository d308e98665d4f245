import Verif.Lemmas.DoubleFlow
import Verif.Props.Interleaved

/-!
# Timers and meters in double arithmetic under overlapping flushes: C126–C128
-/

namespace Txstatsd
open Spec

section
variable [Rounding] {PF PM : Type}

/-- C126: in every schedule with at most 2^52 messages, in double arithmetic, the accepted durations of a timer can be cut
into consecutive blocks such that what was emitted or is under way for the timer is exactly one summary of each block, made
by one of the flushes, and the rest is stored. -/
theorem C126_timers [Ieee] (ops : PluginOps PF PM) (hq : Quiet ops c!"stats.timers.") (plugins : List PF) (w : World)
    (es : List Event) (hp : ∀ i p, Event.spawn i p ∈ es → 50 ≤ p ∧ p ≤ 100) (hn : NoCounter c!"timers." (arrivals es))
    (hl : (arrivals es).length ≤ 2 ^ 52) (key : Str) :
    let v := (startUp (MPState.init ops plugins)).run (messageProcessor ops) w es
    ∃ (blocks : List (List PyFloat)) (last : List PyFloat) (groups : List (List Datapoint)),
      Collect (Reading c!"ms" key) (arrivals es) (blocks.flatten ++ last) ∧ (∀ b ∈ blocks, b ≠ []) ∧
      List.Forall₂ (fun b g => ∃ i p ts, Event.spawn i p ∈ es ∧ SummarisesDouble p ts key b g) blocks groups ∧
      ((v.out ++ underWay v.gens).filter (ofTimer key)).Perm groups.flatten ∧
      (v.ps.timers.find key).getD [] = last := by
  intro v
  have h0 : TimerWatch ops SummarisesDouble (· ≤ 2 ^ 52) (fun i p => (50 ≤ p ∧ p ≤ 100) ∧ Event.spawn i p ∈ es) key
      (MPState.init ops plugins) [] [] :=
    ⟨mpwf_init ops plugins, fun _ _ => ⟨by intro k hk; simp [MPState.init] at hk,
      [], [], [], .nil, by simp, rfl, .nil, .refl _⟩⟩
  obtain ⟨_, h⟩ := watch_run (timer_watch (small := (· ≤ 2 ^ 52)) (fun _ _ h1 h2 => le_trans h1 h2) ops hq w _ key
    (fun i p ts ds h hs hd => summary_double h.1.1 h.1.2 ts key ds hs hd)) h0 es (fun i p h => ⟨hp i p h, h⟩)
  obtain ⟨_, b, l, gs, h1, h2, h3, h4, h5⟩ := h.2 hn (by simpa using hl)
  refine ⟨b, l, gs, h1, h2, ?_, h5, h3⟩
  exact h4.imp fun b g ⟨i, p, ts, ⟨_, hs⟩, hsum⟩ => ⟨i, p, ts, hs, hsum⟩

/-- C126: in double arithmetic too, the reported counts, emitted or under way, and the number of stored durations add up to
the number of accepted durations. -/
theorem C126_counts [Ieee] (ops : PluginOps PF PM) (hq : Quiet ops c!"stats.timers.") (plugins : List PF) (w : World)
    (es : List Event) (hp : ∀ i p, Event.spawn i p ∈ es → 50 ≤ p ∧ p ≤ 100) (hn : NoCounter c!"timers." (arrivals es))
    (hl : (arrivals es).length ≤ 2 ^ 52) (key : Str) (vs : List PyFloat)
    (hv : Collect (Reading c!"ms" key) (arrivals es) vs) :
    let v := (startUp (MPState.init ops plugins)).run (messageProcessor ops) w es
    ((named (c!"stats.timers." ++ key ++ c!".count") v.out).map fun d => d.value.rat).sum +
      ((named (c!"stats.timers." ++ key ++ c!".count") (underWay v.gens)).map fun d => d.value.rat).sum +
      ((v.ps.timers.find key).getD []).length = vs.length := by
  intro v
  obtain ⟨b, l, gs, h1, hne, h2, h3, h4⟩ := C126_timers ops hq plugins w es hp hn hl key
  have e1 : vs = b.flatten ++ l := collect_unique (P := Reading c!"ms" key) (fun m a b h h' => reading_unique h h') hv h1
  have hs := counts_of_groups (h2.imp fun b g ⟨_, _, _, _, hs⟩ => shape_named hs.1 hs.2.2.1) h3
  unfold named at hs ⊢
  rw [List.filter_append, List.map_append, List.sum_append] at hs
  have h4' : (v.ps.timers.find key).getD [] = l := h4
  rw [e1, h4', List.length_append]
  push_cast
  rw [hs]

/-- C127: whatever happened to a timer of the configurable processor before, in double arithmetic a report succeeds and
says what it should. -/
theorem C127_report [Ieee] (name pre : Str) (start : ℚ) (h : List TimerOp) (t : TimerRep)
    (hr : TimerRun (TimerRep.init name pre start) h t) (hd : ∀ q ∈ durations h, rnd q = .fin q) (ts : ℤ) :
    ∃ pts, (t.report ts).2 = .ok pts ∧
      DoubleReport pre name (period h) (durations h).length (periodStart start h) ts pts :=
  report_double hr hd ts

/-- C127: in every schedule, in double arithmetic, the accepted durations of a timer of the configurable processor and the
reports asked of it by the flushes make up one history; what was emitted or is under way for the timer is exactly the
reports of that history. (The key is not used for a counter or a meter as well, and its durations are finite.) -/
theorem C127_timers [Ieee] (ops : PluginOps PF PM) (pre int : Str) (plugins : List PF) (w : World) (key : Str)
    (hq : OthersQuiet ops w (CPState.init ops plugins).plugins (fun _ => pre) key (ofTimerC pre key))
    (hself : ∀ s, (c!"ms", s) ∈ suffixes → ¬ internalPrefixOf pre int <+: prefixed pre key s)
    (es : List Event) (hc : ¬ Received c!"c" key (arrivals es)) (hm : ¬ Received c!"m" key (arrivals es))
    (hnp : pluginMsgs (CPState.init ops plugins).plugins key (arrivals es) = [])
    (hf : ∀ m ∈ arrivals es, ∀ v, Reading c!"ms" key m v → ∃ q, v = .fin q) :
    let v := (startUp (CPState.init ops plugins)).run (configurable ops pre int) w es
    let pts := (v.out ++ underWay v.gens).filter (ofTimerC pre key)
    (v.ps.timers.find key = none ∧ ¬ Received c!"ms" key (arrivals es) ∧ pts = []) ∨
    ∃ start h t gs, v.ps.timers.find key = some t ∧ TimerRun (TimerRep.init key pre start) h t ∧
      Collect (Reading c!"ms" key) (arrivals es) ((durations h).map PyFloat.fin) ∧
      ReportsOf (fun h ts g => DoubleReport pre key (period h) (durations h).length (periodStart start h) ts g) h gs ∧
      pts.Perm gs.flatten := by
  intro v pts
  have h0 : TimerWatchC ops w (CPState.init ops plugins).plugins (fun start h ts g => DoubleReport pre key (period h) (durations h).length (periodStart start h) ts g)
      pre key (CPState.init ops plugins) [] [] :=
    ⟨cpwf_init ops pre plugins, storedC_init ops pre plugins, lives_init ops w _ rfl, fun _ _ _ _ => Or.inl ⟨rfl, by rintro ⟨m, hm, _⟩; simp at hm, rfl⟩⟩
  obtain ⟨_, h⟩ := watch_run (timer_watchC ops pre int w hq hself (fun _ _ => True)
    fun start h t ts hr hd => report_double hr (fun q hq => by
      obtain ⟨m, hm⟩ := hd q hq
      exact reading_double hm q rfl) ts) h0 es (fun _ _ _ => trivial)
  rcases h.2.2.2 hc hm hnp hf with h | ⟨st, hh, t, gs, h1, h2, h3, h4, h5⟩
  · exact Or.inl h
  · exact Or.inr ⟨st, hh, t, gs, h1, h2, h4, h3, h5⟩

/-- C128: in any schedule, every total of a meter that a flush of the default processor emits is the sum of the readings
accepted up to some moment between its start and now: exactly for whole numbers, nearly in doubles. -/
theorem C128_default (ops : PluginOps PF PM) (hq : Quiet ops c!"stats.meter.") (plugins : List PF) (w : World)
    (es es' : List Event) (hn : NoCounter c!"meter." (arrivals es ++ arrivals es')) (i : Nat) (interval percent : ℤ)
    (key : Str) :
    let v := (startUp (MPState.init ops plugins)).run (messageProcessor ops) w es
    v.gens[i]? = some ⟨interval, percent, .fresh⟩ →
    ∀ d ∈ emits (messageProcessor ops) w i v es', d.name = c!"stats.meter." ++ key ++ c!".count" →
      ∃ es1 es2, es' = es1 ++ es2 ∧ MeterTotal key (arrivals es ++ arrivals es1) d.value := by
  intro v hg d hd hname
  obtain ⟨es1, es2, he, h⟩ := C103_default ops plugins w es es' i interval percent hg d hd
  refine ⟨es1, es2, he, ?_⟩
  rcases h with ⟨k, ⟨m, hm, fs, hk⟩, h | h⟩ | ⟨k, _, h⟩ | ⟨k, _, _, h, _⟩ | ⟨k, _, h | ⟨h, ht⟩⟩ | h | ⟨pk, m, t, gs, n, secs, ts, hl, _, hdl⟩
  · rw [hname] at h
    have e : k = c!"meter." ++ key ++ c!".count" := by simpa using h.symm
    subst e
    refine absurd ⟨key ++ c!".count", by simp⟩ (hn m ?_ _ fs hk)
    rw [he]
    rcases List.mem_append.1 hm with hm | hm
    · exact List.mem_append_left _ hm
    · refine List.mem_append_right _ ?_
      unfold arrivals at hm ⊢
      rw [List.filterMap_append]
      exact List.mem_append_left _ hm
  · rw [hname] at h; simp at h
  · obtain ⟨word, _, h⟩ := ofTimer_iff.1 h
    rw [hname] at h; simp at h
  · rw [hname] at h; simp at h
  · rw [hname] at h
    have := congrArg (fun l => l.reverse.head?) h
    simp at this
  · rw [hname] at h
    have e : key = k := by simpa using h
    rw [e]; exact ht
  · rw [hname] at h
    obtain ⟨t, h⟩ := h
    simp at h
  · refine absurd ⟨key ++ c!".count", ?_⟩ (hq pk m (life_came hl) w n secs ts _ (madeBy_ok hdl) d hdl)
    rw [hname, List.append_assoc]

/-- C128: the same for the configurable processor. (The key is not used for a counter or a timer as well, and the total is
not among the processor's own statistics.) -/
theorem C128_configurable (ops : PluginOps PF PM) (pre int : Str) (plugins : List PF) (w : World) (es es' : List Event)
    (i : Nat) (interval percent : ℤ) (key : Str)
    (hq : OthersQuiet ops w (CPState.init ops plugins).plugins (fun _ => pre) key
      fun d => decide (d.name = prefixed pre key c!".count"))
    (hnp : pluginMsgs (CPState.init ops plugins).plugins key (arrivals es ++ arrivals es') = [])
    (hself : ¬ internalPrefixOf pre int <+: prefixed pre key c!".count")
    (hc : ¬ Received c!"c" key (arrivals es ++ arrivals es')) (ht : ¬ Received c!"ms" key (arrivals es ++ arrivals es')) :
    let v := (startUp (CPState.init ops plugins)).run (configurable ops pre int) w es
    v.gens[i]? = some ⟨interval, percent, .fresh⟩ →
    ∀ d ∈ emits (configurable ops pre int) w i v es', d.name = prefixed pre key c!".count" →
      ∃ es1 es2, es' = es1 ++ es2 ∧ MeterTotal key (arrivals es ++ arrivals es1) d.value := by
  intro v hg d hd hname
  obtain ⟨es1, es2, he, h⟩ := C103_configurable ops pre int plugins w es es' i interval percent hg d hd
  refine ⟨es1, es2, he, ?_⟩
  have hsub : ∀ m ∈ arrivals es ++ arrivals es1, m ∈ arrivals es ++ arrivals es' := by
    intro m hm
    rw [he]
    rcases List.mem_append.1 hm with hm | hm
    · exact List.mem_append_left _ hm
    · refine List.mem_append_right _ ?_
      unfold arrivals at hm ⊢
      rw [List.filterMap_append]
      exact List.mem_append_left _ hm
  rcases h with ⟨k, q, z, hl, _, h, _⟩ | ⟨k, _, _, h, _⟩ | ⟨k, s, hk, hs, h⟩ | ⟨k, hk, h | ⟨h, htot⟩⟩ | h | ⟨pk, m, t, gs, n, secs, ts, hlf, _, hdl⟩
  · rw [hname] at h
    obtain ⟨e, _⟩ := prefixed_inj (t := c!"c") (t' := c!"c") (by decide) (by decide) h
    subst e
    obtain ⟨b, m, a, e1, hr, _⟩ := hl
    exact absurd ⟨m, hsub m (by rw [e1]; simp), _, hr⟩ hc
  · rw [hname] at h
    obtain ⟨_, e⟩ := prefixed_inj (t := c!"c") (t' := c!"g") (by decide) (by decide) h
    exact absurd e (by decide)
  · rw [hname] at h
    obtain ⟨e, _⟩ := prefixed_inj (t := c!"c") (t' := c!"ms") (by decide) hs h
    subst e
    obtain ⟨m, hm, v, hv⟩ := hk
    exact absurd ⟨m, hsub m hm, v, hv⟩ ht
  · rw [hname] at h
    obtain ⟨_, e⟩ := prefixed_inj (t := c!"c") (t' := c!"m") (by decide) (by decide) h
    exact absurd e (by decide)
  · rw [hname] at h
    obtain ⟨e, _⟩ := prefixed_inj (t := c!"c") (t' := c!"m") (by decide) (by decide) h
    rw [e]; exact htot
  · rw [hname] at h; exact absurd h hself
  · have hne : pk ≠ key := by
      rintro rfl
      refine life_nonempty hlf ?_
      rw [he] at hnp
      unfold arrivals at hnp ⊢
      rw [List.filterMap_append] at hnp
      unfold pluginMsgs at hnp ⊢
      rw [List.filterMap_append] at hnp ⊢
      rw [List.filterMap_append] at hnp
      simp only [List.append_eq_nil_iff] at hnp ⊢
      exact ⟨hnp.1, hnp.2.1⟩
    have := hq pk m hne ⟨t, _, gs, hlf⟩ n secs ts d hdl
    simp [hname] at this

end

/-! ## The hypotheses can be met -/

section
attribute [local instance] binary64 binary64_ieee

/-- C126 for the schedule of C102's example, with doubles. -/
example : (arrivals exTimers).length ≤ 2 ^ 52 := by
  have : (arrivals exTimers).length = 5 := by decide +kernel
  omega
/-- Three tenths: the mean of the summary is one unit too large, within the bound. -/
example : SummarisesDouble 90 7 c!"t" [.fin tenth, .fin tenth, .fin tenth]
    [⟨c!"stats.timers.t.count", .int 3, 7⟩, ⟨c!"stats.timers.t.lower", .flt (.fin tenth), 7⟩,
     ⟨c!"stats.timers.t.mean", .flt (.fin (7205759403792795 / 72057594037927936)), 7⟩,
     ⟨c!"stats.timers.t.upper", .flt (.fin tenth), 7⟩, ⟨c!"stats.timers.t.upper_90", .flt (.fin tenth), 7⟩] := by
  refine ⟨by decide +kernel, by decide, rfl, ?_⟩
  intro qs h h0 hs
  have e : qs = [tenth, tenth, tenth] :=
    List.map_injective_iff.2 (fun a b h => by simpa using h) (h.symm.trans (by rfl : _ = [tenth, tenth, tenth].map PyFloat.fin))
  subst e
  refine ⟨[tenth, tenth, tenth], [tenth, tenth, tenth], tenth, tenth, tenth,
    7205759403792795 / 72057594037927936, .refl _, by simp, List.prefix_rfl, by simp, ?_, rfl, rfl, rfl, ?_, ?_,
    by rw [show intStr 90 = c!"90" by decide +kernel]; rfl⟩
  · intro _; norm_num [abs_le]
  · norm_num
  · have h2 : (0 : ℚ) < 2 ^ (-1075 : ℤ) := two_zpow_pos _
    generalize (2 : ℚ) ^ (-1075 : ℤ) = x at *
    have : |(7205759403792795 / 72057594037927936 : ℚ) - meanOf [tenth, tenth, tenth]| ≤
      ([tenth, tenth, tenth].length : ℚ) / 2 ^ 52 * meanOf [tenth, tenth, tenth] := by
      norm_num [abs_le, meanOf, tenth]
    linarith

/-- C127: a history of doubles. -/
example : ∀ q ∈ durations [.add (-2), .report 4, .add tenth], rnd q = .fin q := by
  intro q hq
  rcases (by simpa [durations] using hq : q = -2 ∨ q = tenth) with rfl | rfl <;> decide +kernel
/-- The report of one duration of a tenth after two seconds. -/
example :
    let t := (TimerRep.init c!"t" c!"p" 2).update 0 (.fin tenth)
    (t.report 4).2 = .ok [⟨c!"p.t.999percentile", .flt (.fin tenth), 4⟩, ⟨c!"p.t.99percentile", .flt (.fin tenth), 4⟩,
      ⟨c!"p.t.count", .flt (.fin 1), 4⟩, ⟨c!"p.t.max", .flt (.fin tenth), 4⟩, ⟨c!"p.t.mean", .flt (.fin tenth), 4⟩,
      ⟨c!"p.t.min", .flt (.fin tenth), 4⟩, ⟨c!"p.t.rate", .flt (.fin (1 / 2)), 4⟩,
      ⟨c!"p.t.stddev", .flt (.fin 0), 4⟩] := by
  have hsort : sortFloats [.fin tenth] = [.fin tenth] := by
    have : ([.fin tenth] : List PyFloat) = [tenth].map .fin := rfl
    rw [this, sortFloats_fin]
    congr 1
    exact List.mergeSort_of_pairwise (by simp)
  have hp : ((TimerRep.init c!"t" c!"p" 2).update 0 (.fin tenth)).hist.sample.getValues = [.fin tenth] := by decide +kernel
  intro t
  have hps : t.hist.percentiles timerPercentiles = .ok (List.replicate 6 (.fin tenth)) := by
    unfold Histogram.percentiles
    rw [show t.hist.sample.getValues = [.fin tenth] from hp, hsort]
    decide +kernel
  unfold TimerRep.report TimerRep.reportItems
  rw [hps]
  decide +kernel

/-- C128: readings that are not whole, and readings that are. -/
example : Collect (Reading c!"m" c!"k") [c!"k:0.1|m", c!"k:0.1|m"] ([tenth, tenth].map PyFloat.fin) := by
  have h : Reading c!"m" c!"k" c!"k:0.1|m" (.fin tenth) := reading_of (by decide +kernel)
  exact .hit h (.hit h .nil)
example : Collect (Reading c!"m" c!"k") [c!"k:7|m", c!"x:1|c", c!"k:-2|m"] (([7, -2] : List ℤ).map fun z : ℤ => PyFloat.fin z) := by
  have h1 : Reading c!"m" c!"k" c!"k:7|m" (.fin ((7 : ℤ) : ℚ)) := reading_of (by decide +kernel)
  have h2 : Reading c!"m" c!"k" c!"k:-2|m" (.fin ((-2 : ℤ) : ℚ)) := reading_of (by decide +kernel)
  have h3 : ∀ v, ¬ Reading c!"m" c!"k" c!"x:1|c" v := not_reading_of (by decide +kernel)
  exact .hit h1 (.skip h3 (.hit h2 .nil))
example :
    let v := (startUp (MPState.init noPlugins [])).run (messageProcessor noPlugins) exWorld
      [.arrive c!"k:7|m", .spawn 1000 90]
    (v.gens[0]?.map fun g => (g.interval, g.percent, match g.pc with
      | .fresh => true
      | _ => false)) = some (1000, 90, true) ∧
    ((emits (messageProcessor noPlugins) exWorld 0 v ([.advance 0, .arrive c!"k:-2|m"] ++ List.replicate 9 (.advance 0))).filter
      fun d => decide (d.name = c!"stats.meter.k.count")).map (fun d => d.value) = [.flt (.fin 5)] := by decide +kernel
example :
    let v := (startUp (CPState.init noPlugins [])).run (configurable noPlugins c!"p" []) exWorld
      [.arrive c!"k:7|m", .spawn 1000 90]
    ((emits (configurable noPlugins c!"p" []) exWorld 0 v ([.advance 0, .arrive c!"k:-2|m"] ++ List.replicate 9 (.advance 0))).filter
      fun d => decide (d.name = c!"p.k.count")).map (fun d => d.value) = [.flt (.fin 5)] := by decide +kernel
example : ¬ internalPrefixOf c!"p" [] <+: prefixed c!"p" c!"k" c!".count" := by
  intro h
  have h := List.isPrefixOf_iff_prefix.2 h
  revert h; decide

end
end Txstatsd
