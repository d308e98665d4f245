import Verif.Lemmas.PluginGroups
import Verif.Props.Configurable
import Verif.Props.Gauges

set_option linter.unusedSectionVars false
set_option linter.unusedSimpArgs false
set_option linter.unusedVariables false

/-!
# Names in one flush, from the state before it (for C173 and C174)
-/

namespace Txstatsd
open Spec
section
variable [Rounding] {PF PM : Type}

/-- Names in a flush of the default processor: what plugins name is given by `Q`. -/
theorem default_unique (ops : PluginOps PF PM) (w : World) (interval percent : ℤ) {s : MPState PF PM} (hwf : MPWf ops s)
    (hgs : (s.gauges.map Prod.snd).Nodup) (h1 : ∀ k ∈ s.counters.keys, ¬ c!"timers." <+: k)
    (h2 : ∀ k ∈ s.counters.keys, ¬ c!"gauge." <+: k) (h3 : ∀ k ∈ s.counters.keys, ¬ c!"meter." <+: k)
    (J : Str → PM → Prop) (hJ : ∀ k m n, J k m → J k (ops.flush w n m (Int.fdiv interval 1000) (truncQ (w.clk s.ticks))).1)
    (hJs : ∀ p ∈ s.pluginMetrics, J p.1 p.2) (Q : Str → Prop)
    (hQ : ∀ gs, GroupsOf ops w J (Int.fdiv interval 1000) (truncQ (w.clk s.ticks)) s.pluginMetrics.keys gs →
      (gs.flatten.map (·.name)).Nodup ∧ ∀ n ∈ gs.flatten.map (·.name), Q n)
    (hqd : ∀ n, Q n → ¬ c!"stats.timers." <+: n ∧ ¬ c!"stats.gauge." <+: n ∧ ¬ c!"stats.meter." <+: n ∧ ¬ c!"statsd." <+: n ∧
      ∀ k ∈ s.counters.keys, n ≠ c!"stats." ++ k ∧ n ≠ c!"stats_counts." ++ k)
    (hok : (flush (messageProcessor ops) w interval percent s).2.2 = none) :
    UniqueNames (flush (messageProcessor ops) w interval percent s).2.1 := by
  rw [flush_mp ops w interval percent hwf] at hok ⊢
  obtain ⟨gs, acc, hgr, ha', he⟩ := flushForm_groups (messageProcessor ops) w (Int.fdiv interval 1000) (truncQ (w.clk s.ticks))
    _ _ _ (meterRes (truncQ (w.clk s.ticks)) s.meters) s hwf.shared (runElems_keys _ _ _) hok J (fun k m n h => hJ k m n h) hJs
  obtain ⟨hpn, hpq⟩ := hQ gs hgr
  clear hgr
  unfold UniqueNames
  rw [he]
  have hsu := summary_unique (messageProcessor ops) (truncQ (w.clk s.ticks)) acc s.processTimings (fun t => (s.byType.find t).getD 0) ha'
    hwf.shared.processTimings
  have hso := summary_own (messageProcessor ops) (truncQ (w.clk s.ticks)) acc s.processTimings (fun t => (s.byType.find t).getD 0)
  generalize (numStatsPoint (messageProcessor ops) acc (truncQ (w.clk s.ticks)) ::
    (acc.flatMap (perMetricPoints (messageProcessor ops) (truncQ (w.clk s.ticks))) ++
     s.processTimings.flatMap fun p => receivePoints (messageProcessor ops) (truncQ (w.clk s.ticks)) p.1 ((s.byType.find p.1).getD 0) p.2)) = su at *
  have hc : (∀ n ∈ ((runElems (fun _ _ => Num.int 0) (counterGroup (Int.fdiv interval 1000) (truncQ (w.clk s.ticks))) s.counters).2.1.flatten.map (·.name)),
      ∃ k ∈ s.counters.keys, n = c!"stats." ++ k ∨ n = c!"stats_counts." ++ k) ∧
      ((runElems (fun _ _ => Num.int 0) (counterGroup (Int.fdiv interval 1000) (truncQ (w.clk s.ticks))) s.counters).2.1.flatten.map (·.name)).Nodup := by
    have shape : ∀ p ∈ s.counters, ∀ gr, counterGroup (Int.fdiv interval 1000) (truncQ (w.clk s.ticks)) p.1 p.2 = .ok (some gr) →
        gr.map (·.name) = [c!"stats." ++ p.1, c!"stats_counts." ++ p.1] := by
      intro p _ gr h
      unfold counterGroup at h
      split at h
      · cases h
      · simp only [Except.ok.injEq, Option.some.injEq] at h; subst h; rfl
    have shape' : ∀ p ∈ s.counters, ∀ gr, counterGroup (Int.fdiv interval 1000) (truncQ (w.clk s.ticks)) p.1 p.2 = .ok (some gr) →
        ∀ x ∈ gr, x.name = c!"stats." ++ p.1 ∨ x.name = c!"stats_counts." ++ p.1 := by
      intro p hp gr h x hx
      have : x.name ∈ gr.map (·.name) := List.mem_map_of_mem hx
      rw [shape p hp gr h] at this
      simpa using this
    constructor
    · intro n hn
      obtain ⟨x, hx, rfl⟩ := List.mem_map.1 hn
      obtain ⟨gr, hgr, hx⟩ := List.mem_flatten.1 hx
      obtain ⟨p, hp, hgp⟩ := runElems_groups _ _ _ gr hgr
      exact ⟨p.1, Dict.mem_keys_of_mem (k := p.1) (v := p.2) hp, shape' p hp gr hgp x hx⟩
    · refine runElems_unique _ _ (fun k n => n = c!"stats." ++ k ∨ n = c!"stats_counts." ++ k) ?_ _ hwf.counters ?_
      · rintro k k' n (rfl | rfl) (e | e) <;> simp at e <;> exact e
      · intro p hp gr h
        refine ⟨?_, shape' p hp gr h⟩
        rw [shape p hp gr h]; simp
  have htm : (∀ n ∈ ((runElems (fun _ _ => []) (timerGroup percent (truncQ (w.clk s.ticks))) s.timers).2.1.flatten.map (·.name)),
      c!"stats.timers." <+: n) ∧
      ((runElems (fun _ _ => []) (timerGroup percent (truncQ (w.clk s.ticks))) s.timers).2.1.flatten.map (·.name)).Nodup := by
    have shape : ∀ p ∈ s.timers, ∀ gr, timerGroup percent (truncQ (w.clk s.ticks)) p.1 p.2 = .ok (some gr) →
        ∀ x ∈ gr, ∃ y, '.' ∉ y ∧ x.name = (c!"stats.timers." ++ p.1) ++ '.' :: y := by
      intro p hp gr h x hx
      have : x.name ∈ gr.map (·.name) := List.mem_map_of_mem hx
      rw [timerGroup_shape h] at this
      simp only [List.map_cons, List.map_nil, List.mem_cons, List.not_mem_nil, or_false] at this
      rcases this with e | e | e | e | e
      · exact ⟨_, by decide, e⟩
      · exact ⟨_, by decide, e⟩
      · exact ⟨_, by decide, e⟩
      · exact ⟨_, by decide, e⟩
      · refine ⟨c!"upper_" ++ intStr percent, ?_, by rw [e]; simp⟩
        rw [List.mem_append]
        rintro (h | h)
        · exact absurd h (by decide)
        · exact intStr_no_dot _ h
    constructor
    · intro n hn
      obtain ⟨x, hx, rfl⟩ := List.mem_map.1 hn
      obtain ⟨gr, hgr, hx⟩ := List.mem_flatten.1 hx
      obtain ⟨p, hp, hgp⟩ := runElems_groups _ _ _ gr hgr
      obtain ⟨y, -, e⟩ := shape p hp gr hgp x hx
      rw [e, List.append_assoc]; exact List.prefix_append _ _
    · refine runElems_unique _ _ (fun k n => ∃ y, '.' ∉ y ∧ n = (c!"stats.timers." ++ k) ++ '.' :: y) ?_ _ hwf.timers ?_
      · rintro k k' n ⟨y, hy, rfl⟩ ⟨y', hy', e⟩
        exact List.append_cancel_left (last_dot hy hy' e).1
      · intro p hp gr h
        refine ⟨?_, shape p hp gr h⟩
        rw [timerGroup_shape h]
        refine List.Nodup.map (fun a b h => List.append_cancel_left h) ?_
        have : ([] : Str) ≠ '_' :: intStr percent := by simp
        simp
  have hgg : (∀ n ∈ ((s.gauges.map fun p => [(⟨c!"stats.gauge." ++ p.2 ++ c!".value", Num.flt p.1, truncQ (w.clk s.ticks)⟩ : Datapoint)]).flatten.map (·.name)),
      c!"stats.gauge." <+: n) ∧
      ((s.gauges.map fun p => [(⟨c!"stats.gauge." ++ p.2 ++ c!".value", Num.flt p.1, truncQ (w.clk s.ticks)⟩ : Datapoint)]).flatten.map (·.name)).Nodup := by
    have e : (s.gauges.map fun p => [(⟨c!"stats.gauge." ++ p.2 ++ c!".value", Num.flt p.1, truncQ (w.clk s.ticks)⟩ : Datapoint)]).flatten.map (·.name) =
        (s.gauges.map Prod.snd).map fun k => c!"stats.gauge." ++ k ++ c!".value" := by
      induction s.gauges with
      | nil => rfl
      | cons p rest ih => simp only [List.map_cons, List.flatten_cons, List.map_append, ih]; rfl
    rw [e]
    constructor
    · intro n hn
      obtain ⟨k, -, rfl⟩ := List.mem_map.1 hn
      rw [List.append_assoc]; exact List.prefix_append _ _
    · exact List.Nodup.map (fun a b h => List.append_cancel_left (List.append_cancel_right h)) hgs
  have hmm : (∀ n ∈ ((meterRes (truncQ (w.clk s.ticks)) s.meters).2.1.flatten.map (·.name)), c!"stats.meter." <+: n) ∧
      ((meterRes (truncQ (w.clk s.ticks)) s.meters).2.1.flatten.map (·.name)).Nodup := by
    have shape : ∀ p ∈ s.meters, ∀ gr, ((p.2.report (truncQ (w.clk s.ticks))).2.map some) = .ok (some gr) →
        (gr.map (·.name)).Nodup ∧ ∀ x ∈ gr, ∃ y, '.' ∉ y ∧ x.name = (c!"stats.meter." ++ p.1) ++ '.' :: y := by
      intro p hp gr h
      obtain ⟨e1, e2⟩ := hwf.meterPre p hp
      rcases meterGroup_shape h with e | e
      · rw [e]
        refine ⟨List.nodup_nil, ?_⟩
        intro x hx
        have : x.name ∈ gr.map (·.name) := List.mem_map_of_mem hx
        rw [e] at this; cases this
      · rw [e1, e2] at e
        refine ⟨by rw [e]; simp, ?_⟩
        intro x hx
        have : x.name ∈ gr.map (·.name) := List.mem_map_of_mem hx
        rw [e] at this
        simp only [List.mem_cons, List.not_mem_nil, or_false] at this
        rcases this with e | e
        · exact ⟨_, by decide, e⟩
        · exact ⟨_, by decide, e⟩
    constructor
    · intro n hn
      obtain ⟨x, hx, rfl⟩ := List.mem_map.1 hn
      obtain ⟨gr, hgr, hx⟩ := List.mem_flatten.1 hx
      obtain ⟨p, hp, hgp⟩ := runElems_groups _ _ _ gr hgr
      obtain ⟨y, -, e⟩ := (shape p hp gr hgp).2 x hx
      rw [e, List.append_assoc]; exact List.prefix_append _ _
    · refine runElems_unique _ _ (fun k n => ∃ y, '.' ∉ y ∧ n = (c!"stats.meter." ++ k) ++ '.' :: y) ?_ _ hwf.shared.meters shape
      rintro k k' n ⟨y, hy, rfl⟩ ⟨y', hy', e⟩
      exact List.append_cancel_left (last_dot hy hy' e).1
  have hso' : ∀ n ∈ su.map (·.name), c!"statsd." <+: n := by
    intro n hn
    obtain ⟨x, hx, rfl⟩ := List.mem_map.1 hn
    exact hso x hx
  generalize (runElems (fun _ _ => Num.int 0) (counterGroup (Int.fdiv interval 1000) (truncQ (w.clk s.ticks))) s.counters).2.1.flatten = c at *
  generalize (runElems (fun _ _ => []) (timerGroup percent (truncQ (w.clk s.ticks))) s.timers).2.1.flatten = t at *
  generalize (s.gauges.map fun p => [(⟨c!"stats.gauge." ++ p.2 ++ c!".value", Num.flt p.1, truncQ (w.clk s.ticks)⟩ : Datapoint)]).flatten = g at *
  generalize (meterRes (truncQ (w.clk s.ticks)) s.meters).2.1.flatten = m at *
  have ne : ∀ {a b n : Str}, (¬ a <+: b ∧ ¬ b <+: a) → a <+: n → b <+: n → False := by
    intro a b n h ha hb
    rcases List.prefix_or_prefix_of_prefix ha hb with e | e
    · exact h.1 e
    · exact h.2 e
  have cne : ∀ {q n : Str}, (∀ k ∈ s.counters.keys, ¬ q <+: k) → n ∈ c.map (·.name) → c!"stats." ++ q <+: n → False := by
    intro q n hk hn hq
    obtain ⟨k, hkm, rfl | rfl⟩ := hc.1 n hn
    · exact hk k hkm ((List.prefix_append_right_inj _).1 hq)
    · obtain ⟨z, hz⟩ := hq; simp at hz
  simp only [List.map_append]
  have cap : ∀ {a b : List Str}, a.Nodup → b.Nodup → (∀ n ∈ a, n ∈ b → False) → (a ++ b).Nodup := by
    intro a b ha hb h
    rw [List.nodup_append]
    exact ⟨ha, hb, fun x hx y hy e => h x hx (e ▸ hy)⟩
  have own : ∀ n ∈ (gs.flatten.map (·.name)), n ∈ su.map (·.name) → False := by
    intro n hn hn'
    exact (hqd n (hpq n hn)).2.2.2.1 (hso' n hn')
  refine cap (cap (cap (cap (cap hc.2 htm.2 ?_) hgg.2 ?_) hmm.2 ?_) hpn ?_) hsu ?_
  · intro n hn hn'
    exact cne h1 hn (htm.1 n hn')
  · intro n hn hn'
    rcases List.mem_append.1 hn with hn | hn
    · exact cne h2 hn (hgg.1 n hn')
    · exact ne (by decide) (htm.1 n hn) (hgg.1 n hn')
  · intro n hn hn'
    rcases List.mem_append.1 hn with hn | hn
    · rcases List.mem_append.1 hn with hn | hn
      · exact cne h3 hn (hmm.1 n hn')
      · exact ne (by decide) (htm.1 n hn) (hmm.1 n hn')
    · exact ne (by decide) (hgg.1 n hn) (hmm.1 n hn')
  · intro n hn hn'
    obtain ⟨q1, q2, q3, q4, q5⟩ := hqd n (hpq n hn')
    rcases List.mem_append.1 hn with hn | hn
    · rcases List.mem_append.1 hn with hn | hn
      · rcases List.mem_append.1 hn with hn | hn
        · obtain ⟨k, hk, e⟩ := hc.1 n hn
          exact (q5 k hk).elim fun a b => e.elim a b
        · exact q1 (htm.1 n hn)
      · exact q2 (hgg.1 n hn)
    · exact q3 (hmm.1 n hn)
  · intro n hn hn'
    have := hso' n hn'
    rcases List.mem_append.1 hn with hn | hn
    swap
    · exact own n hn hn'
    rcases List.mem_append.1 hn with hn | hn
    · rcases List.mem_append.1 hn with hn | hn
      · rcases List.mem_append.1 hn with hn | hn
        · obtain ⟨k, -, rfl | rfl⟩ := hc.1 n hn
          · obtain ⟨z, hz⟩ := this; simp at hz
          · obtain ⟨z, hz⟩ := this; simp at hz
        · exact ne (by decide) (htm.1 n hn) this
      · exact ne (by decide) (hgg.1 n hn) this
    · exact ne (by decide) (hmm.1 n hn) this

/-- Names in a flush of the configurable processor: which metrics of which types there are is given by `K`, what plugins name by `Q`. -/
theorem configurable_unique (ops : PluginOps PF PM) (pre int self : Str) (hself : internalPrefixOf pre int = self) (w : World)
    (interval percent : ℤ) {s : CPState PF PM} (hwf : CPWf ops pre s) (K : Str → Str → Prop)
    (hrg : ∀ k ∈ s.gauges.keys, K c!"g" k) (hrc : ∀ k ∈ s.counters.keys, K c!"c" k) (hrt : ∀ k ∈ s.timers.keys, K c!"ms" k)
    (hrm : ∀ k ∈ s.meters.keys, K c!"m" k)
    (hk : ∀ k, ¬ (K c!"c" k ∧ K c!"ms" k) ∧ ¬ (K c!"c" k ∧ K c!"m" k) ∧ ¬ (K c!"ms" k ∧ K c!"m" k))
    (hown : ∀ t k suffix, K t k → (t, suffix) ∈ suffixes → ¬ self <+: prefixed pre k suffix)
    (J : Str → PM → Prop) (hJ : ∀ k m n, J k m → J k (ops.flush w n m (Int.fdiv interval 1000) (truncQ (w.clk s.ticks))).1)
    (hJs : ∀ p ∈ s.pluginMetrics, J p.1 p.2) (Q : Str → Prop)
    (hQ : ∀ gs, GroupsOf ops w J (Int.fdiv interval 1000) (truncQ (w.clk s.ticks)) s.pluginMetrics.keys gs →
      (gs.flatten.map (·.name)).Nodup ∧ ∀ n ∈ gs.flatten.map (·.name), Q n)
    (hqd : ∀ n, Q n → ¬ self <+: n ∧ ∀ t k suffix, K t k → (t, suffix) ∈ suffixes → n ≠ prefixed pre k suffix)
    (hok : (flush (configurable ops pre int) w interval percent s).2.2 = none) :
    UniqueNames (flush (configurable ops pre int) w interval percent s).2.1 := by
  rw [flush_cp ops pre int w interval percent hwf] at hok ⊢
  obtain ⟨gs, acc, hgr, ha', he⟩ := flushForm_groups (configurable ops pre int) w (Int.fdiv interval 1000) (truncQ (w.clk s.ticks))
    _ _ _ (meterRes (truncQ (w.clk s.ticks)) s.meters) s hwf.shared (runElems_keys _ _ _) hok J (fun k m n h => hJ k m n h) hJs
  obtain ⟨hpn, hpq⟩ := hQ gs hgr
  clear hgr
  unfold UniqueNames
  rw [he]
  have hsu := summary_unique (configurable ops pre int) (truncQ (w.clk s.ticks)) acc s.processTimings (fun t => (s.byType.find t).getD 0) ha'
    hwf.shared.processTimings
  have hso := summary_own (configurable ops pre int) (truncQ (w.clk s.ticks)) acc s.processTimings (fun t => (s.byType.find t).getD 0)
  generalize (numStatsPoint (configurable ops pre int) acc (truncQ (w.clk s.ticks)) ::
    (acc.flatMap (perMetricPoints (configurable ops pre int) (truncQ (w.clk s.ticks))) ++
     s.processTimings.flatMap fun p => receivePoints (configurable ops pre int) (truncQ (w.clk s.ticks)) p.1 ((s.byType.find p.1).getD 0) p.2)) = su at *
  have hso' : ∀ n ∈ su.map (·.name), self <+: n := by
    intro n hn
    obtain ⟨x, hx, rfl⟩ := List.mem_map.1 hn
    rw [← hself]
    exact hso x hx
  -- what a section has to satisfy
  let P : Str → Str → Prop := fun t n => ∃ k s, K t k ∧ (t, s) ∈ suffixes ∧ n = prefixed pre k s
  have sec : ∀ {V : Type} (t : Str) (sx : List Str) (f : Str → V → V) (g : Str → V → VisitResult) (d : Dict V), Dict.Wf d →
      (∀ x ∈ sx, (t, x) ∈ suffixes) → sx.Nodup → (∀ k ∈ Dict.keys d, K t k) →
      (∀ p ∈ d, ∀ gr, g p.1 p.2 = .ok (some gr) → gr.map (·.name) = [] ∨ gr.map (·.name) = sx.map (prefixed pre p.1 ·)) →
      (∀ n ∈ (runElems f g d).2.1.flatten.map (·.name), P t n) ∧ ((runElems f g d).2.1.flatten.map (·.name)).Nodup := by
    intro V t sx f g d hd hsx hnd hrec hsh
    have shape : ∀ p ∈ d, ∀ gr, g p.1 p.2 = .ok (some gr) → ∀ x ∈ gr, ∃ s, (t, s) ∈ suffixes ∧ x.name = prefixed pre p.1 s := by
      intro p hp gr h x hx
      have : x.name ∈ gr.map (·.name) := List.mem_map_of_mem hx
      rcases hsh p hp gr h with e | e
      · rw [e] at this; cases this
      · rw [e] at this
        obtain ⟨u, hu, e⟩ := List.mem_map.1 this
        exact ⟨u, hsx u hu, e.symm⟩
    constructor
    · intro n hn
      obtain ⟨x, hx, rfl⟩ := List.mem_map.1 hn
      obtain ⟨gr, hgr, hx⟩ := List.mem_flatten.1 hx
      obtain ⟨p, hp, hgp⟩ := runElems_groups _ _ _ gr hgr
      obtain ⟨u, hu, e⟩ := shape p hp gr hgp x hx
      exact ⟨p.1, u, hrec _ (Dict.mem_keys_of_mem (k := p.1) (v := p.2) hp), hu, e⟩
    · refine runElems_unique _ _ (fun k n => ∃ s, (t, s) ∈ suffixes ∧ n = prefixed pre k s) ?_ _ hd ?_
      · rintro k k' n ⟨y, hy, rfl⟩ ⟨y', hy', e⟩
        exact (prefixed_inj hy hy' e).1
      · intro p hp gr h
        refine ⟨?_, shape p hp gr h⟩
        rcases hsh p hp gr h with e | e
        · rw [e]; exact List.nodup_nil
        · rw [e]
          exact List.Nodup.map (fun a b h => by unfold prefixed at h; exact List.append_cancel_left h) hnd
  have hc := sec c!"c" [c!".count"] (fun _ c => c) (fun _ c => (c.report (truncQ (w.clk s.ticks))).map some) s.counters hwf.counters
    (by decide) (by decide) hrc (by
      intro p hp gr h
      obtain ⟨e1, e2⟩ := hwf.cName p hp
      unfold CounterRep.report at h
      split at h
      · simp only [Except.map, Except.ok.injEq, Option.some.injEq] at h
        subst h
        rw [e1, e2]
        exact Or.inr (by simp only [List.map_cons, List.map_nil, dotted_eq])
      · simp [Except.map] at h)
  have ht := sec c!"ms" [c!".999percentile", c!".99percentile", c!".count", c!".max", c!".mean", c!".min", c!".rate", c!".stddev"]
    (fun _ t => (t.report (truncQ (w.clk s.ticks))).1) (fun _ t => (t.report (truncQ (w.clk s.ticks))).2.map some) s.timers hwf.timers
    (by decide) (by decide) hrt (by
      intro p hp gr h
      obtain ⟨e1, e2⟩ := hwf.tName p hp
      rw [timerRep_shape h, e1, e2]
      exact Or.inr (by simp only [List.map_cons, List.map_nil, dotted_eq]))
  have hm := sec c!"m" [c!".count", c!".rate"]
    (fun _ (m : Meter) => (m.report (truncQ (w.clk s.ticks))).1) (fun _ m => (m.report (truncQ (w.clk s.ticks))).2.map some) s.meters hwf.shared.meters
    (by decide) (by decide) hrm (by
      intro p hp gr h
      obtain ⟨e1, e2⟩ := hwf.mName p hp
      have := meterGroup_shape h
      rw [e1, e2] at this
      simpa only [List.map_cons, List.map_nil, dotted_eq] using this)
  have hg : (∀ n ∈ (s.gauges.map fun p => p.2.report (truncQ (w.clk s.ticks))).flatten.map (·.name), P c!"g" n) ∧
      ((s.gauges.map fun p => p.2.report (truncQ (w.clk s.ticks))).flatten.map (·.name)).Nodup := by
    have e : (s.gauges.map fun p => p.2.report (truncQ (w.clk s.ticks))).flatten.map (·.name) =
        s.gauges.keys.map fun k => prefixed pre k c!".value" := by
      have hn := hwf.gName
      unfold Dict.keys
      generalize s.gauges = l at hn
      induction l with
      | nil => rfl
      | cons p rest ih =>
        obtain ⟨e1, e2⟩ := hn p (by simp)
        rw [List.map_cons, List.flatten_cons, List.map_append, ih (fun q hq => hn q (by simp [hq]))]
        simp only [GaugeRep.report, List.map_cons, List.map_nil, e1, e2, dotted_eq]
        rfl
    rw [e]
    constructor
    · intro n hn
      obtain ⟨k, hkm, rfl⟩ := List.mem_map.1 hn
      exact ⟨k, _, hrg k hkm, by decide, rfl⟩
    · exact List.Nodup.map (fun a b h => (prefixed_inj (t := c!"g") (t' := c!"g") (by decide) (by decide) h).1) hwf.gauges
  rw [show (runElems (fun _ c => c) (fun _ c => (CounterRep.report c (truncQ (w.clk s.ticks))).map some) s.counters) =
    counterResC (truncQ (w.clk s.ticks)) s.counters from rfl] at hc
  rw [show (runElems (fun _ t => (TimerRep.report t (truncQ (w.clk s.ticks))).1) (fun _ t => (TimerRep.report t (truncQ (w.clk s.ticks))).2.map some) s.timers) =
    timerResC (truncQ (w.clk s.ticks)) s.timers from rfl] at ht
  rw [show (runElems (fun _ (m : Meter) => (m.report (truncQ (w.clk s.ticks))).1) (fun _ m => (m.report (truncQ (w.clk s.ticks))).2.map some) s.meters) =
    meterRes (truncQ (w.clk s.ticks)) s.meters from rfl] at hm
  generalize (counterResC (truncQ (w.clk s.ticks)) s.counters).2.1.flatten = c at *
  generalize (timerResC (truncQ (w.clk s.ticks)) s.timers).2.1.flatten = t at *
  generalize (s.gauges.map fun p => p.2.report (truncQ (w.clk s.ticks))).flatten = g at *
  generalize (meterRes (truncQ (w.clk s.ticks)) s.meters).2.1.flatten = m at *
  have ne : ∀ {t t' n}, (∀ k, ¬ (K t k ∧ K t' k)) → P t n → P t' n → False := by
    rintro t t' n h ⟨k, s, h1, h2, rfl⟩ ⟨k', s', h3, h4, e⟩
    obtain ⟨rfl, -⟩ := prefixed_inj h2 h4 e
    exact h k ⟨h1, h3⟩
  have gne : ∀ {t n}, t ≠ c!"g" → P t n → P c!"g" n → False := by
    rintro t n h ⟨k, s, h1, h2, rfl⟩ ⟨k', s', h3, h4, e⟩
    obtain ⟨-, rfl⟩ := prefixed_inj h2 h4 e
    have : ∀ p ∈ suffixes, ∀ q ∈ suffixes, q.1 = c!"g" → p.2 = q.2 → p.1 = c!"g" := by decide
    exact h (this _ h2 _ h4 rfl rfl)
  have sne : ∀ {t n}, P t n → n ∈ su.map (·.name) → False := by
    rintro t n ⟨k, s, h1, h2, rfl⟩ hn
    exact hown t k s h1 h2 (hso' _ hn)
  simp only [List.map_append]
  have cap : ∀ {a b : List Str}, a.Nodup → b.Nodup → (∀ n ∈ a, n ∈ b → False) → (a ++ b).Nodup := by
    intro a b ha hb h
    rw [List.nodup_append]
    exact ⟨ha, hb, fun x hx y hy e => h x hx (e ▸ hy)⟩
  have own : ∀ n ∈ (gs.flatten.map (·.name)), n ∈ su.map (·.name) → False := by
    intro n hn hn'
    exact (hqd n (hpq n hn)).1 (hso' n hn')
  have pne : ∀ {t n}, P t n → n ∈ gs.flatten.map (·.name) → False := by
    rintro t n ⟨k, s, h1, h2, e⟩ hn
    exact (hqd n (hpq n hn)).2 t k s h1 h2 e
  refine cap (cap (cap (cap (cap hc.2 ht.2 ?_) hg.2 ?_) hm.2 ?_) hpn ?_) hsu ?_
  · intro n hn hn'
    exact ne (fun k => (hk k).1) (hc.1 n hn) (ht.1 n hn')
  · intro n hn hn'
    rcases List.mem_append.1 hn with hn | hn
    · exact gne (by decide) (hc.1 n hn) (hg.1 n hn')
    · exact gne (by decide) (ht.1 n hn) (hg.1 n hn')
  · intro n hn hn'
    rcases List.mem_append.1 hn with hn | hn
    · rcases List.mem_append.1 hn with hn | hn
      · exact ne (fun k => (hk k).2.1) (hc.1 n hn) (hm.1 n hn')
      · exact ne (fun k => (hk k).2.2) (ht.1 n hn) (hm.1 n hn')
    · exact gne (by decide) (hm.1 n hn') (hg.1 n hn)
  · intro n hn hn'
    rcases List.mem_append.1 hn with hn | hn
    · rcases List.mem_append.1 hn with hn | hn
      · rcases List.mem_append.1 hn with hn | hn
        · exact pne (hc.1 n hn) hn'
        · exact pne (ht.1 n hn) hn'
      · exact pne (hg.1 n hn) hn'
    · exact pne (hm.1 n hn) hn'

  · intro n hn hn'
    rcases List.mem_append.1 hn with hn | hn
    swap
    · exact own n hn hn'
    rcases List.mem_append.1 hn with hn | hn
    · rcases List.mem_append.1 hn with hn | hn
      · rcases List.mem_append.1 hn with hn | hn
        · exact sne (hc.1 n hn) hn'
        · exact sne (ht.1 n hn) hn'
      · exact sne (hg.1 n hn) hn'
    · exact sne (hm.1 n hn) hn'

end
end Txstatsd
