import Verif.Lemmas.PluginFlow
import Verif.Lemmas.Distinct
import Verif.Lemmas.Timed

set_option linter.unusedSectionVars false
set_option linter.unusedSimpArgs false
set_option linter.unusedVariables false

/-!
# Distinct metrics watched through a schedule
-/

namespace Txstatsd
open Spec
section
variable [Rounding] {PF PM : Type}

/-- The clock readings of a plugin metric come before the next ones of the server. -/
theorem process_plugin_ticks (ops : PluginOps PF PM) (w : World) (s : MPState PF PM) {msg : Str} {m : Metric}
    (hp : parseMessage msg = some m) (ht : m.mtype ∉ [c!"c", c!"ms", c!"g", c!"m"]) {f : PF}
    (hf : s.plugins.find m.mtype = some f) :
    s.ticks + 1 + (ops.process w (s.ticks + 1) ((s.pluginMetrics.find m.key).getD
        (ops.build w (s.ticks + 1) f (c!"stats." ++ ops.name f) m.key)) m.fields).2.1 ≤
      (process (messageProcessor ops) w s msg).1.ticks := by
  unfold process
  simp only [hp]
  unfold processMessage
  simp only
  unfold dispatch
  simp only [List.mem_cons, List.not_mem_nil, or_false, not_or] at ht
  obtain ⟨h1, h2, h3, h4⟩ := ht
  simp only [h1, h2, h3, h4, if_false, hf]
  unfold finish
  cases hk : s.pluginMetrics.find m.key with
  | some pm =>
    simp only [processPlugin, hk, Option.getD_some]
    split
    · simp only [account]; exact Nat.le_succ _
    · exact le_refl _
  | none =>
    simp only [processPlugin, hk, Option.getD_none, Dict.find_put_self]
    split
    · simp only [account]; exact Nat.le_succ _
    · exact le_refl _

end

section
variable [Rounding] [Power]

theorem feed_snoc {c d : DistinctCounter} {h : List (ℚ × Str)} (hc : WellSized c) (hf : feed c h = .ok d) (e : ℚ × Str) :
    ∃ d', d.add e.1 e.2 = .ok d' ∧ feed c (h ++ [e]) = .ok d' := by
  induction h generalizing c with
  | nil =>
    simp only [feed, Except.ok.injEq] at hf
    subst hf
    refine ⟨_, add_eq c hc e.1 e.2, ?_⟩
    simp only [List.nil_append, feed, add_eq c hc]
  | cons a h ih =>
    simp only [feed, add_eq c hc] at hf
    obtain ⟨d', h1, h2⟩ := ih (wellSized_hit c hc a) hf
    refine ⟨d', h1, ?_⟩
    simp only [List.cons_append, feed, add_eq c hc]
    exact h2

/-- The estimate of a counter that was fed. -/
theorem feed_estimates {tables : List (Nat → Nat)} (hne : tables ≠ []) {since : ℚ} (hs : 0 ≤ since) {h : List (ℚ × Str)}
    (ho : Ordered h) {c : DistinctCounter} (hf : feed (.init 32 tables) h = .ok c) :
    ∃ x, c.distinct since = .ok x ∧ Estimates tables since h x := by
  rw [feed_init (by decide)] at hf
  simp only [Except.ok.injEq] at hf
  subst hf
  have h0 : tables.length ≠ 0 := fun e => hne (List.length_eq_zero_iff.1 e)
  refine ⟨_, if_neg (by simpa using h0), (tables.map fun t => HashRow.least0 since (HashRow.after 32 { table := t, buckets := List.replicate 32 0 } h)), ?_, ?_⟩
  · rw [List.forall₂_map_right_iff]
    exact List.forall₂_same.2 fun t _ => least0_isRun (by decide) t since hs h ho
  · simp [estimate, Function.comp_def]

/-- A flush of a distinct metric. -/
theorem distinct_report {tables : List (Nat → Nat)} (hne : tables ≠ []) {pre key : Str} {h : List (ℚ × Str)} (ho : Ordered h)
    {c : DistinctCounter} (hf : feed (.init 32 tables) h = .ok c) {now : ℚ} (hnow : 86400 ≤ now) (ts : ℤ) :
    ∃ g, (⟨key, pre, c⟩ : DistinctReporter).flush now ts = .ok g ∧ DistinctReport tables (pre ++ key) h now ts g := by
  obtain ⟨all, a1, a2⟩ := feed_estimates hne (le_refl 0) ho hf
  obtain ⟨day, b1, b2⟩ := feed_estimates hne (since := now - 86400) (by linarith) ho hf
  obtain ⟨hour, c1, c2⟩ := feed_estimates hne (since := now - 3600) (by linarith) ho hf
  obtain ⟨min1, d1, d2⟩ := feed_estimates hne (since := now - 60) (by linarith) ho hf
  refine ⟨_, ?_, all, day, hour, min1, rfl, a2, b2, c2, d2⟩
  have e1 : now - 60 * 60 = now - 3600 := by norm_num
  have e2 : now - 60 * 60 * 24 = now - 86400 := by norm_num
  simp [DistinctReporter.flush, a1, d1, e1, e2, c1, b1, bind, Except.bind]

theorem distinctReport_own {tables : List (Nat → Nat)} {key : Str} {h : List (ℚ × Str)} {now : ℚ} {ts : ℤ} {g : List Datapoint}
    (hg : DistinctReport tables (c!"stats.pdistinct." ++ key) h now ts g) : g.filter (ofDistinct key) = g := by
  obtain ⟨a, b, c, d, rfl, _⟩ := hg
  rw [List.filter_eq_self]
  intro x hx
  rw [ofDistinct_iff]
  simp only [List.mem_cons, List.not_mem_nil, or_false] at hx
  rcases hx with rfl | rfl | rfl | rfl
  · exact ⟨c!"count", by decide, rfl⟩
  · exact ⟨c!"count_1day", by decide, rfl⟩
  · exact ⟨c!"count_1hour", by decide, rfl⟩
  · exact ⟨c!"count_1min", by decide, rfl⟩

/-- The sightings, the reports made of them and the stored counter. -/
def DistinctFlow (w : World) (key : Str) (s : MPState Factory PluginMetric) (items : List Str) (l : List Datapoint) : Prop :=
  ∃ (tables : List (Nat → Nat)) (h : List (ℚ × Str)) (reports : List (List (ℚ × Str) × ℚ × ℤ)) (groups : List (List Datapoint)),
    tables.length = 32 ∧ h.map Prod.snd = items ∧ Ordered h ∧ (∀ e ∈ h, ∃ n < s.ticks, e.1 = w.clk n) ∧
    (∀ rep ∈ reports, rep.1 ≠ [] ∧ rep.1 <+: h ∧ (∃ n, rep.2.1 = w.clk n) ∧ ∀ e ∈ rep.1, e.1 ≤ rep.2.1) ∧
    List.Forall₂ (fun rep g => DistinctReport tables (c!"stats.pdistinct." ++ key) rep.1 rep.2.1 rep.2.2 g) reports groups ∧ l.Perm groups.flatten ∧
    ((s.pluginMetrics.find key = none ∧ h = [] ∧ reports = []) ∨
     ∃ c, h ≠ [] ∧ feed (.init 32 tables) h = .ok c ∧ s.pluginMetrics.find key = some (.distinct ⟨key, c!"stats.pdistinct.", c⟩))

theorem distinctFlow_mono {w : World} {key : Str} {s s' : MPState Factory PluginMetric} {items : List Str} {l : List Datapoint}
    (ht : s.ticks ≤ s'.ticks) (hp : s'.pluginMetrics.find key = s.pluginMetrics.find key) (h : DistinctFlow w key s items l) :
    DistinctFlow w key s' items l := by
  obtain ⟨tb, h, rp, gs, a1, a2, a3, a4, a5, a6, a7, a8⟩ := h
  refine ⟨tb, h, rp, gs, a1, a2, a3, ?_, a5, a6, a7, by rw [hp]; exact a8⟩
  intro e he
  obtain ⟨n, hn, e1⟩ := a4 e he
  exact ⟨n, lt_of_lt_of_le hn ht, e1⟩

/-- What is stored of a distinct metric and what was made of it. -/
def DistinctWatch (w : World) (cfg : SliConfig) (key : Str) (s : MPState Factory PluginMetric) (ms : List Str) (l : List Datapoint) : Prop :=
  MPWf shippedOps s ∧ (s.plugins.find c!"pd" = some .distinct ∧
    ∀ t f, s.plugins.find t = some f → (t = c!"sli" ∧ f = .sli cfg) ∨ (t = c!"pd" ∧ f = .distinct)) ∧
  (∀ k pm, s.pluginMetrics.find k = some pm → Tame k pm) ∧
  (NoCounter c!"pdistinct." ms → NoSli key ms → (∀ k ∈ s.counters.keys, ¬ c!"pdistinct." <+: k) ∧
    DistinctFlow w key s (pdItems key ms) l)

theorem noSli_append {key : Str} {a b : List Str} (h : NoSli key (a ++ b)) : NoSli key a ∧ NoSli key b :=
  ⟨fun m hm => h m (by simp [hm]), fun m hm => h m (by simp [hm])⟩

theorem pdItems_snoc (key : Str) (ms : List Str) (m : Str) : pdItems key (ms ++ [m]) = pdItems key ms ++ pdItems key [m] := by
  simp [pdItems]

theorem tame_arrive (w : World) {cfg : SliConfig} (hl : DotlessLabels cfg) {s : MPState Factory PluginMetric}
    (h2 : ∀ t f, s.plugins.find t = some f → (t = c!"sli" ∧ f = .sli cfg) ∨ (t = c!"pd" ∧ f = .distinct))
    (h3 : ∀ k pm, s.pluginMetrics.find k = some pm → Tame k pm) (m : Str) :
    ∀ k pm, (process (messageProcessor shippedOps) w s m).1.pluginMetrics.find k = some pm → Tame k pm := by
  intro k pm hk
  cases hp : parseMessage m with
  | none => rw [process_unparsed shippedOps w s hp] at hk; exact h3 k pm hk
  | some x =>
    by_cases hkx : k = x.key
    · subst hkx
      cases hf : s.plugins.find x.mtype with
      | none => rw [process_plugin_none shippedOps w s hp hf] at hk; exact h3 _ pm hk
      | some f =>
        have hc := h2 _ _ hf
        have hmt : x.mtype ∉ [c!"c", c!"ms", c!"g", c!"m"] := by
          rcases hc with ⟨h, _⟩ | ⟨h, _⟩ <;> rw [h] <;> decide
        rw [process_plugin shippedOps w s hp hmt hf] at hk
        simp only [Option.some.injEq] at hk
        subst hk
        apply tame_process
        cases ho : s.pluginMetrics.find x.key with
        | some q => exact h3 _ q ho
        | none => exact tame_build w _ hl x.key (hc.elim (fun h => .inr h.2) (fun h => .inl h.2))
    · rw [process_pluginMetrics_ne shippedOps w s hp hkx] at hk; exact h3 k pm hk

theorem distinct_watch {w : World} (hw : ∀ i j, i ≤ j → w.clk i ≤ w.clk j) (h0 : ∀ n, 86400 ≤ w.clk n) (cfg : SliConfig)
    (hl : DotlessLabels cfg) (key : Str) :
    Watch (messageProcessor shippedOps) w (fun _ _ => True) (ofDistinct key) (DistinctWatch w cfg key) where
  perm := by
    rintro s ms l l' hp ⟨h1, h2, h3, h4⟩
    refine ⟨h1, h2, h3, fun hn hd => ?_⟩
    obtain ⟨a0, tb, h, rp, gs, a1, a2, a3, a4, a5, a6, a7, a8⟩ := h4 hn hd
    exact ⟨a0, tb, h, rp, gs, a1, a2, a3, a4, a5, a6, hp.symm.trans a7, a8⟩
  same := by
    rintro s s' ms l hs ⟨h1, h2, h3, h4⟩
    refine ⟨mpwf_same hs h1, by rw [hs.plugins]; exact h2, by rw [hs.pluginMetrics]; exact h3, fun hn hd => ?_⟩
    rw [hs.counters]
    obtain ⟨a0, a1⟩ := h4 hn hd
    exact ⟨a0, distinctFlow_mono hs.ticks (by rw [hs.pluginMetrics]) a1⟩
  arrive := by
    rintro s ms l m ⟨h1, h2, h3, h4⟩
    have hpl := process_plugins shippedOps w s m
    refine ⟨mpwf_process shippedOps w h1 m, by rw [hpl]; exact h2, tame_arrive w hl h2.2 h3 m, fun hn hd => ?_⟩
    obtain ⟨hn1, hn2⟩ := noCounter_append.1 hn
    obtain ⟨hd1, hd2⟩ := noSli_append hd
    obtain ⟨a0, hflow⟩ := h4 hn1 hd1
    refine ⟨noCounter_keys shippedOps w a0 hn2, ?_⟩
    have skip : (process (messageProcessor shippedOps) w s m).1.pluginMetrics.find key = s.pluginMetrics.find key →
        pdItems key [m] = [] → DistinctFlow w key (process (messageProcessor shippedOps) w s m).1 (pdItems key (ms ++ [m])) l := by
      intro e1 e2
      rw [pdItems_snoc, e2, List.append_nil]
      exact distinctFlow_mono (process_ticks (mp_timed shippedOps) w s m) e1 hflow
    cases hp : parseMessage m with
    | none =>
      apply skip
      · rw [process_unparsed shippedOps w s hp]
      · simp [pdItems, hp]
    | some x =>
      by_cases hk : x.key = key
      · by_cases ht : x.mtype = c!"pd"
        · have hmt : x.mtype ∉ [c!"c", c!"ms", c!"g", c!"m"] := by rw [ht]; decide
          have hfp : s.plugins.find x.mtype = some .distinct := by rw [ht]; exact h2.1
          have hpr := process_plugin shippedOps w s hp hmt hfp
          have hti := process_plugin_ticks shippedOps w s hp hmt hfp
          obtain ⟨f0, rest, hfs⟩ : ∃ f0 rest, x.fields = f0 :: rest := by
            rcases parse_fields hp with ⟨f0, h⟩ | ⟨f0, f2, h⟩ <;> exact ⟨_, _, h⟩
          have hev : pdItems key [m] = [f0] := by simp [pdItems, hp, hk, ht, hfs]
          obtain ⟨tb, h, rp, gs, a1, a2, a3, a4, a5, a6, a7, a8⟩ := hflow
          -- the counter before the message
          obtain ⟨tb', hlen, hcase, c, hfeed, hbefore⟩ : ∃ tb' : List (Nat → Nat), tb'.length = 32 ∧ (tb' = tb ∨ (h = [] ∧ rp = [])) ∧
              ∃ c, feed (.init 32 tb') h = .ok c ∧
              (s.pluginMetrics.find x.key).getD (shippedOps.build w (s.ticks + 1) .distinct (c!"stats." ++ shippedOps.name .distinct) x.key) =
                .distinct ⟨key, c!"stats.pdistinct.", c⟩ := by
            rcases a8 with ⟨e1, e2, e3⟩ | ⟨c, _, e1, e2⟩
            · refine ⟨(List.range 32).map (w.sbox (s.ticks + 1)), by simp, .inr ⟨e2, e3⟩, .init 32 ((List.range 32).map (w.sbox (s.ticks + 1))), by rw [e2]; rfl, ?_⟩
              rw [hk, e1]; rfl
            · exact ⟨tb, a1, .inl rfl, c, e1, by rw [hk, e2]; rfl⟩
          rw [hbefore] at hpr hti
          obtain ⟨c', hadd, hfeed'⟩ := feed_snoc (wellSized_init (by decide) tb') hfeed (w.clk (s.ticks + 1), f0)
          have hproc : shippedOps.process w (s.ticks + 1) (.distinct ⟨key, c!"stats.pdistinct.", c⟩) x.fields =
              (.distinct ⟨key, c!"stats.pdistinct.", c'⟩, 1, none) := by
            rw [hfs]
            simp only [shippedOps, DistinctReporter.process, DistinctReporter.update]
            simp only at hadd
            rw [hadd]
          rw [hproc] at hpr hti
          rw [hk] at hpr
          have hlt : s.ticks + 1 < (process (messageProcessor shippedOps) w s m).1.ticks := by
            have : s.ticks + 1 + 1 ≤ (process (messageProcessor shippedOps) w s m).1.ticks := hti
            omega
          refine ⟨tb', h ++ [(w.clk (s.ticks + 1), f0)], rp, gs, hlen, ?_, ?_, ?_, ?_, ?_, a7, .inr ⟨c', by simp, hfeed', hpr⟩⟩
          · rw [pdItems_snoc, hev, List.map_append, a2]; rfl
          · refine List.pairwise_append.2 ⟨a3, List.pairwise_singleton _ _, ?_⟩
            intro e he e' he'
            rw [List.mem_singleton.1 he']
            obtain ⟨n, hn, en⟩ := a4 e he
            rw [en]; exact hw _ _ (by omega)
          · intro e he
            rcases List.mem_append.1 he with he | he
            · obtain ⟨n, hn, en⟩ := a4 e he
              exact ⟨n, by omega, en⟩
            · rw [List.mem_singleton.1 he]; exact ⟨_, hlt, rfl⟩
          · intro rep hrep
            obtain ⟨b0, b1, b2⟩ := a5 rep hrep
            exact ⟨b0, b1.trans (List.prefix_append _ _), b2⟩
          · rcases hcase with rfl | ⟨_, rfl⟩
            · exact a6
            · cases a6; exact .nil
        · apply skip
          · cases hf : s.plugins.find x.mtype with
            | none => rw [process_plugin_none shippedOps w s hp hf]
            | some f =>
              rcases h2.2 _ _ hf with ⟨h, _⟩ | ⟨h, _⟩
              · exact absurd h (hd2 m (by simp) x hp hk)
              · exact absurd h ht
          · simp [pdItems, hp, ht]
      · apply skip
        · exact process_pluginMetrics_ne shippedOps w s hp (Ne.symm hk)
        · simp [pdItems, hp, hk]
  internal := by
    rintro d ⟨x, hx, _⟩
    cases ho : ofDistinct key d with
    | false => rfl
    | true =>
      obtain ⟨y, _, hn⟩ := ofDistinct_iff.1 ho
      rw [hx] at hn
      have := congrArg (List.take 6) hn
      simp [messageProcessor] at this
  visit := by
    intro s ms l k cursor ts interval percent hInv ho hcur r
    obtain ⟨h1, h2, h3, h4⟩ := hInv
    have hfr := visit_frame shippedOps w (Int.fdiv interval 1000) percent ts k h1 cursor
    have hti : s.ticks ≤ r.1.ticks := (phaseVisit_calm (mp_timed shippedOps) w (Int.fdiv interval 1000) percent ts k s cursor).ticks
    by_cases hk : k < 4
    · refine ⟨hfr.wf, by rw [hfr.plugins]; exact h2, by rw [hfr.pluginMetrics hk]; exact h3, fun hn hd => ?_⟩
      obtain ⟨a0, hflow⟩ := h4 hn hd
      refine ⟨by rw [hfr.keys0]; exact a0, ?_⟩
      rw [visit_not_distinct shippedOps w _ percent ts hk h1 a0 cursor key, List.append_nil]
      exact distinctFlow_mono hti (by rw [hfr.pluginMetrics hk]) hflow
    · obtain ⟨j, rfl⟩ : ∃ j, k = j + 4 := ⟨k - 4, by omega⟩
      have hr : r = pluginVisit (messageProcessor shippedOps) w (Int.fdiv interval 1000) ts s cursor := rfl
      have hcur' : cursor < s.pluginMetrics.length := hcur
      have hi : s.pluginMetrics[cursor]? = some (s.pluginMetrics[cursor]'hcur') := List.getElem?_eq_getElem hcur'
      rcases he : s.pluginMetrics[cursor]'hcur' with ⟨pk, pm⟩
      rw [he] at hi
      have hfind := Dict.find_of_mem h1.shared.pluginMetrics (List.mem_of_getElem? hi)
      have hr1 : r.1 = { s with ticks := s.ticks + (shippedOps.flush w s.ticks pm (Int.fdiv interval 1000) ts).2.1,
                                pluginMetrics := s.pluginMetrics.put pk (shippedOps.flush w s.ticks pm (Int.fdiv interval 1000) ts).1 } := by
        rw [hr]; simp only [pluginVisit, hi]; rfl
      have hr2 : r.2 = (shippedOps.flush w s.ticks pm (Int.fdiv interval 1000) ts).2.2.map some := by
        rw [hr]; simp only [pluginVisit, hi]; rfl
      have htame := h3 pk pm hfind
      have hpm : r.1.pluginMetrics = s.pluginMetrics.put pk (shippedOps.flush w s.ticks pm (Int.fdiv interval 1000) ts).1 := by rw [hr1]
      refine ⟨hfr.wf, by rw [hfr.plugins]; exact h2, ?_, fun hn hd => ?_⟩
      · intro k' pm' hk'
        rw [hpm] at hk'
        by_cases e : k' = pk
        · subst e
          rw [Dict.find_put_self] at hk'
          simp only [Option.some.injEq] at hk'
          subst hk'
          exact tame_flush w _ htame _ _
        · rw [Dict.find_put_ne _ _ e] at hk'
          exact h3 _ _ hk'
      · obtain ⟨a0, hflow⟩ := h4 hn hd
        refine ⟨by rw [hfr.keys0]; exact a0, ?_⟩
        by_cases e : pk = key
        · subst e
          obtain ⟨tb, h, rp, gs, a1, a2, a3, a4, a5, a6, a7, a8⟩ := hflow
          rcases a8 with ⟨e, _⟩ | ⟨c, e0, e1, e2⟩
          · rw [hfind] at e; cases e
          · rw [hfind] at e2
            simp only [Option.some.injEq] at e2
            subst e2
            obtain ⟨g, hg1, hg2⟩ := distinct_report (pre := c!"stats.pdistinct.") (key := pk) (by intro h; rw [h] at a1; simp at a1) a3 e1 (h0 s.ticks) ts
            have hv : visited r.2 = g := by
              rw [hr2]
              show visited ((DistinctReporter.flush _ (w.clk s.ticks) ts).map some) = _
              rw [hg1]; rfl
            refine ⟨tb, h, rp ++ [(h, w.clk s.ticks, ts)], gs ++ [g], a1, a2, a3, ?_, ?_, forall₂_snoc a6 hg2, ?_, .inr ⟨c, e0, e1, ?_⟩⟩
            · intro e he
              obtain ⟨n, hn, e1⟩ := a4 e he
              exact ⟨n, lt_of_lt_of_le hn hti, e1⟩
            · intro rep hrep
              rcases List.mem_append.1 hrep with hrep | hrep
              · exact a5 rep hrep
              · rw [List.mem_singleton.1 hrep]
                refine ⟨e0, List.prefix_rfl, ⟨_, rfl⟩, ?_⟩
                intro e he
                obtain ⟨n, hn, e1⟩ := a4 e he
                rw [e1]; exact hw _ _ (le_of_lt hn)
            · rw [hv, distinctReport_own hg2]
              simpa using a7.append_right _
            · rw [hpm, Dict.find_put_self]; rfl
        · have hv : (visited r.2).filter (ofDistinct key) = [] := by
            rw [List.filter_eq_nil_iff]
            intro d hd' ho
            rw [hr2] at hd'
            cases hfl : (shippedOps.flush w s.ticks pm (Int.fdiv interval 1000) ts).2.2 with
            | error x => rw [hfl] at hd'; simp [Except.map, visited] at hd'
            | ok ds =>
              rw [hfl] at hd'
              simp only [Except.map, visited, Option.getD_some] at hd'
              exact e (tame_points_distinct w _ htame _ _ hfl key d hd' ho).1
          rw [hv, List.append_nil]
          exact distinctFlow_mono hti (by rw [hpm, Dict.find_put_ne _ _ (Ne.symm e)]) hflow

end
end Txstatsd
