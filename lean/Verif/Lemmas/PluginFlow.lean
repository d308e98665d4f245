import Verif.Spec.PluginFlow
import Verif.Lemmas.Plugins
import Verif.Lemmas.WatchTimer

set_option linter.unusedSectionVars false
set_option linter.unusedSimpArgs false
set_option linter.unusedVariables false

/-!
# SLI metrics watched through a schedule
-/

namespace Txstatsd
open Spec

theorem ofSli_iff {key : Str} {d : Datapoint} :
    ofSli key d = true ↔ ∃ y, '.' ∉ y ∧ d.name = c!"stats.SLI." ++ key ++ '.' :: y := by
  unfold ofSli
  simp only [Bool.and_eq_true, Bool.not_eq_true', List.isPrefixOf_iff_prefix]
  constructor
  · rintro ⟨⟨y, hy⟩, h2⟩
    refine ⟨y, ?_, by rw [← hy]; simp⟩
    rw [← hy, List.drop_left] at h2
    intro hm
    rw [List.contains_iff_mem.2 hm] at h2
    cases h2
  · rintro ⟨y, h1, h2⟩
    have h3 : d.name = (c!"stats.SLI." ++ key ++ c!".") ++ y := by rw [h2]; simp
    refine ⟨⟨y, h3.symm⟩, ?_⟩
    rw [h3, List.drop_left]
    cases hc : y.contains '.' with
    | false => rfl
    | true => exact absurd (List.contains_iff_mem.1 hc) h1

theorem ofDistinct_iff {key : Str} {d : Datapoint} :
    ofDistinct key d = true ↔ ∃ y, '.' ∉ y ∧ d.name = c!"stats.pdistinct." ++ key ++ '.' :: y := by
  unfold ofDistinct
  simp only [Bool.and_eq_true, Bool.not_eq_true', List.isPrefixOf_iff_prefix]
  constructor
  · rintro ⟨⟨y, hy⟩, h2⟩
    refine ⟨y, ?_, by rw [← hy]; simp⟩
    rw [← hy, List.drop_left] at h2
    intro hm
    rw [List.contains_iff_mem.2 hm] at h2
    cases h2
  · rintro ⟨y, h1, h2⟩
    have h3 : d.name = (c!"stats.pdistinct." ++ key ++ c!".") ++ y := by rw [h2]; simp
    refine ⟨⟨y, h3.symm⟩, ?_⟩
    rw [h3, List.drop_left]
    cases hc : y.contains '.' with
    | false => rfl
    | true => exact absurd (List.contains_iff_mem.1 hc) h1

section
variable [Rounding] {PF PM : Type}

/-- Visits of counters, timers, gauges and meters make no point named like those of the shipped plugins. -/
theorem visit_not_plugin (ops : PluginOps PF PM) (w : World) (secs percent ts : ℤ) {X : Str} (hX : X = c!"SLI." ∨ X = c!"pdistinct.")
    {k : Nat} (hk : k < 4) {s : MPState PF PM} (hs : MPWf ops s) (hc : ∀ x ∈ s.counters.keys, ¬ X <+: x) (i : Nat) :
    ∀ d ∈ visited (phaseVisit (messageProcessor ops) w secs percent ts k s i).2, ¬ (c!"stats." ++ X) <+: d.name := by
  intro d hd ho
  obtain ⟨y, hn⟩ := ho
  have hn : d.name = c!"stats." ++ X ++ y := hn.symm
  match k, hk with
  | 0, _ =>
    have hd : d ∈ visited (counterVisit secs ts s i).2 := hd
    unfold counterVisit at hd
    cases hi : s.counters[i]? with
    | none => simp [hi, visited] at hd
    | some p =>
      obtain ⟨ck, c⟩ := p
      simp only [hi] at hd
      have hck := hc ck (Dict.mem_keys_of_mem (List.mem_of_getElem? hi))
      cases hdv : c.divInt secs with
      | error e => simp [hdv, visited] at hd
      | ok x =>
        simp only [hdv, visited, Option.getD_some, List.mem_cons, List.not_mem_nil, or_false] at hd
        rcases hd with rfl | rfl
        · apply hck
          simp only at hn
          rw [List.append_assoc] at hn
          rw [List.append_cancel_left hn]
          exact List.prefix_append _ _
        · have := congrArg (List.take 6) hn
          simp at this
  | 1, _ =>
    have hd : d ∈ visited (timerVisit percent ts s i).2 := hd
    cases hi : s.timers[i]? with
    | none => simp [timerVisit, hi, visited] at hd
    | some p =>
      obtain ⟨tk, v⟩ := p
      rw [timerVisit_eq hs hi] at hd
      simp only at hd
      cases hg : timerGroup percent ts tk v with
      | error e => simp [hg, visited] at hd
      | ok o =>
        cases o with
        | none => simp [hg, visited] at hd
        | some gr =>
          rw [hg] at hd
          simp only [visited, Option.getD_some] at hd
          have := timerGroup_of hg tk d hd
          rw [decide_eq_true rfl] at this
          obtain ⟨y', _, hn'⟩ := ofTimer_iff.1 this
          rw [hn'] at hn
          have := congrArg (List.take 7) hn
          rcases hX with rfl | rfl <;> simp at this
  | 2, _ =>
    have hd : d ∈ visited (gaugeVisit ts s i).2 := hd
    unfold gaugeVisit at hd
    cases hi : s.gauges[i]? with
    | none => simp [hi, visited] at hd
    | some p =>
      obtain ⟨v, gk⟩ := p
      simp only [hi, visited, Option.getD_some, List.mem_singleton] at hd
      subst hd
      have := congrArg (List.take 7) hn
      rcases hX with rfl | rfl <;> simp at this
  | 3, _ =>
    have hd : d ∈ visited (meterVisit ts s i).2 := hd
    unfold meterVisit at hd
    cases hi : s.meters[i]? with
    | none => simp [hi, visited] at hd
    | some p =>
      obtain ⟨mk, m⟩ := p
      simp only [hi] at hd
      cases hr : (m.report ts).2 with
      | error e => simp [hr, Except.map, visited] at hd
      | ok l =>
        simp only [hr, Except.map, visited, Option.getD_some] at hd
        have hp := hs.meterPre _ (List.mem_of_getElem? hi)
        simp only at hp
        rcases (meter_report_points hr d hd).2 with e | e <;>
        · rw [e, hp.1] at hn
          have := congrArg (List.take 7) hn
          rcases hX with rfl | rfl <;> simp at this

theorem visit_not_sli (ops : PluginOps PF PM) (w : World) (secs percent ts : ℤ)
    {k : Nat} (hk : k < 4) {s : MPState PF PM} (hs : MPWf ops s) (hc : ∀ x ∈ s.counters.keys, ¬ c!"SLI." <+: x) (i : Nat)
    (key : Str) :
    (visited (phaseVisit (messageProcessor ops) w secs percent ts k s i).2).filter (ofSli key) = [] := by
  rw [List.filter_eq_nil_iff]
  intro d hd ho
  obtain ⟨y, _, hn⟩ := ofSli_iff.1 ho
  exact visit_not_plugin ops w secs percent ts (.inl rfl) hk hs hc i d hd ⟨key ++ '.' :: y, by rw [hn]; simp⟩

theorem visit_not_distinct (ops : PluginOps PF PM) (w : World) (secs percent ts : ℤ)
    {k : Nat} (hk : k < 4) {s : MPState PF PM} (hs : MPWf ops s) (hc : ∀ x ∈ s.counters.keys, ¬ c!"pdistinct." <+: x) (i : Nat)
    (key : Str) :
    (visited (phaseVisit (messageProcessor ops) w secs percent ts k s i).2).filter (ofDistinct key) = [] := by
  rw [List.filter_eq_nil_iff]
  intro d hd ho
  obtain ⟨y, _, hn⟩ := ofDistinct_iff.1 ho
  exact visit_not_plugin ops w secs percent ts (.inr rfl) hk hs hc i d hd ⟨key ++ '.' :: y, by rw [hn]; simp⟩

end

section
variable [Rounding] [Power]

/-- A plugin metric stored under a name: its datapoints can be told from those of other names. -/
def Tame (key : Str) : PluginMetric → Prop
  | .sli r => r.name = c!"stats.SLI." ++ key ∧ (∀ kv ∈ r.counts, '.' ∉ kv.1) ∧ ∀ kc ∈ r.conditions, '.' ∉ kc.1
  | .distinct r => r.pre = c!"stats.pdistinct." ∧ r.name = key

theorem dict_put_keys {V : Type} (d : Dict V) (k : Str) (v : V) (P : Str → Prop) (hd : ∀ p ∈ d, P p.1) (hk : P k) :
    ∀ p ∈ d.put k v, P p.1 := by
  induction d with
  | nil => intro p hp; simp [Dict.put] at hp; rw [hp]; exact hk
  | cons a d ih =>
    intro p hp
    obtain ⟨a1, a2⟩ := a
    unfold Dict.put at hp
    split_ifs at hp with h
    · rcases List.mem_cons.1 hp with rfl | hp
      · exact (hd (a1, a2) List.mem_cons_self : P a1)
      · exact hd p (List.mem_cons_of_mem _ hp)
    · rcases List.mem_cons.1 hp with rfl | hp
      · exact hd _ List.mem_cons_self
      · exact ih (fun p hp => hd p (List.mem_cons_of_mem _ hp)) p hp

theorem updateWith_labels {V : Type} (d e : Dict V) (P : Str → Prop) (hd : ∀ p ∈ d, P p.1) (he : ∀ p ∈ e, P p.1) :
    ∀ p ∈ updateWith d e, P p.1 := by
  unfold updateWith
  induction e generalizing d with
  | nil => exact hd
  | cons a e ih =>
    exact ih (d.put a.1 a.2) (dict_put_keys d _ _ P hd (he a List.mem_cons_self)) (fun p hp => he p (List.mem_cons_of_mem _ hp))

theorem gather_labels (path : Str) (cfg : SliConfig) (hl : DotlessLabels cfg) (d : Dict SliCond) (hd : ∀ kc ∈ d, '.' ∉ kc.1) :
    ∀ kc ∈ gather path cfg d, '.' ∉ kc.1 := by
  unfold gather
  induction cfg generalizing d with
  | nil => exact hd
  | cons p cfg ih =>
    rw [List.foldl_cons]
    apply ih (fun pc hpc => hl pc (List.mem_cons_of_mem _ hpc))
    split
    · exact updateWith_labels _ _ (fun k => '.' ∉ k) hd (hl p List.mem_cons_self)
    · exact hd

theorem tame_build (w : World) (n : Nat) {cfg : SliConfig} (hl : DotlessLabels cfg) (key : Str) {f : Factory}
    (hf : f = .distinct ∨ f = .sli cfg) : Tame key (shippedOps.build w n f (c!"stats." ++ shippedOps.name f) key) := by
  rcases hf with rfl | rfl
  · exact ⟨rfl, rfl⟩
  · have hg := gather_labels (sliPath (c!"stats." ++ c!"SLI") key) cfg hl [] (by simp)
    refine ⟨rfl, ?_, hg⟩
    intro kv hkv
    obtain ⟨kc, hkc, rfl⟩ := List.mem_map.1 hkv
    exact hg kc hkc

theorem tally_labels (v : PyFloat) (size : Num) (conds : Dict SliCond) (counts : Dict Nat) (hc : ∀ kc ∈ conds, '.' ∉ kc.1)
    (h : ∀ kv ∈ counts, '.' ∉ kv.1) : ∀ kv ∈ (tally v size conds counts).1, '.' ∉ kv.1 := by
  induction conds generalizing counts with
  | nil => exact h
  | cons kc conds ih =>
    obtain ⟨k, c⟩ := kc
    unfold tally
    split
    · exact h
    · exact ih _ (fun kc hkc => hc kc (List.mem_cons_of_mem _ hkc)) h
    · split
      · exact h
      · refine ih _ (fun kc hkc => hc kc (List.mem_cons_of_mem _ hkc)) ?_
        exact dict_put_keys counts _ _ (fun k => '.' ∉ k) h (hc (k, c) List.mem_cons_self)

theorem tame_process (w : World) (n : Nat) {key : Str} {pm : PluginMetric} (h : Tame key pm) (fields : List Str) :
    Tame key (shippedOps.process w n pm fields).1 := by
  cases pm with
  | distinct r =>
    show Tame key (.distinct (r.process (w.clk n) fields).1)
    cases fields with
    | nil => exact h
    | cons item rest =>
      show Tame key (.distinct (r.update (w.clk n) item).1)
      unfold DistinctReporter.update
      split <;> exact h
  | sli r =>
    obtain ⟨h1, h2, h3⟩ := h
    show Tame key (.sli (r.process fields).1)
    unfold SliReporter.process
    split
    · exact ⟨h1, h2, h3⟩
    · split
      · exact ⟨h1, h2, h3⟩
      · unfold SliReporter.update
        split
        · exact ⟨h1, h2, h3⟩
        · exact ⟨h1, tally_labels _ _ _ _ h3 h2, h3⟩

theorem tame_flush (w : World) (n : Nat) {key : Str} {pm : PluginMetric} (h : Tame key pm) (secs ts : ℤ) :
    Tame key (shippedOps.flush w n pm secs ts).1 := by
  cases pm with
  | distinct r => exact h
  | sli r =>
    obtain ⟨h1, h2, h3⟩ := h
    refine ⟨h1, ?_, h3⟩
    intro kv hkv
    obtain ⟨kc, hkc, rfl⟩ := List.mem_map.1 hkv
    exact h3 kc hkc

/-- The names of the points of a distinct metric. -/
theorem distinct_names {r : DistinctReporter} {now : ℚ} {ts : ℤ} {l : List Datapoint} (hl : r.flush now ts = .ok l) :
    ∀ d ∈ l, ∃ y, '.' ∉ y ∧ d.name = r.pre ++ r.name ++ '.' :: y := by
  intro d hd
  unfold DistinctReporter.flush at hl
  cases h1 : r.counter.distinct 0 with
  | error e => simp [h1, bind, Except.bind] at hl
  | ok a =>
    cases h2 : r.counter.distinct (now - 60) with
    | error e => simp [h1, h2, bind, Except.bind] at hl
    | ok b =>
      cases h3 : r.counter.distinct (now - 60 * 60) with
      | error e => simp only [h1, h2, h3, bind, Except.bind] at hl; cases hl
      | ok c =>
        cases h4 : r.counter.distinct (now - 60 * 60 * 24) with
        | error e => simp only [h1, h2, h3, h4, bind, Except.bind] at hl; cases hl
        | ok e =>
          simp only [h1, h2, h3, h4, bind, Except.bind, Except.ok.injEq] at hl
          subst hl
          simp only [List.mem_cons, List.not_mem_nil, or_false] at hd
          rcases hd with rfl | rfl | rfl | rfl
          · exact ⟨c!"count", by decide, rfl⟩
          · exact ⟨c!"count_1day", by decide, rfl⟩
          · exact ⟨c!"count_1hour", by decide, rfl⟩
          · exact ⟨c!"count_1min", by decide, rfl⟩

/-- The points of a flush are of that metric if it is a distinct metric, and of no other. -/
theorem tame_points_distinct (w : World) (n : Nat) {k : Str} {pm : PluginMetric} (h : Tame k pm) (secs ts : ℤ) {l : List Datapoint}
    (hl : (shippedOps.flush w n pm secs ts).2.2 = .ok l) (key : Str) :
    ∀ d ∈ l, ofDistinct key d = true → k = key ∧ ∃ r, pm = .distinct r := by
  intro d hd ho
  obtain ⟨y, hy, hn⟩ := ofDistinct_iff.1 ho
  cases pm with
  | distinct r =>
    have hl : r.flush (w.clk n) ts = .ok l := hl
    obtain ⟨y', hy', hn'⟩ := distinct_names hl d hd
    rw [hn', h.1, h.2] at hn
    exact ⟨List.append_cancel_left (last_dot hy' hy hn).1, r, rfl⟩
  | sli r =>
    exfalso
    obtain ⟨h1, h2, h3⟩ := h
    have hl : (.ok (r.flush ts).2 : Except PyErr _) = .ok l := hl
    simp only [Except.ok.injEq] at hl
    subst hl
    have hp : ∃ z, d.name = r.name ++ z := by
      simp only [SliReporter.flush, List.mem_append, List.mem_map, List.mem_cons, List.not_mem_nil, or_false] at hd
      rcases hd with ⟨kv, hkv, rfl⟩ | rfl | rfl
      · exact ⟨c!".count_" ++ kv.1, by simp⟩
      · exact ⟨_, rfl⟩
      · exact ⟨_, rfl⟩
    obtain ⟨z, hz⟩ := hp
    rw [hz, h1] at hn
    have := congrArg (List.take 7) hn
    simp at this

/-- The points of a flush of a metric are of that metric if it is an SLI metric, and of no other. -/
theorem tame_points (w : World) (n : Nat) {k : Str} {pm : PluginMetric} (h : Tame k pm) (secs ts : ℤ) {l : List Datapoint}
    (hl : (shippedOps.flush w n pm secs ts).2.2 = .ok l) (key : Str) :
    ∀ d ∈ l, ofSli key d = true → k = key ∧ ∃ r, pm = .sli r := by
  intro d hd ho
  obtain ⟨y, hy, hn⟩ := ofSli_iff.1 ho
  cases pm with
  | distinct r =>
    exfalso
    have hl : r.flush (w.clk n) ts = .ok l := hl
    obtain ⟨y', _, hn'⟩ := distinct_names hl d hd
    rw [hn', h.1] at hn
    have := congrArg (List.take 7) hn
    simp at this
  | sli r =>
    refine ⟨?_, r, rfl⟩
    obtain ⟨h1, h2, h3⟩ := h
    have hl : (.ok (r.flush ts).2 : Except PyErr _) = .ok l := hl
    simp only [Except.ok.injEq] at hl
    subst hl
    have key' : ∀ z : Str, '.' ∉ z → d.name = r.name ++ '.' :: z → k = key := by
      intro z hz he
      rw [he, h1] at hn
      exact List.append_cancel_left (last_dot hz hy hn).1
    simp only [SliReporter.flush, List.mem_append, List.mem_map, List.mem_cons, List.not_mem_nil, or_false] at hd
    rcases hd with ⟨kv, hkv, rfl⟩ | rfl | rfl
    · refine key' (c!"count_" ++ kv.1) ?_ (by simp)
      simp only [List.mem_append, not_or]
      exact ⟨by decide, h2 kv hkv⟩
    · exact key' c!"count" (by decide) rfl
    · exact key' c!"error" (by decide) rfl

/-- All points of an SLI metric are its own. -/
theorem sliPoints_own {key : Str} {conds : Dict SliCond} (hc : ∀ kc ∈ conds, '.' ∉ kc.1) (es : List (Option PyFloat × Num)) (ts : ℤ) :
    (sliPoints (c!"stats.SLI." ++ key) conds es ts).filter (ofSli key) = sliPoints (c!"stats.SLI." ++ key) conds es ts := by
  rw [List.filter_eq_self]
  intro d hd
  rw [ofSli_iff]
  simp only [sliPoints, List.mem_append, List.mem_map, List.mem_cons, List.not_mem_nil, or_false] at hd
  rcases hd with ⟨kv, hkv, rfl⟩ | rfl | rfl
  · refine ⟨c!"count_" ++ kv.1, ?_, by simp⟩
    simp only [List.mem_append, not_or]
    exact ⟨by decide, hc kv hkv⟩
  · exact ⟨c!"count", by decide, rfl⟩
  · exact ⟨c!"error", by decide, rfl⟩

/-- What is stored of an SLI metric and what was made of it. -/
def SliWatch (cfg : SliConfig) (key : Str) (s : MPState Factory PluginMetric) (ms : List Str) (l : List Datapoint) : Prop :=
  MPWf shippedOps s ∧ (s.plugins.find c!"sli" = some (.sli cfg) ∧
    ∀ t f, s.plugins.find t = some f → (t = c!"sli" ∧ f = .sli cfg) ∨ (t = c!"pd" ∧ f = .distinct)) ∧
  (∀ k pm, s.pluginMetrics.find k = some pm → Tame k pm) ∧
  (NoCounter c!"SLI." ms → NoDistinct key ms → (∀ k ∈ s.counters.keys, ¬ c!"SLI." <+: k) ∧
    ∃ (blocks : List (List (Option PyFloat × Num) × ℤ)) (last : List (Option PyFloat × Num)),
      sliEvents key ms = blocks.flatMap (·.1) ++ last ∧
      l.Perm (blocks.flatMap fun b => sliPoints (c!"stats.SLI." ++ key) (buildSli cfg c!"stats.SLI" key).conditions b.1 b.2) ∧
      ((s.pluginMetrics.find key = none ∧ blocks = [] ∧ last = []) ∨
       s.pluginMetrics.find key = some (.sli (sliState (c!"stats.SLI." ++ key) (buildSli cfg c!"stats.SLI" key).conditions last))))

theorem noDistinct_append {key : Str} {a b : List Str} (h : NoDistinct key (a ++ b)) : NoDistinct key a ∧ NoDistinct key b :=
  ⟨fun m hm => h m (by simp [hm]), fun m hm => h m (by simp [hm])⟩

theorem sliEvents_snoc (key : Str) (ms : List Str) (m : Str) : sliEvents key (ms ++ [m]) = sliEvents key ms ++ sliEvents key [m] := by
  simp [sliEvents]

theorem buildSli_state (cfg : SliConfig) (key : Str) :
    buildSli cfg c!"stats.SLI" key = sliState (c!"stats.SLI." ++ key) (buildSli cfg c!"stats.SLI" key).conditions [] := by
  rw [← init_eq]; rfl

theorem sli_watch (w : World) (cfg : SliConfig) (hl : DotlessLabels cfg) (key : Str)
    (hpc : ProperConditions (buildSli cfg c!"stats.SLI" key).conditions) :
    Watch (messageProcessor shippedOps) w (fun _ _ => True) (ofSli key) (SliWatch cfg key) where
  perm := by
    rintro s ms l l' hp ⟨h1, h2, h3, h4⟩
    refine ⟨h1, h2, h3, fun hn hd => ?_⟩
    obtain ⟨a1, b, la, a2, a3, a4⟩ := h4 hn hd
    exact ⟨a1, b, la, a2, hp.symm.trans a3, a4⟩
  same := by
    rintro s s' ms l hs ⟨h1, h2, h3, h4⟩
    refine ⟨mpwf_same hs h1, by rw [hs.plugins]; exact h2, by rw [hs.pluginMetrics]; exact h3, fun hn hd => ?_⟩
    rw [hs.counters, hs.pluginMetrics]
    exact h4 hn hd
  arrive := by
    rintro s ms l m ⟨h1, h2, h3, h4⟩
    have hpl := process_plugins shippedOps w s m
    refine ⟨mpwf_process shippedOps w h1 m, by rw [hpl]; exact h2, ?_, fun hn hd => ?_⟩
    · intro k pm hk
      cases hp : parseMessage m with
      | none => rw [process_unparsed shippedOps w s hp] at hk; exact h3 k pm hk
      | some x =>
        by_cases hkx : k = x.key
        · subst hkx
          cases hf : s.plugins.find x.mtype with
          | none => rw [process_plugin_none shippedOps w s hp hf] at hk; exact h3 _ pm hk
          | some f =>
            have hc := h2.2 _ _ hf
            have hmt : x.mtype ∉ [c!"c", c!"ms", c!"g", c!"m"] := by
              rcases hc with ⟨h, _⟩ | ⟨h, _⟩ <;> rw [h] <;> decide
            rw [process_plugin shippedOps w s hp hmt hf] at hk
            simp only [Option.some.injEq] at hk
            subst hk
            apply tame_process
            cases ho : s.pluginMetrics.find x.key with
            | some q => exact h3 _ q ho
            | none => exact tame_build w _ hl x.key (hc.elim (fun h => .inr h.2) (fun h => .inl h.2))
        · rw [process_pluginMetrics_ne shippedOps w s hp hkx] at hk; exact h3 k pm hk
    · obtain ⟨hn1, hn2⟩ := noCounter_append.1 hn
      obtain ⟨hd1, hd2⟩ := noDistinct_append hd
      obtain ⟨a1, b, la, a2, a3, a4⟩ := h4 hn1 hd1
      refine ⟨noCounter_keys shippedOps w a1 hn2, ?_⟩
      have skip : (process (messageProcessor shippedOps) w s m).1.pluginMetrics.find key = s.pluginMetrics.find key →
          sliEvents key [m] = [] → ∃ (blocks : List (List (Option PyFloat × Num) × ℤ)) (last : List (Option PyFloat × Num)),
      sliEvents key (ms ++ [m]) = blocks.flatMap (·.1) ++ last ∧
      l.Perm (blocks.flatMap fun b => sliPoints (c!"stats.SLI." ++ key) (buildSli cfg c!"stats.SLI" key).conditions b.1 b.2) ∧
      (((process (messageProcessor shippedOps) w s m).1.pluginMetrics.find key = none ∧ blocks = [] ∧ last = []) ∨
       (process (messageProcessor shippedOps) w s m).1.pluginMetrics.find key = some (.sli (sliState (c!"stats.SLI." ++ key) (buildSli cfg c!"stats.SLI" key).conditions last))) := by
        intro e1 e2
        rw [e1, sliEvents_snoc, e2, List.append_nil]
        exact ⟨b, la, a2, a3, a4⟩
      cases hp : parseMessage m with
      | none =>
        apply skip
        · rw [process_unparsed shippedOps w s hp]
        · simp [sliEvents, hp]
      | some x =>
        by_cases hk : x.key = key
        · by_cases ht : x.mtype = c!"sli"
          · have hpr := process_plugin shippedOps w s hp (by rw [ht]; decide) (by rw [ht]; exact h2.1)
            rw [hk] at hpr
            have hev : sliEvents key [m] = (sliEvent x.fields).toList := by simp [sliEvents, hp, hk, ht]
            have hst : (s.pluginMetrics.find key).getD (shippedOps.build w (s.ticks + 1) (.sli cfg) (c!"stats." ++ c!"SLI") key) =
                .sli (sliState (c!"stats.SLI." ++ key) (buildSli cfg c!"stats.SLI" key).conditions la) := by
              rcases a4 with ⟨e, _, e'⟩ | e
              · rw [e, e']
                exact congrArg PluginMetric.sli (buildSli_state cfg key)
              · rw [e]; rfl
            refine ⟨b, la ++ (sliEvent x.fields).toList, ?_, a3, .inr ?_⟩
            · rw [sliEvents_snoc, a2, hev, List.append_assoc]
            · rw [hpr]
              show some (shippedOps.process w (s.ticks + 1) (Option.getD _ (shippedOps.build w (s.ticks + 1) (.sli cfg) (c!"stats." ++ c!"SLI") key)) x.fields).1 = _
              rw [hst]
              exact congrArg (fun r => some (PluginMetric.sli r)) (process_state _ hpc la x.fields)
          · apply skip
            · cases hf : s.plugins.find x.mtype with
              | none => rw [process_plugin_none shippedOps w s hp hf]
              | some f =>
                rcases h2.2 _ _ hf with ⟨h, _⟩ | ⟨h, _⟩
                · exact absurd h ht
                · exact absurd h (hd2 m (by simp) x hp hk)
            · simp [sliEvents, hp, ht]
        · apply skip
          · exact process_pluginMetrics_ne shippedOps w s hp (Ne.symm hk)
          · simp [sliEvents, hp, hk]
  internal := by
    rintro d ⟨x, hx, _⟩
    cases ho : ofSli key d with
    | false => rfl
    | true =>
      obtain ⟨y, _, hn⟩ := ofSli_iff.1 ho
      rw [hx] at hn
      have := congrArg (List.take 6) hn
      simp [messageProcessor] at this
  visit := by
    intro s ms l k cursor ts interval percent hInv ho hcur r
    obtain ⟨h1, h2, h3, h4⟩ := hInv
    have hfr := visit_frame shippedOps w (Int.fdiv interval 1000) percent ts k h1 cursor
    by_cases hk : k < 4
    · refine ⟨hfr.wf, by rw [hfr.plugins]; exact h2, by rw [hfr.pluginMetrics hk]; exact h3, fun hn hd => ?_⟩
      obtain ⟨a1, b, la, a2, a3, a4⟩ := h4 hn hd
      refine ⟨by rw [hfr.keys0]; exact a1, ?_⟩
      rw [visit_not_sli shippedOps w _ percent ts hk h1 a1 cursor key, List.append_nil, hfr.pluginMetrics hk]
      exact ⟨b, la, a2, a3, a4⟩
    · obtain ⟨j, rfl⟩ : ∃ j, k = j + 4 := ⟨k - 4, by omega⟩
      have hr : r = pluginVisit (messageProcessor shippedOps) w (Int.fdiv interval 1000) ts s cursor := rfl
      have hcur' : cursor < s.pluginMetrics.length := hcur
      have hi : s.pluginMetrics[cursor]? = some (s.pluginMetrics[cursor]'hcur') := List.getElem?_eq_getElem hcur'
      rcases he : s.pluginMetrics[cursor]'hcur' with ⟨pk, pm⟩
      rw [he] at hi
      have hfind := Dict.find_of_mem h1.shared.pluginMetrics (List.mem_of_getElem? hi)
      have hr1 : r.1 = { s with ticks := s.ticks + (shippedOps.flush w s.ticks pm (Int.fdiv interval 1000) ts).2.1,
                                pluginMetrics := s.pluginMetrics.put pk (shippedOps.flush w s.ticks pm (Int.fdiv interval 1000) ts).1 } := by
        rw [hr]; simp only [pluginVisit, hi]; rfl
      have hr2 : r.2 = (shippedOps.flush w s.ticks pm (Int.fdiv interval 1000) ts).2.2.map some := by
        rw [hr]; simp only [pluginVisit, hi]; rfl
      have htame := h3 pk pm hfind
      have hpm : r.1.pluginMetrics = s.pluginMetrics.put pk (shippedOps.flush w s.ticks pm (Int.fdiv interval 1000) ts).1 := by rw [hr1]
      refine ⟨hfr.wf, by rw [hfr.plugins]; exact h2, ?_, fun hn hd => ?_⟩
      · intro k' pm' hk'
        rw [hpm] at hk'
        by_cases e : k' = pk
        · subst e
          rw [Dict.find_put_self] at hk'
          simp only [Option.some.injEq] at hk'
          subst hk'
          exact tame_flush w _ htame _ _
        · rw [Dict.find_put_ne _ _ e] at hk'
          exact h3 _ _ hk'
      · obtain ⟨a1, b, la, a2, a3, a4⟩ := h4 hn hd
        refine ⟨by rw [hfr.keys0]; exact a1, ?_⟩
        by_cases e : pk = key
        · subst e
          rcases a4 with ⟨e, _⟩ | e
          · rw [hfind] at e; cases e
          · rw [hfind] at e
            simp only [Option.some.injEq] at e
            subst e
            have hfl := flush_state (c!"stats.SLI." ++ pk) (conds := (buildSli cfg c!"stats.SLI" pk).conditions) la ts
            have hv : visited r.2 = sliPoints (c!"stats.SLI." ++ pk) (buildSli cfg c!"stats.SLI" pk).conditions la ts := by
              rw [hr2]
              show visited (.ok (some (SliReporter.flush _ ts).2)) = _
              rw [hfl]; rfl
            refine ⟨b ++ [(la, ts)], [], by simp [a2], ?_, .inr ?_⟩
            · rw [hv, sliPoints_own (conds := (buildSli cfg c!"stats.SLI" pk).conditions) (gather_labels _ cfg hl [] (by simp))]
              rw [List.flatMap_append]
              simpa using a3.append_right _
            · rw [hpm, Dict.find_put_self]
              show some (PluginMetric.sli (SliReporter.flush _ ts).1) = _
              rw [hfl]
        · have hv : (visited r.2).filter (ofSli key) = [] := by
            rw [List.filter_eq_nil_iff]
            intro d hd' ho
            rw [hr2] at hd'
            cases hfl : (shippedOps.flush w s.ticks pm (Int.fdiv interval 1000) ts).2.2 with
            | error x => rw [hfl] at hd'; simp [Except.map, visited] at hd'
            | ok ds =>
              rw [hfl] at hd'
              simp only [Except.map, visited, Option.getD_some] at hd'
              exact e (tame_points w _ htame _ _ hfl key d hd' ho).1
          rw [hv, List.append_nil, hpm, Dict.find_put_ne _ _ (Ne.symm e)]
          exact ⟨b, la, a2, a3, a4⟩

end
end Txstatsd
