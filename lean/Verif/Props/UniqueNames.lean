import Verif.Lemmas.UniqueFlush
import Verif.Props.PluginLife
import Verif.Props.Configurable
import Verif.Props.Gauges
import Verif.Props.Distinct

set_option linter.unusedSectionVars false
set_option linter.unusedVariables false

/-!
# C173: no two datapoints of one flush have the same name
-/

namespace Txstatsd
open Spec
section
variable [Rounding] {PF PM : Type}

/-- C173: whatever was received, if no plugin was used, no name was read as a gauge twice and no counter is called `timers.…`, `gauge.…` or
`meter.…`, then no two datapoints of a flush that completes have the same name. -/
theorem C173_default_partial (ops : PluginOps PF PM) (plugins : List PF) (w : World) (os : List Op) (interval percent : ℤ)
    (hp : NoPluginUse ops plugins (messages os)) (hg : OneReading (messages os))
    (ht : NoCounter c!"timers." (messages os)) (hgc : NoCounter c!"gauge." (messages os)) (hm : NoCounter c!"meter." (messages os)) :
    let r := flush (messageProcessor ops) w interval percent (runOps (messageProcessor ops) w (MPState.init ops plugins) os).1
    r.2.2 = none → UniqueNames r.2.1 := by
  intro r hok
  have hwf := mpwf_runOps ops w (mpwf_init ops plugins) os
  have hpm := unused_plugins ops plugins w os hp
  have hgs := gauges_once ops plugins w os hg
  have hck : ∀ pre, NoCounter pre (messages os) →
      ∀ k ∈ (runOps (messageProcessor ops) w (MPState.init ops plugins) os).1.counters.keys, ¬ pre <+: k := by
    intro pre hn k hk
    obtain ⟨m, hm, o, ho⟩ := history_counter_keys ops plugins w os k hk
    obtain ⟨fs, hp⟩ := counterEffect_counts ho
    exact hn m hm k fs hp
  have h1 := hck _ ht
  have h2 := hck _ hgc
  have h3 := hck _ hm
  refine default_unique ops w interval percent hwf hgs h1 h2 h3 (fun _ _ => True) (fun _ _ _ _ => trivial) (fun _ _ => trivial)
    (fun _ => False) ?_ (fun _ h => h.elim) hok
  intro gs h
  rw [hpm] at h
  cases h
  simp

/-- C173: the configurable processor. Whatever was received, if no plugin was used, no name is used for two of counters, timers and meters, and
no name of a metric begins like those of the processor's own statistics, then no two datapoints of a flush that completes have the same
name. (Gauges may be read any number of times.) -/
theorem C173_configurable_partial (ops : PluginOps PF PM) (pre int : Str) (plugins : List PF) (w : World) (os : List Op)
    (interval percent : ℤ) (hp : NoPluginUse ops plugins (messages os)) (hk : OneKind (messages os)) :
    let self := if int = [] then (if pre = [] then c!"statsd." else pre ++ c!".statsd.") else int
    let r := flush (configurable ops pre int) w interval percent (runOps (configurable ops pre int) w (CPState.init ops plugins) os).1
    (∀ t k suffix, Received t k (messages os) → (t, suffix) ∈ suffixes → ¬ self <+: prefixed pre k suffix) →
    r.2.2 = none → UniqueNames r.2.1 := by
  intro self r hown hok
  have hself : internalPrefixOf pre int = self := by
    unfold internalPrefixOf
    simp only [self]
    cases int <;> cases pre <;> simp
  have hwf := cpwf_runOps ops pre int w (cpwf_init ops pre plugins) os
  have hst := storedC ops pre int plugins w os
  have hpm := (unused_pluginsC ops pre int plugins w os hp).1
  simp only [r] at hok ⊢
  clear r
  generalize (runOps (configurable ops pre int) w (CPState.init ops plugins) os).1 = s at *
  have hrg : ∀ k ∈ s.gauges.keys, Received c!"g" k (messages os) := by
    intro k hk
    rw [← Dict.find_isSome_iff] at hk
    rcases hst.gauges k with ⟨h1, h2⟩ | ⟨v, h1, h2⟩
    · rw [h1] at hk; cases hk
    · exact latest_received h1
  have hrc : ∀ k ∈ s.counters.keys, Received c!"c" k (messages os) := by
    intro k hk
    rw [← Dict.find_isSome_iff] at hk
    rcases hst.counters k with ⟨h1, h2⟩ | ⟨v, h1, h2⟩
    · rw [h1] at hk; cases hk
    · exact latest_received h1
  refine configurable_unique ops pre int self hself w interval percent hwf (fun t k => Received t k (messages os)) hrg hrc
    (fun k hk => (hst.timers k).1 hk) (fun k hk => (hst.meters k).1 hk) hk hown (fun _ _ => True) (fun _ _ _ _ => trivial) (fun _ _ => trivial)
    (fun _ => False) ?_ (fun _ h => h.elim) hok
  intro gs h
  rw [hpm] at h
  cases h
  simp

end

section
variable [Rounding] [Power]

theorem shipped_kinds {cfg : SliConfig} {t : Str} {f : Factory}
    (h : (CPState.init shippedOps [.distinct, .sli cfg]).plugins.find t = some f) : t ∈ [c!"sli", c!"pd"] := by
  have e : (CPState.init shippedOps [.distinct, .sli cfg]).plugins = [(c!"pd", .distinct), (c!"sli", .sli cfg)] := rfl
  rw [e] at h
  simp only [Dict.find] at h
  split_ifs at h with h1 h2
  · simp [h1]
  · simp [h2]

/-- C173: the default processor with the two plugins that come with it, used in any way. If no name was read as a gauge twice, no counter is
called `timers.…`, `gauge.…`, `meter.…`, `SLI.…` or `pdistinct.…`, and no label of the SLI plugin contains a dot, then no two datapoints
of a flush that completes have the same name. -/
theorem C173_shipped_partial (cfg : SliConfig) (hl : DotlessLabels cfg) (w : World) (os : List Op) (interval percent : ℤ)
    (hg : OneReading (messages os))
    (hc : ∀ word ∈ [c!"timers.", c!"gauge.", c!"meter.", c!"SLI.", c!"pdistinct."], NoCounter word (messages os)) :
    let r := flush (messageProcessor shippedOps) w interval percent
      (runOps (messageProcessor shippedOps) w (MPState.init shippedOps [.distinct, .sli cfg]) os).1
    r.2.2 = none → UniqueNames r.2.1 := by
  intro r hok
  have hwf := mpwf_runOps shippedOps w (mpwf_init shippedOps [.distinct, .sli cfg]) os
  have hgs := gauges_once shippedOps [.distinct, .sli cfg] w os hg
  have hck : ∀ pre, NoCounter pre (messages os) →
      ∀ k ∈ (runOps (messageProcessor shippedOps) w (MPState.init shippedOps [.distinct, .sli cfg]) os).1.counters.keys, ¬ pre <+: k := by
    intro pre hn k hk
    obtain ⟨m, hm, o, ho⟩ := history_counter_keys shippedOps [.distinct, .sli cfg] w os k hk
    obtain ⟨fs, hp⟩ := counterEffect_counts ho
    exact hn m hm k fs hp
  have hkp := kept_plugins shippedOps [.distinct, .sli cfg] w (fun k m => Came shippedOps statsPrefix k m ∧ TidyMetric m) os
    (fun msg _ k t fs f n _ hf => ⟨.built _ _ _, tidy_built w n (fun c e => shipped_dotless hl t c (e ▸ hf)) _ _⟩)
    (fun k m n fs h => ⟨.processed _ _ _ h.1, tidy_process m w n fs h.2⟩)
    (fun k m n secs ts h => ⟨.flushed _ _ _ _ h.1, tidy_flush m w n secs ts h.2⟩)
  have c4 := hck _ (hc c!"SLI." (by simp))
  have c5 := hck _ (hc c!"pdistinct." (by simp))
  refine default_unique shippedOps w interval percent hwf hgs (hck _ (hc _ (by simp))) (hck _ (hc _ (by simp))) (hck _ (hc _ (by simp)))
    (fun k m => Came shippedOps statsPrefix k m ∧ TidyMetric m) (fun k m n h => ⟨.flushed _ _ _ _ h.1, tidy_flush m w n _ _ h.2⟩) hkp
    (fun n => c!"stats.SLI." <+: n ∨ c!"stats.pdistinct." <+: n) ?_ ?_ hok
  · intro gs h
    have hR : ∀ k k' n, (∃ y, '.' ∉ y ∧ (n = c!"stats.SLI." ++ k ++ '.' :: y ∨ n = c!"stats.pdistinct." ++ k ++ '.' :: y)) →
        (∃ y, '.' ∉ y ∧ (n = c!"stats.SLI." ++ k' ++ '.' :: y ∨ n = c!"stats.pdistinct." ++ k' ++ '.' :: y)) → k = k' := by
      rintro k k' n ⟨y, hy, rfl | rfl⟩ ⟨y', hy', e | e⟩
      · exact List.append_cancel_left (last_dot hy hy' e).1
      · simp at e
      · simp at e
      · exact List.append_cancel_left (last_dot hy hy' e).1
    obtain ⟨g1, g2⟩ := groups_unique h hwf.shared.pluginMetrics _ hR (by
      rintro k m n gr ⟨hcm, ht⟩ hgr
      obtain ⟨t1, t2⟩ := tidy_names ht hgr
      refine ⟨t1, ?_⟩
      intro x hx
      obtain ⟨y, hy, _, e⟩ := t2 x hx
      have hn := shipped_came hcm
      refine ⟨y, hy, ?_⟩
      cases m with
      | sli r => exact .inl (by rw [e]; simp only at hn ⊢; rw [hn]; rfl)
      | distinct r => exact .inr (by rw [e]; simp only at hn ⊢; rw [hn]; simp [prefixed, statsPrefix]))
    refine ⟨g1, ?_⟩
    intro n hn
    obtain ⟨x, hx, rfl⟩ := List.mem_map.1 hn
    obtain ⟨k, _, y, _, e | e⟩ := g2 x hx
    · exact .inl (by rw [e, List.append_assoc]; exact List.prefix_append _ _)
    · exact .inr (by rw [e, List.append_assoc]; exact List.prefix_append _ _)
  · intro n hn
    have ne : ∀ {a b : Str}, (¬ a <+: b ∧ ¬ b <+: a) → b <+: n → ¬ a <+: n := by
      intro a b h hb ha
      rcases List.prefix_or_prefix_of_prefix ha hb with e | e
      · exact h.1 e
      · exact h.2 e
    rcases hn with hn | hn
    · refine ⟨ne (by decide) hn, ne (by decide) hn, ne (by decide) hn, ne (by decide) hn, ?_⟩
      intro k hk
      constructor
      · rintro rfl
        exact c4 k hk ((List.prefix_append_right_inj c!"stats.").1 hn)
      · rintro rfl
        exact ne (a := c!"stats_counts.") (by decide) hn (List.prefix_append _ _)
    · refine ⟨ne (by decide) hn, ne (by decide) hn, ne (by decide) hn, ne (by decide) hn, ?_⟩
      intro k hk
      constructor
      · rintro rfl
        exact c5 k hk ((List.prefix_append_right_inj c!"stats.").1 hn)
      · rintro rfl
        exact ne (a := c!"stats_counts.") (by decide) hn (List.prefix_append _ _)

/-- C173: the configurable processor with the two plugins that come with it. If no name is used for two of counters, timers, meters and
plugins, no name begins like those of the processor's own statistics, the prefix does not end in a dot and no label of the SLI plugin
contains a dot, then no two datapoints of a flush that completes have the same name. -/
theorem C173_shippedC_partial (cfg : SliConfig) (hl : DotlessLabels cfg) (pre int : Str) (hpre : pre.getLast? ≠ some '.') (w : World)
    (os : List Op) (interval percent : ℤ) (hk : OneKind (messages os)) (hpk : PluginsApart (messages os)) :
    let self := if int = [] then (if pre = [] then c!"statsd." else pre ++ c!".statsd.") else int
    let r := flush (configurable shippedOps pre int) w interval percent
      (runOps (configurable shippedOps pre int) w (CPState.init shippedOps [.distinct, .sli cfg]) os).1
    (∀ t k suffix, Received t k (messages os) → (t, suffix) ∈ suffixes → ¬ self <+: prefixed pre k suffix) →
    (∀ k y, ForPlugin k (messages os) → '.' ∉ y → ¬ self <+: prefixed pre k ('.' :: y)) →
    r.2.2 = none → UniqueNames r.2.1 := by
  intro self r hown hownp hok
  have hself : internalPrefixOf pre int = self := by
    unfold internalPrefixOf
    simp only [self]
    cases int <;> cases pre <;> simp
  have hwf := cpwf_runOps shippedOps pre int w (cpwf_init shippedOps pre [.distinct, .sli cfg]) os
  have hst := storedC shippedOps pre int [.distinct, .sli cfg] w os
  have hkp := (kept_pluginsC shippedOps pre int [.distinct, .sli cfg] w
    (fun k m => Came shippedOps (fun _ => pre) k m ∧ TidyMetric m ∧ ForPlugin k (messages os)) os
    (fun msg hm k t fs f n hp hf => ⟨.built (pre := fun _ => pre) w n f, tidy_built w n (fun c e => shipped_dotless hl t c (e ▸ hf)) _ _,
      msg, hm, t, fs, hp, shipped_kinds hf⟩)
    (fun k m n fs h => ⟨.processed _ _ _ h.1, tidy_process m w n fs h.2.1, h.2.2⟩)
    (fun k m n secs ts h => ⟨.flushed _ _ _ _ h.1, tidy_flush m w n secs ts h.2.1, h.2.2⟩)).1
  simp only [r] at hok ⊢
  clear r
  generalize (runOps (configurable shippedOps pre int) w (CPState.init shippedOps [.distinct, .sli cfg]) os).1 = s at *
  have hrg : ∀ k ∈ s.gauges.keys, Received c!"g" k (messages os) := by
    intro k hk
    rw [← Dict.find_isSome_iff] at hk
    rcases hst.gauges k with ⟨h1, h2⟩ | ⟨v, h1, h2⟩
    · rw [h1] at hk; cases hk
    · exact latest_received h1
  have hrc : ∀ k ∈ s.counters.keys, Received c!"c" k (messages os) := by
    intro k hk
    rw [← Dict.find_isSome_iff] at hk
    rcases hst.counters k with ⟨h1, h2⟩ | ⟨v, h1, h2⟩
    · rw [h1] at hk; cases hk
    · exact latest_received h1
  refine configurable_unique shippedOps pre int self hself w interval percent hwf (fun t k => Received t k (messages os)) hrg hrc
    (fun k hk => (hst.timers k).1 hk) (fun k hk => (hst.meters k).1 hk) hk hown
    (fun k m => Came shippedOps (fun _ => pre) k m ∧ TidyMetric m ∧ ForPlugin k (messages os))
    (fun k m n h => ⟨.flushed _ _ _ _ h.1, tidy_flush m w n _ _ h.2.1, h.2.2⟩) hkp
    (fun n => ∃ k y, ForPlugin k (messages os) ∧ '.' ∉ y ∧ y ≠ c!"value" ∧ n = prefixed pre k ('.' :: y)) ?_ ?_ hok
  · intro gs h
    have hR : ∀ k k' n, (∃ y, ForPlugin k (messages os) ∧ '.' ∉ y ∧ y ≠ c!"value" ∧ n = prefixed pre k ('.' :: y)) →
        (∃ y, ForPlugin k' (messages os) ∧ '.' ∉ y ∧ y ≠ c!"value" ∧ n = prefixed pre k' ('.' :: y)) → k = k' := by
      rintro k k' n ⟨y, _, hy, _, rfl⟩ ⟨y', _, hy', _, e⟩
      unfold prefixed at e
      exact List.append_cancel_left (last_dot hy hy' e).1
    obtain ⟨g1, g2⟩ := groups_unique h hwf.shared.pluginMetrics _ hR (by
      rintro k m n gr ⟨hcm, ht, hf⟩ hgr
      obtain ⟨t1, t2⟩ := tidy_names ht hgr
      refine ⟨t1, ?_⟩
      intro x hx
      obtain ⟨y, hy, hv, e⟩ := t2 x hx
      have hn := shipped_came hcm
      refine ⟨y, hf, hy, hv, ?_⟩
      cases m with
      | sli r => rw [e]; simp only at hn ⊢; rw [hn, sliPath_eq hpre]; simp [prefixed]
      | distinct r => rw [e]; simp only at hn ⊢; rw [hn]; simp [prefixed])
    refine ⟨g1, ?_⟩
    intro n hn
    obtain ⟨x, hx, rfl⟩ := List.mem_map.1 hn
    obtain ⟨k, _, y, h⟩ := g2 x hx
    exact ⟨k, y, h⟩
  · rintro n ⟨k, y, hf, hy, hv, rfl⟩
    refine ⟨hownp k y hf hy, ?_⟩
    intro t k' sfx hr hs e
    obtain ⟨z, hz, rfl⟩ := suffix_shape hs
    unfold prefixed at e
    obtain ⟨e1, e2⟩ := last_dot hy hz e
    have e1 := List.append_cancel_left e1
    subst e1; subst e2
    have ht : t ≠ c!"g" := by
      rintro rfl
      have : ∀ p ∈ suffixes, p.1 = c!"g" → p.2 = c!".value" := by decide
      have := this _ hs rfl
      simp only [List.cons.injEq, true_and] at this
      exact hv this
    obtain ⟨p1, p2, p3⟩ := hpk k hf
    have : ∀ p ∈ suffixes, p.1 = c!"c" ∨ p.1 = c!"g" ∨ p.1 = c!"ms" ∨ p.1 = c!"m" := by decide
    rcases this _ hs with rfl | rfl | rfl | rfl
    · exact p1 hr
    · exact ht rfl
    · exact p2 hr
    · exact p3 hr

end

section
attribute [local instance] ratRounding

/-- C173: in general names are repeated: a gauge that was read twice is reported twice; and a counter may be called like a statistic of a
gauge or a meter. -/
theorem C173_default_refuted : ∀ os ∈ ([[.msg c!"a:1|g", .msg c!"a:2|g"], [.msg c!"gauge.a.value:1|c", .msg c!"a:2|g"],
      [.msg c!"meter.a.count:1|c", .msg c!"a:2|m"]] : List (List Op)),
    ¬ ∀ (w : World) (interval percent : ℤ),
      let r := flush (messageProcessor noPlugins) w interval percent (runOps (messageProcessor noPlugins) w (MPState.init noPlugins []) os).1
      r.2.2 = none → UniqueNames r.2.1 := by
  intro os hos h
  have h := h exWorld 10000 90
  simp only [List.mem_cons, List.not_mem_nil, or_false] at hos
  rcases hos with rfl | rfl | rfl
  · exact absurd (h (by decide +kernel)) (by unfold UniqueNames; decide +kernel)
  · exact absurd (h (by decide +kernel)) (by unfold UniqueNames; decide +kernel)
  · exact absurd (h (by decide +kernel)) (by unfold UniqueNames; decide +kernel)

/-- C173: the configurable processor reports a counter and a meter of one name under one name, and its own statistics under the name of a
metric. -/
theorem C173_configurable_refuted : ∀ os ∈ ([[.msg c!"a:1|c", .msg c!"a:2|m"], [.msg c!"host.flush.counter:1|c"]] : List (List Op)),
    ¬ ∀ (w : World) (interval percent : ℤ),
      let r := flush (configurable noPlugins c!"p" c!"p.host.") w interval percent
        (runOps (configurable noPlugins c!"p" c!"p.host.") w (CPState.init noPlugins []) os).1
      r.2.2 = none → UniqueNames r.2.1 := by
  intro os hos h
  have h := h exWorld 10000 90
  simp only [List.mem_cons, List.not_mem_nil, or_false] at hos
  rcases hos with rfl | rfl
  · exact absurd (h (by decide +kernel)) (by unfold UniqueNames; decide +kernel)
  · exact absurd (h (by decide +kernel)) (by unfold UniqueNames; decide +kernel)

theorem collect_le {α : Type} {P : Str → α → Prop} {msgs : List Str} {vs : List α} (q : Str → Bool) (hq : ∀ m v, P m v → q m = true)
    (h : Collect P msgs vs) : vs.length ≤ msgs.countP q := by
  induction h with
  | nil => exact le_refl _
  | hit hv _ ih => rw [List.countP_cons_of_pos (hq _ _ hv)]; simpa using ih
  | skip _ _ ih => exact le_trans ih (by rw [List.countP_cons]; exact Nat.le_add_right _ _)

/-- The hypotheses of `C173_default_partial` are met by a history with a flush in it, and something is sent. -/
example :
    let os : List Op := [.msg c!"a:1|c", .msg c!"a:3|g", .flush 10000 90, .msg c!"a:4|m", .msg c!"b:4|c", .msg c!"b:7|g", .msg c!"a:1|c"]
    NoPluginUse noPlugins [] (messages os) ∧ OneReading (messages os) ∧ NoCounter c!"timers." (messages os) ∧
    NoCounter c!"gauge." (messages os) ∧ NoCounter c!"meter." (messages os) ∧
    let r := flush (messageProcessor noPlugins) exWorld 10000 90 (runOps (messageProcessor noPlugins) exWorld (MPState.init noPlugins []) os).1
    r.2.2 = none ∧ 21 < r.2.1.length := by
  intro os
  have nc : ∀ pre : Str, ((messages os).all fun m => match parseMessage m with | some x => !(pre.isPrefixOf x.key) | none => true) = true →
      NoCounter pre (messages os) := by
    intro pre h m hm k fs hp
    have := List.all_eq_true.1 h m hm
    rw [parsed_iff.1 hp] at this
    simp only [Bool.not_eq_true'] at this
    intro hx
    rw [List.isPrefixOf_iff_prefix.2 hx] at this
    cases this
  refine ⟨fun _ _ _ _ _ _ p hp => (by cases hp), ?_, nc _ (by decide +kernel), nc _ (by decide +kernel), nc _ (by decide +kernel),
    by decide +kernel, by decide +kernel⟩
  intro key vs h
  have h1 := collect_le (fun m => decide ((parseMessage m).map (fun x => (x.mtype, x.key)) = some (c!"g", key))) (by
    rintro m v ⟨f0, rest, h1, -⟩
    rw [parsed_iff.1 h1]
    simp) h
  refine le_trans h1 ?_
  by_cases ha : key = c!"a"
  · subst ha; decide +kernel
  · by_cases hb : key = c!"b"
    · subst hb; decide +kernel
    · refine le_trans (le_of_eq (List.countP_eq_zero.2 ?_)) (Nat.zero_le _)
      intro m hm hd
      have hd := of_decide_eq_true hd
      have h2 : ∀ m ∈ messages os, ((parseMessage m).map fun x => (x.mtype, x.key)) ∈
          [some (c!"c", c!"a"), some (c!"g", c!"a"), some (c!"m", c!"a"), some (c!"c", c!"b"), some (c!"g", c!"b")] := by
        decide +kernel
      have h3 := h2 m hm
      rw [hd] at h3
      simp at h3
      exact h3.elim ha hb

/-- The hypotheses of `C173_configurable_partial` are met, with a gauge read twice, and something is sent. -/
example :
    let os : List Op := [.msg c!"a:1|c", .msg c!"a:3|g", .flush 10000 90, .msg c!"b:4|m", .msg c!"a:7|g"]
    NoPluginUse noPlugins [] (messages os) ∧ OneKind (messages os) ∧
    (∀ t k suffix, Received t k (messages os) → (t, suffix) ∈ suffixes → ¬ c!"p.host." <+: prefixed c!"p" k suffix) ∧
    let r := flush (configurable noPlugins c!"p" c!"p.host.") exWorld 10000 90
      (runOps (configurable noPlugins c!"p" c!"p.host.") exWorld (CPState.init noPlugins []) os).1
    r.2.2 = none ∧ 18 < r.2.1.length := by
  intro os
  have kinds : ∀ t k, Received t k (messages os) → (t, k) ∈ [(c!"c", c!"a"), (c!"g", c!"a"), (c!"m", c!"b")] := by
    rintro t k ⟨m, hm, v, f0, rest, hp, -⟩
    have h2 : ∀ m ∈ messages os, ((parseMessage m).map fun x => (x.mtype, x.key)) ∈
        [some (c!"c", c!"a"), some (c!"g", c!"a"), some (c!"m", c!"b")] := by
      decide +kernel
    have h3 := h2 m hm
    rw [parsed_iff.1 hp] at h3
    simpa using h3
  refine ⟨fun _ _ _ _ _ _ p hp => (by cases hp), ?_, ?_, by decide +kernel, by decide +kernel⟩
  · intro k
    refine ⟨?_, ?_, ?_⟩
    · rintro ⟨-, h⟩; have := kinds _ _ h; simp at this
    · rintro ⟨h, h'⟩
      have := kinds _ _ h; have h2 := kinds _ _ h'
      simp at this h2
      rw [this] at h2; simp at h2
    · rintro ⟨h, -⟩; have := kinds _ _ h; simp at this
  · intro t k sfx h hs
    have hk := kinds _ _ h
    have : ∀ q ∈ suffixes, ∀ k ∈ [c!"a", c!"b"], ¬ c!"p.host." <+: prefixed c!"p" k q.2 := by decide +kernel
    refine this _ hs k ?_
    simp only [List.mem_cons, Prod.mk.injEq, List.not_mem_nil, or_false] at hk ⊢
    rcases hk with ⟨-, e⟩ | ⟨-, e⟩ | ⟨-, e⟩
    · exact Or.inl e
    · exact Or.inl e
    · exact Or.inr e

end

section
attribute [local instance] ratRounding exPower

/-- A configuration whose label contains a dot. -/
def exDotted : SliConfig := [(c!"*", [(c!"x.count", .below (.fin 100) (.fin 0))])]

/-- C173: with the plugins, names are repeated if a counter is called like a metric of theirs, or if labels contain dots. -/
theorem C173_shipped_refuted : ∀ q ∈ ([([.msg c!"SLI.a.count:1|c", .msg c!"a:1|sli"], exSliCfg),
      ([.msg c!"a:1|sli", .msg c!"a.count_x:1|sli"], exDotted)] : List (List Op × SliConfig)),
    ¬ ∀ (w : World) (interval percent : ℤ),
      let r := flush (messageProcessor shippedOps) w interval percent
        (runOps (messageProcessor shippedOps) w (MPState.init shippedOps [.distinct, .sli q.2]) q.1).1
      r.2.2 = none → UniqueNames r.2.1 := by
  intro q hq h
  have h := h exWorld 10000 90
  simp only [List.mem_cons, List.not_mem_nil, or_false] at hq
  rcases hq with rfl | rfl
  · exact absurd (h (by decide +kernel)) (by unfold UniqueNames; decide +kernel)
  · exact absurd (h (by decide +kernel)) (by unfold UniqueNames; decide +kernel)

/-- C173: of the configurable processor also if a name is used for a counter and a plugin, or if the prefix ends in a dot. -/
theorem C173_shippedC_refuted : ∀ q ∈ ([([.msg c!"a:1|c", .msg c!"a:1|sli"], c!"p"), ([.msg c!"a:1|c", .msg c!".a:1|sli"], c!"p.")] :
      List (List Op × Str)),
    ¬ ∀ (w : World) (interval percent : ℤ),
      let r := flush (configurable shippedOps q.2 c!"own.") w interval percent
        (runOps (configurable shippedOps q.2 c!"own.") w (CPState.init shippedOps [.distinct, .sli exSliCfg]) q.1).1
      r.2.2 = none → UniqueNames r.2.1 := by
  intro q hq h
  have h := h exWorld 10000 90
  simp only [List.mem_cons, List.not_mem_nil, or_false] at hq
  rcases hq with rfl | rfl
  · exact absurd (h (by decide +kernel)) (by unfold UniqueNames; decide +kernel)
  · exact absurd (h (by decide +kernel)) (by unfold UniqueNames; decide +kernel)

/-- The hypotheses of `C173_shipped_partial` are met by a history in which both plugins are used, and something is sent. -/
example :
    let os : List Op := [.msg c!"a:1|c", .msg c!"a:3|g", .flush 10000 90, .msg c!"a:4|sli", .msg c!"b:x|pd", .msg c!"b:4|sli"]
    DotlessLabels exSliCfg ∧ OneReading (messages os) ∧
    (∀ word ∈ [c!"timers.", c!"gauge.", c!"meter.", c!"SLI.", c!"pdistinct."], NoCounter word (messages os)) ∧
    let r := flush (messageProcessor shippedOps) exWorld 10000 90
      (runOps (messageProcessor shippedOps) exWorld (MPState.init shippedOps [.distinct, .sli exSliCfg]) os).1
    r.2.2 = none ∧ 20 < r.2.1.length := by
  intro os
  refine ⟨exSliCfg_dotless, ?_, ?_, by decide +kernel, by decide +kernel⟩
  · intro key vs h
    have h1 := collect_le (fun m => decide ((parseMessage m).map (fun x => x.mtype) = some c!"g")) (by
      rintro m v ⟨f0, rest, h1, -⟩
      rw [parsed_iff.1 h1]
      simp) h
    exact le_trans h1 (by decide +kernel)
  · intro word hw m hm k fs hp hx
    have : ∀ word ∈ [c!"timers.", c!"gauge.", c!"meter.", c!"SLI.", c!"pdistinct."], ∀ m ∈ messages os,
        ((parseMessage m).map fun x => word.isPrefixOf x.key) ≠ some true := by decide +kernel
    refine this word hw m hm ?_
    rw [parsed_iff.1 hp]
    exact congrArg some (List.isPrefixOf_iff_prefix.2 hx)

/-- The hypotheses of `C173_shippedC_partial` are met, with a gauge called like a plugin's metric, and something is sent. -/
example :
    let os : List Op := [.msg c!"a:1|c", .msg c!"b:3|g", .flush 10000 90, .msg c!"b:x|pd", .msg c!"b:4|sli", .msg c!"d:4|sli"]
    DotlessLabels exSliCfg ∧ c!"p".getLast? ≠ some '.' ∧ OneKind (messages os) ∧ PluginsApart (messages os) ∧
    (∀ t k suffix, Received t k (messages os) → (t, suffix) ∈ suffixes → ¬ c!"p.host." <+: prefixed c!"p" k suffix) ∧
    (∀ k y, ForPlugin k (messages os) → '.' ∉ y → ¬ c!"p.host." <+: prefixed c!"p" k ('.' :: y)) ∧
    let r := flush (configurable shippedOps c!"p" c!"p.host.") exWorld 10000 90
      (runOps (configurable shippedOps c!"p" c!"p.host.") exWorld (CPState.init shippedOps [.distinct, .sli exSliCfg]) os).1
    r.2.2 = none ∧ 20 < r.2.1.length := by
  intro os
  have h2 : ∀ m ∈ messages os, ((parseMessage m).map fun x => (x.mtype, x.key)) ∈
      [some (c!"c", c!"a"), some (c!"g", c!"b"), some (c!"pd", c!"b"), some (c!"sli", c!"b"), some (c!"sli", c!"d")] := by
    decide +kernel
  have kinds : ∀ t k, Received t k (messages os) →
      (t, k) ∈ [(c!"c", c!"a"), (c!"g", c!"b"), (c!"pd", c!"b"), (c!"sli", c!"b"), (c!"sli", c!"d")] := by
    rintro t k ⟨m, hm, v, f0, rest, hp, -⟩
    have h3 := h2 m hm
    rw [parsed_iff.1 hp] at h3
    simpa using h3
  have plugs : ∀ k, ForPlugin k (messages os) → k ∈ [c!"b", c!"d"] := by
    rintro k ⟨m, hm, t, fs, hp, ht⟩
    have h3 := h2 m hm
    rw [parsed_iff.1 hp] at h3
    simp at h3 ht
    rcases ht with rfl | rfl <;> simp at h3 <;> simp [h3]
  refine ⟨exSliCfg_dotless, by decide, ?_, ?_, ?_, ?_, by decide +kernel, by decide +kernel⟩
  · intro k
    refine ⟨?_, ?_, ?_⟩
    · rintro ⟨-, h⟩; have := kinds _ _ h; simp at this
    · rintro ⟨-, h⟩; have := kinds _ _ h; simp at this
    · rintro ⟨h, -⟩; have := kinds _ _ h; simp at this
  · intro k hf
    have hk := plugs k hf
    refine ⟨?_, ?_, ?_⟩
    · intro h
      have := kinds _ _ h
      simp at this hk
      subst this
      simp at hk
    · intro h; have := kinds _ _ h; simp at this
    · intro h; have := kinds _ _ h; simp at this
  · intro t k sfx h hs
    have hk := kinds _ _ h
    have : ∀ q ∈ suffixes, ∀ k ∈ [c!"a", c!"b", c!"d"], ¬ c!"p.host." <+: prefixed c!"p" k q.2 := by decide +kernel
    refine this _ hs k ?_
    simp only [List.mem_cons, Prod.mk.injEq, List.not_mem_nil, or_false] at hk ⊢
    tauto
  · intro k y hf _ hx
    have hk := plugs k hf
    simp only [List.mem_cons, List.not_mem_nil, or_false] at hk
    obtain ⟨z, hz⟩ := hx
    rcases hk with rfl | rfl <;> simp [prefixed] at hz

end
end Txstatsd
