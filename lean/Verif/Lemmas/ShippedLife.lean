import Verif.Lemmas.PluginLife
import Verif.Lemmas.DistinctFlow
import Verif.Lemmas.WatchTimerC
import Verif.Spec.History

set_option linter.unusedSectionVars false
set_option linter.unusedSimpArgs false
set_option linter.unusedVariables false

/-!
# The shipped plugins under any prefix
-/

namespace Txstatsd
open Spec
section
variable [Rounding] [Power]

/-- The names that the shipped plugins give. -/
theorem shipped_came {pre : Str → Str} {key : Str} {m : PluginMetric} (h : Came shippedOps pre key m) :
    match m with
    | .sli r => r.name = sliPath (pre c!"SLI") key
    | .distinct r => r.pre ++ r.name = prefixed (pre c!"pdistinct") key [] := by
  induction h with
  | built w n f =>
    cases f with
    | sli cfg => rfl
    | distinct => simp [shippedOps, DistinctReporter.init, prefixed]
  | @processed m w n items h ih =>
    cases m with
    | sli r =>
      simp only [shippedOps]
      simp only at ih
      rw [← ih]
      unfold SliReporter.process
      split
      · rfl
      · split
        · rfl
        · unfold SliReporter.update; split <;> rfl
    | distinct r =>
      simp only [shippedOps]
      simp only at ih
      rw [← ih]
      cases items with
      | nil => rfl
      | cons a b =>
        simp only [DistinctReporter.process, DistinctReporter.update]
        split <;> rfl
  | @flushed m w n secs ts h ih =>
    cases m with
    | sli r => exact ih
    | distinct r => exact ih

theorem shipped_points {pre : Str → Str} {key : Str} {m : PluginMetric} (h : Came shippedOps pre key m) {w : World} {n : Nat} {secs ts : ℤ}
    {d : Datapoint} (hd : d ∈ madeBy (shippedOps.flush w n m secs ts).2.2) :
    ∃ z, d.name = sliPath (pre c!"SLI") key ++ '.' :: z ∨ d.name = prefixed (pre c!"pdistinct") key ('.' :: z) := by
  have hn := shipped_came h
  cases m with
  | sli r =>
    simp only at hn
    have hd : d ∈ (r.flush ts).2 := hd
    rw [← hn]
    simp only [SliReporter.flush, List.mem_append, List.mem_map, List.mem_cons, List.not_mem_nil, or_false] at hd
    rcases hd with ⟨kv, hkv, rfl⟩ | rfl | rfl
    · exact ⟨c!"count_" ++ kv.1, .inl (by simp)⟩
    · exact ⟨c!"count", .inl rfl⟩
    · exact ⟨c!"error", .inl rfl⟩
  | distinct r =>
    simp only at hn
    have hl : r.flush (w.clk n) ts = .ok (madeBy (shippedOps.flush w n (.distinct r) secs ts).2.2) := madeBy_ok hd
    obtain ⟨y, _, hy⟩ := distinct_names hl d hd
    refine ⟨y, .inr ?_⟩
    rw [hy, hn]
    simp [prefixed]

/-- The shipped plugins of the default processor are quiet outside of their own names. -/
theorem quiet_shipped {X : Str} (h1 : ∀ y, ¬ X <+: c!"stats.SLI." ++ y) (h2 : ∀ y, ¬ X <+: c!"stats.pdistinct." ++ y) :
    Quiet shippedOps X := by
  intro key m hm w t i ts l hl d hd hx
  obtain ⟨z, hz | hz⟩ := shipped_points hm (w := w) (n := t) (secs := i) (ts := ts) (d := d) (by rw [hl]; exact hd)
  · have e : sliPath (statsPrefix c!"SLI") key = c!"stats.SLI." ++ key := rfl
    rw [hz, e, List.append_assoc] at hx
    exact h1 _ hx
  · have e : prefixed (statsPrefix c!"pdistinct") key ('.' :: z) = c!"stats.pdistinct." ++ (key ++ '.' :: z) := rfl
    rw [hz, e] at hx
    exact h2 _ hx

theorem not_prefix_at {X Y : Str} (n : Nat) (hn : n ≤ X.length) (hy : n ≤ Y.length) (h : X.take n ≠ Y.take n) (y : Str) : ¬ X <+: Y ++ y := by
  rintro ⟨z, hz⟩
  have := congrArg (List.take n) hz
  rw [List.take_append_of_le_length hn, List.take_append_of_le_length hy] at this
  exact h this

theorem quiet_shipped_builtin : Quiet shippedOps c!"stats_counts." ∧ Quiet shippedOps c!"stats.timers." ∧
    Quiet shippedOps c!"stats.gauge." ∧ Quiet shippedOps c!"stats.meter." ∧ Quiet shippedOps c!"statsd." :=
  ⟨quiet_shipped (not_prefix_at 6 (by decide) (by decide) (by decide)) (not_prefix_at 6 (by decide) (by decide) (by decide)),
   quiet_shipped (not_prefix_at 7 (by decide) (by decide) (by decide)) (not_prefix_at 7 (by decide) (by decide) (by decide)),
   quiet_shipped (not_prefix_at 7 (by decide) (by decide) (by decide)) (not_prefix_at 7 (by decide) (by decide) (by decide)),
   quiet_shipped (not_prefix_at 7 (by decide) (by decide) (by decide)) (not_prefix_at 7 (by decide) (by decide) (by decide)),
   quiet_shipped (not_prefix_at 6 (by decide) (by decide) (by decide)) (not_prefix_at 6 (by decide) (by decide) (by decide))⟩

omit [Power] in
theorem ofKey_iff {pre key : Str} {d : Datapoint} :
    ofKey pre key d = true ↔ ∃ y, '.' ∉ y ∧ d.name = prefixed pre key ('.' :: y) := by
  unfold ofKey prefixed
  simp only [Bool.and_eq_true, Bool.not_eq_true', List.isPrefixOf_iff_prefix]
  set b := (if pre = [] then ([] : Str) else pre ++ ['.']) ++ key with hb
  constructor
  · rintro ⟨⟨y, hy⟩, h2⟩
    refine ⟨y, ?_, by rw [← hy]; simp⟩
    rw [← hy, List.drop_left] at h2
    intro hm
    rw [List.contains_iff_mem.2 hm] at h2
    cases h2
  · rintro ⟨y, h1, h2⟩
    have h3 : d.name = (b ++ ['.']) ++ y := by rw [h2]; simp
    refine ⟨⟨y, h3.symm⟩, ?_⟩
    rw [h3, List.drop_left]
    cases hc : y.contains '.' with
    | false => rfl
    | true => exact absurd (List.contains_iff_mem.1 hc) h1

omit [Power] in
theorem ofKey_word {pre k key y : Str} (hy : '.' ∉ y) {d : Datapoint} (hd : d.name = prefixed pre k ('.' :: y)) :
    ofKey pre key d = decide (k = key) := by
  by_cases hk : k = key
  · subst hk
    rw [decide_eq_true rfl]
    exact ofKey_iff.2 ⟨y, hy, hd⟩
  · rw [decide_eq_false hk]
    cases ho : ofKey pre key d with
    | false => rfl
    | true =>
      exfalso
      obtain ⟨y', hy', hn⟩ := ofKey_iff.1 ho
      rw [hd] at hn
      unfold prefixed at hn
      exact hk (List.append_cancel_left (last_dot hy hy' hn).1)

/-- The path that the SLI plugin makes, when the prefix does not end in a dot. -/
theorem sliPath_eq {pre : Str} (hp : pre.getLast? ≠ some '.') (key : Str) : sliPath pre key = prefixed pre key [] := by
  unfold sliPath prefixed
  split_ifs <;> simp

/-- No label contains a dot. -/
def DotlessMetric : PluginMetric → Prop
  | .sli r => (∀ kv ∈ r.counts, '.' ∉ kv.1) ∧ ∀ kc ∈ r.conditions, '.' ∉ kc.1
  | .distinct _ => True

theorem dotless_process (m : PluginMetric) (w : World) (n : Nat) (items : List Str) (hm : DotlessMetric m) :
    DotlessMetric (shippedOps.process w n m items).1 := by
  cases m with
  | distinct r => trivial
  | sli r =>
    obtain ⟨h2, h3⟩ := hm
    simp only [shippedOps]
    unfold SliReporter.process
    split
    · exact ⟨h2, h3⟩
    · split
      · exact ⟨h2, h3⟩
      · unfold SliReporter.update
        split
        · exact ⟨h2, h3⟩
        · exact ⟨tally_labels _ _ _ _ h3 h2, h3⟩

/-- The labels of the stored SLI metrics contain no dots. -/
theorem shipped_labels {w : World} {P : Dict Factory} (hP : ∀ t cfg, P.find t = some (.sli cfg) → DotlessLabels cfg) {pre : Str → Str}
    {key : Str} {m : PluginMetric} (h : Reachable shippedOps w P pre key m) : DotlessMetric m := by
  obtain ⟨t, xs, gs, h⟩ := h
  induction h with
  | @born n t x f hf ht =>
    apply dotless_process
    cases f with
    | distinct => trivial
    | sli cfg =>
      have hg := gather_labels (sliPath (pre (shippedOps.name (.sli cfg))) key) cfg (hP _ _ hf) [] (by simp)
      refine ⟨?_, hg⟩
      intro kv hkv
      obtain ⟨kc, hkc, rfl⟩ := List.mem_map.1 hkv
      exact hg kc hkc
  | message x h hn ht ih => exact dotless_process _ _ _ _ ih
  | @flush t n t' xs gs m secs ts h hn ht ih =>
    cases m with
    | distinct r => trivial
    | sli r =>
      refine ⟨?_, ih.2⟩
      intro kv hkv
      obtain ⟨kc, hkc, rfl⟩ := List.mem_map.1 hkv
      exact ih.2 kc hkc

/-- The points of a shipped plugin under a prefix that does not end in a dot. -/
theorem shipped_word {w : World} {P : Dict Factory} (hP : ∀ t cfg, P.find t = some (.sli cfg) → DotlessLabels cfg) {pre : Str}
    (hpre : pre.getLast? ≠ some '.') {k : Str} {m : PluginMetric} (h : Reachable shippedOps w P (fun _ => pre) k m) {n : Nat} {secs ts : ℤ}
    {d : Datapoint} (hd : d ∈ madeBy (shippedOps.flush w n m secs ts).2.2) : ∃ y, '.' ∉ y ∧ d.name = prefixed pre k ('.' :: y) := by
  have hl := shipped_labels hP h
  obtain ⟨t, xs, gs, h⟩ := h
  have hn := shipped_came (life_came h)
  cases m with
  | sli r =>
    simp only at hn
    rw [sliPath_eq hpre] at hn
    have hd : d ∈ (r.flush ts).2 := hd
    have e : ∀ z, r.name ++ '.' :: z = prefixed pre k ('.' :: z) := by intro z; rw [hn]; simp [prefixed]
    simp only [SliReporter.flush, List.mem_append, List.mem_map, List.mem_cons, List.not_mem_nil, or_false] at hd
    rcases hd with ⟨kv, hkv, rfl⟩ | rfl | rfl
    · refine ⟨c!"count_" ++ kv.1, ?_, ?_⟩
      · simp only [List.mem_append, not_or]; exact ⟨by decide, hl.1 kv hkv⟩
      · rw [← e]; simp
    · exact ⟨c!"count", by decide, by rw [← e]⟩
    · exact ⟨c!"error", by decide, by rw [← e]⟩
  | distinct r =>
    simp only at hn
    have hl : r.flush (w.clk n) ts = .ok (madeBy (shippedOps.flush w n (.distinct r) secs ts).2.2) := madeBy_ok hd
    obtain ⟨y, hy, hny⟩ := distinct_names hl d hd
    refine ⟨y, hy, ?_⟩
    rw [hny, hn]
    simp [prefixed]

theorem shipped_ofKey {w : World} {P : Dict Factory} (hP : ∀ t cfg, P.find t = some (.sli cfg) → DotlessLabels cfg) {pre : Str}
    (hpre : pre.getLast? ≠ some '.') (key : Str) {k : Str} {m : PluginMetric} (h : Reachable shippedOps w P (fun _ => pre) k m) (n : Nat)
    (secs ts : ℤ) : ∀ d ∈ madeBy (shippedOps.flush w n m secs ts).2.2, ofKey pre key d = decide (k = key) := by
  intro d hd
  obtain ⟨y, hy, hn⟩ := shipped_word hP hpre h hd
  exact ofKey_word hy hn

/-- The shipped plugins do not make points of timers, counters and so on of other names. -/
theorem shipped_others {w : World} {P : Dict Factory} (hP : ∀ t cfg, P.find t = some (.sli cfg) → DotlessLabels cfg) {pre : Str}
    (hpre : pre.getLast? ≠ some '.') (key : Str) {keep : Datapoint → Bool}
    (hk : ∀ d, keep d = true → ∃ y, '.' ∉ y ∧ d.name = prefixed pre key ('.' :: y)) :
    OthersQuiet shippedOps w P (fun _ => pre) key keep := by
  intro k m hne h n secs ts d hd
  have h1 := shipped_ofKey hP hpre key h n secs ts d hd
  rw [decide_eq_false hne] at h1
  cases hh : keep d with
  | false => rfl
  | true => rw [ofKey_iff.2 (hk d hh)] at h1; cases h1

theorem shipped_others_timer {w : World} {P : Dict Factory} (hP : ∀ t cfg, P.find t = some (.sli cfg) → DotlessLabels cfg) {pre : Str}
    (hpre : pre.getLast? ≠ some '.') (key : Str) : OthersQuiet shippedOps w P (fun _ => pre) key (ofTimerC pre key) := by
  refine shipped_others hP hpre key fun d hd => ?_
  obtain ⟨s, h1, h2⟩ := ofTimerC_iff.1 hd
  obtain ⟨y, h3, rfl⟩ := suffix_shape h1
  exact ⟨y, h3, h2⟩

/-! ## The life of an SLI metric -/

theorem sli_life {w : World} {P : Dict Factory} {cfg : SliConfig} (hP : P.find c!"sli" = some (.sli cfg)) {pre : Str → Str} {key : Str}
    (hpc : ProperConditions (buildSli cfg (pre c!"SLI") key).conditions) {t : Nat} {xs : List Metric} {gs : List (List Datapoint)}
    {m : PluginMetric} (h : PluginLife shippedOps w P pre key t xs gs m) (hx : ∀ x ∈ xs, x.mtype = c!"sli") :
    ∃ (blocks : List (List (Option PyFloat × Num) × ℤ)) (last : List (Option PyFloat × Num)),
      (xs.flatMap fun x => (sliEvent x.fields).toList) = blocks.flatMap (·.1) ++ last ∧
      gs = blocks.map (fun b => sliPoints (sliPath (pre c!"SLI") key) (buildSli cfg (pre c!"SLI") key).conditions b.1 b.2) ∧
      m = .sli (sliState (sliPath (pre c!"SLI") key) (buildSli cfg (pre c!"SLI") key).conditions last) := by
  have e0 : buildSli cfg (pre c!"SLI") key = sliState (sliPath (pre c!"SLI") key) (buildSli cfg (pre c!"SLI") key).conditions [] := by
    rw [← init_eq]; rfl
  induction h with
  | @born n t x f hf ht =>
    have hmt := hx x (by simp)
    rw [hmt, hP] at hf
    simp only [Option.some.injEq] at hf
    subst hf
    refine ⟨[], (sliEvent x.fields).toList, by simp, rfl, ?_⟩
    show PluginMetric.sli ((buildSli cfg (pre c!"SLI") key).process x.fields).1 = _
    rw [e0, process_state _ hpc, List.nil_append]
    rfl
  | @message t n t' xs gs m x h hn ht ih =>
    obtain ⟨b, la, h1, h2, rfl⟩ := ih (fun y hy => hx y (by simp [hy]))
    refine ⟨b, la ++ (sliEvent x.fields).toList, ?_, h2, ?_⟩
    · rw [List.flatMap_append, h1]; simp
    · show PluginMetric.sli ((sliState _ _ la).process x.fields).1 = _
      rw [process_state _ hpc]
  | @flush t n t' xs gs m secs ts h hn ht ih =>
    obtain ⟨b, la, h1, h2, rfl⟩ := ih hx
    refine ⟨b ++ [(la, ts)], [], ?_, ?_, ?_⟩
    · rw [h1]; simp
    · rw [h2, List.map_append]
      show _ ++ [((sliState _ _ la).flush ts).2] = _
      rw [flush_state]; rfl
    · show PluginMetric.sli ((sliState _ _ la).flush ts).1 = _
      rw [flush_state]

/-- The count among the points of an SLI metric. -/
theorem sliPoints_count (name : Str) (conds : Dict SliCond) (e : List (Option PyFloat × Num)) (ts : ℤ) :
    named (name ++ c!".count") (sliPoints name conds e ts) = [⟨name ++ c!".count", .int e.length, ts⟩] := by
  have ne : ∀ x : Str, x ≠ c!".count" → name ++ x ≠ name ++ c!".count" := fun x hx h => hx (List.append_cancel_left h)
  unfold named sliPoints
  rw [List.filter_append]
  have e1 : (List.map (fun kc : Str × SliCond => (⟨name ++ c!".count_" ++ kc.1, .int (e.countP (Good kc.2)), ts⟩ : Datapoint))
      conds).filter (fun d => decide (d.name = name ++ c!".count")) = [] := by
    rw [List.filter_eq_nil_iff]
    intro d hd
    obtain ⟨kc, _, rfl⟩ := List.mem_map.1 hd
    have := ne (c!".count_" ++ kc.1) (by intro h; have := congrArg (List.drop 6) h; simp at this)
    simpa using this
  have e2 : name ++ c!".error" ≠ name ++ c!".count" := ne _ (by decide)
  rw [e1]
  simp [List.filter_cons, e2]

theorem sliPoints_count_sum (name : Str) (conds : Dict SliCond) (bs : List (List (Option PyFloat × Num) × ℤ)) :
    ((named (name ++ c!".count") (bs.flatMap fun b => sliPoints name conds b.1 b.2)).map fun d => d.value.rat).sum =
      ((bs.flatMap (·.1)).length : ℚ) := by
  induction bs with
  | nil => rfl
  | cons b bs ih =>
    rw [List.flatMap_cons, List.flatMap_cons, named_append, sliPoints_count, List.map_append, List.sum_append, ih]
    simp [Num.rat]

/-! ## The life of a distinct metric -/

theorem distinct_life {w : World} (hw : ∀ i j, i ≤ j → w.clk i ≤ w.clk j) (h0 : ∀ n, 86400 ≤ w.clk n) {P : Dict Factory}
    (hP : P.find c!"pd" = some .distinct) {pre : Str → Str} {key : Str} {t : Nat} {xs : List Metric} {gs : List (List Datapoint)}
    {m : PluginMetric} (h : PluginLife shippedOps w P pre key t xs gs m) (hx : ∀ x ∈ xs, x.mtype = c!"pd" ∧ x.fields ≠ []) :
    ∃ (tables : List (Nat → Nat)) (h : List (ℚ × Str)) (reports : List (List (ℚ × Str) × ℚ × ℤ)) (c : DistinctCounter),
      tables.length = 32 ∧ h.map Prod.snd = (xs.flatMap fun x => x.fields.head?.toList) ∧ Ordered h ∧ (∀ e ∈ h, ∃ n < t, e.1 = w.clk n) ∧
      (∀ rep ∈ reports, rep.1 ≠ [] ∧ rep.1 <+: h ∧ (∃ n, rep.2.1 = w.clk n) ∧ ∀ e ∈ rep.1, e.1 ≤ rep.2.1) ∧
      List.Forall₂ (fun rep g => DistinctReport tables (prefixed (pre c!"pdistinct") key []) rep.1 rep.2.1 rep.2.2 g) reports gs ∧
      h ≠ [] ∧ feed (.init 32 tables) h = .ok c ∧
      m = .distinct ⟨key, (if pre c!"pdistinct" = [] then [] else pre c!"pdistinct" ++ ['.']), c⟩ := by
  set p : Str := (if pre c!"pdistinct" = [] then [] else pre c!"pdistinct" ++ ['.']) with hp
  have hname : prefixed (pre c!"pdistinct") key [] = p ++ key := by simp [prefixed, hp]
  have one : ∀ (tb : List (Nat → Nat)) (h : List (ℚ × Str)) (c : DistinctCounter) (n : Nat) (x : Metric), x.fields ≠ [] →
      feed (.init 32 tb) h = .ok c →
      ∃ f0 c', x.fields.head?.toList = [f0] ∧ feed (.init 32 tb) (h ++ [(w.clk n, f0)]) = .ok c' ∧
        shippedOps.process w n (.distinct ⟨key, p, c⟩) x.fields = (.distinct ⟨key, p, c'⟩, 1, none) := by
    intro tb h c n x hne hfeed
    cases hfs : x.fields with
    | nil => exact absurd hfs hne
    | cons f0 rest =>
      obtain ⟨c', hadd, hfeed'⟩ := feed_snoc (wellSized_init (by decide) tb) hfeed (w.clk n, f0)
      refine ⟨f0, c', rfl, hfeed', ?_⟩
      simp only [shippedOps, DistinctReporter.process, DistinctReporter.update]
      simp only at hadd
      rw [hadd]
  induction h with
  | @born n t x f hf ht =>
    obtain ⟨hmt, hne⟩ := hx x (by simp)
    rw [hmt, hP] at hf
    simp only [Option.some.injEq] at hf
    subst hf
    have hb : shippedOps.build w n .distinct (pre (shippedOps.name .distinct)) key =
        .distinct ⟨key, p, .init 32 ((List.range 32).map (w.sbox n))⟩ := rfl
    rw [hb] at ht ⊢
    obtain ⟨f0, c', g1, g2, g3⟩ := one ((List.range 32).map (w.sbox n)) [] _ n x hne rfl
    rw [g3] at ht ⊢
    refine ⟨(List.range 32).map (w.sbox n), [(w.clk n, f0)], [], c', by simp, by simp [g1], List.pairwise_singleton _ _, ?_, by simp, .nil, by simp, g2, rfl⟩
    intro e he
    rw [List.mem_singleton.1 he]
    exact ⟨n, by simp only at ht; omega, rfl⟩
  | @message t n t' xs gs m x hlf hn ht ih =>
    obtain ⟨tb, h, rp, c, a1, a2, a3, a4, a5, a6, a7, a8, rfl⟩ := ih (fun y hy => hx y (by simp [hy]))
    obtain ⟨f0, c', g1, g2, g3⟩ := one tb h c n x (hx x (by simp)).2 a8
    rw [g3] at ht ⊢
    simp only at ht
    refine ⟨tb, h ++ [(w.clk n, f0)], rp, c', a1, ?_, ?_, ?_, ?_, a6, by simp, g2, rfl⟩
    · rw [List.map_append, a2, List.flatMap_append]; simp [g1]
    · refine List.pairwise_append.2 ⟨a3, List.pairwise_singleton _ _, ?_⟩
      intro e he e' he'
      rw [List.mem_singleton.1 he']
      obtain ⟨i, hi, en⟩ := a4 e he
      rw [en]; exact hw _ _ (by omega)
    · intro e he
      rcases List.mem_append.1 he with he | he
      · obtain ⟨i, hi, en⟩ := a4 e he
        exact ⟨i, by omega, en⟩
      · rw [List.mem_singleton.1 he]; exact ⟨n, by omega, rfl⟩
    · intro rep hrep
      obtain ⟨b0, b1, b2⟩ := a5 rep hrep
      exact ⟨b0, b1.trans (List.prefix_append _ _), b2⟩
  | @flush t n t' xs gs m secs ts hlf hn ht ih =>
    obtain ⟨tb, h, rp, c, a1, a2, a3, a4, a5, a6, a7, a8, rfl⟩ := ih hx
    obtain ⟨g, hg1, hg2⟩ := distinct_report (pre := p) (key := key) (by intro h; rw [h] at a1; simp at a1) a3 a8 (h0 n) ts
    have hg : madeBy (shippedOps.flush w n (.distinct ⟨key, p, c⟩) secs ts).2.2 = g := by
      show madeBy (DistinctReporter.flush _ (w.clk n) ts) = g
      rw [hg1]; rfl
    have ht : n + 1 ≤ t' := ht
    rw [hg]
    refine ⟨tb, h, rp ++ [(h, w.clk n, ts)], c, a1, a2, a3, ?_, ?_, forall₂_snoc a6 (by rw [hname]; exact hg2), a7, a8, rfl⟩
    · intro e he
      obtain ⟨i, hi, en⟩ := a4 e he
      exact ⟨i, by omega, en⟩
    · intro rep hrep
      rcases List.mem_append.1 hrep with hrep | hrep
      · exact a5 rep hrep
      · rw [List.mem_singleton.1 hrep]
        refine ⟨a7, List.prefix_rfl, ⟨_, rfl⟩, ?_⟩
        intro e he
        obtain ⟨i, hi, en⟩ := a4 e he
        rw [en]; exact hw _ _ (by omega)

/-! ## The configurable processor -/

omit [Power] in
/-- Visits of counters, timers, gauges and meters of the configurable processor make no point of a name without such readings. -/
theorem visit_not_key {PF PM : Type} (ops : PluginOps PF PM) (pre int : Str) (w : World) (secs percent ts : ℤ) {key : Str}
    {k : Nat} (hk : k < 4) {s : CPState PF PM} {ms : List Str} (hs : CPWf ops pre s) (hst : StoredC pre s ms)
    (hno : ∀ T ∈ [c!"c", c!"ms", c!"g", c!"m"], ¬ Received T key ms) (i : Nat) :
    (visited (phaseVisit (configurable ops pre int) w secs percent ts k s i).2).filter (ofKey pre key) = [] := by
  rw [List.filter_eq_nil_iff]
  intro d hd ho
  have own : ∀ {k' sfx T : Str}, (T, sfx) ∈ suffixes → d.name = prefixed pre k' sfx → k' = key := by
    intro k' sfx T h1 h2
    obtain ⟨y, h3, rfl⟩ := suffix_shape h1
    have := ofKey_word (key := key) h3 h2
    rw [ho] at this
    exact of_decide_eq_true this.symm
  match k, hk with
  | 0, _ =>
    have hd : d ∈ visited (counterVisitC secs ts s i).2 := hd
    unfold counterVisitC at hd
    cases hi : s.counters[i]? with
    | none => simp [hi, visited] at hd
    | some p =>
      obtain ⟨ck, c⟩ := p
      simp only [hi] at hd
      obtain ⟨v, hv, rfl⟩ := (mem_counters hs hst ck c).1 (List.mem_of_getElem? hi)
      simp only [CounterRep.report] at hd
      cases v with
      | nan => simp [truncNum, Except.map, visited] at hd
      | inf b => simp [truncNum, Except.map, visited] at hd
      | fin q =>
        simp only [truncNum, Except.map, visited, Option.getD_some, List.mem_singleton] at hd
        have hn : d.name = prefixed pre ck c!".count" := by rw [hd]; simp only [dotted_eq]
        obtain rfl := own (T := c!"c") (by decide) hn
        obtain ⟨a, m, b, rfl, hr, _⟩ := hv
        exact hno c!"c" (by simp) ⟨m, by simp, _, hr⟩
  | 1, _ =>
    have hd : d ∈ visited (timerVisitC percent ts s i).2 := hd
    unfold timerVisitC at hd
    cases hi : s.timers[i]? with
    | none => simp [hi, visited] at hd
    | some p =>
      obtain ⟨tk, t⟩ := p
      simp only [hi] at hd
      cases hr : (t.report ts).2 with
      | error e => simp [hr, Except.map, visited] at hd
      | ok l =>
        simp only [hr, Except.map, visited, Option.getD_some] at hd
        obtain ⟨n1, n2⟩ := hs.tName _ (List.mem_of_getElem? hi)
        have h3 := timer_report_ofC hr n2 n1 tk d hd
        rw [decide_eq_true rfl] at h3
        obtain ⟨x, hx, hn⟩ := ofTimerC_iff.1 h3
        obtain rfl := own hx hn
        exact hno c!"ms" (by simp) ((hst.timers tk).1 (Dict.mem_keys_of_mem (List.mem_of_getElem? hi)))
  | 2, _ =>
    have hd : d ∈ visited (gaugeVisitC ts s i).2 := hd
    unfold gaugeVisitC at hd
    cases hi : s.gauges[i]? with
    | none => simp [hi, visited] at hd
    | some p =>
      obtain ⟨gk, g⟩ := p
      simp only [hi, GaugeRep.report, visited, Option.getD_some, List.mem_singleton] at hd
      obtain ⟨v, hv, rfl⟩ := (mem_gauges hs hst gk g).1 (List.mem_of_getElem? hi)
      have hn : d.name = prefixed pre gk c!".value" := by rw [hd]; simp only [dotted_eq]
      obtain rfl := own (T := c!"g") (by decide) hn
      obtain ⟨a, m, b, rfl, hr, _⟩ := hv
      exact hno c!"g" (by simp) ⟨m, by simp, _, hr⟩
  | 3, _ =>
    have hd : d ∈ visited (meterVisit ts s i).2 := hd
    unfold meterVisit at hd
    cases hi : s.meters[i]? with
    | none => simp [hi, visited] at hd
    | some p =>
      obtain ⟨mk, m⟩ := p
      simp only [hi] at hd
      cases hr : (m.report ts).2 with
      | error e => simp [hr, Except.map, visited] at hd
      | ok l =>
        simp only [hr, Except.map, visited, Option.getD_some] at hd
        obtain ⟨n1, n2⟩ := hs.mName _ (List.mem_of_getElem? hi)
        have hrec := (hst.meters mk).1 (Dict.mem_keys_of_mem (List.mem_of_getElem? hi))
        rcases (meter_report_points hr d hd).2 with e | e
        · obtain rfl := own (T := c!"m") (sfx := c!".count") (by decide) (by rw [e, n1, n2, dotted_eq])
          exact hno c!"m" (by simp) hrec
        · obtain rfl := own (T := c!"m") (sfx := c!".rate") (by decide) (by rw [e, n1, n2, dotted_eq])
          exact hno c!"m" (by simp) hrec

omit [Power] in
theorem internal_not_key {PF PM : Type} {ops : PluginOps PF PM} {pre int key : Str} (h1 : ¬ internalPrefixOf pre int <+: prefixed pre key ['.'])
    (h2 : ¬ prefixed pre key ['.'] <+: internalPrefixOf pre int) (d : Datapoint) (hd : InternalName (configurable ops pre int) d.name) :
    ofKey pre key d = false := by
  obtain ⟨x, hx, _⟩ := hd
  cases ho : ofKey pre key d with
  | false => rfl
  | true =>
    exfalso
    obtain ⟨y, _, hn⟩ := ofKey_iff.1 ho
    have hx : d.name = internalPrefixOf pre int ++ x := hx
    have e : prefixed pre key ('.' :: y) = prefixed pre key ['.'] ++ y := by simp [prefixed]
    rw [e] at hn
    have p1 : prefixed pre key ['.'] <+: d.name := ⟨y, hn.symm⟩
    have p2 : internalPrefixOf pre int <+: d.name := ⟨x, hx.symm⟩
    rcases List.prefix_or_prefix_of_prefix p1 p2 with h | h
    · exact h2 h
    · exact h1 h

end
end Txstatsd
