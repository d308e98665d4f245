import Verif.Lemmas.Labels
import Verif.Lemmas.Fnmatch
import Verif.Props.Create
import Verif.Props.Kept
import Verif.Props.PluginFlow

set_option linter.unusedSectionVars false
set_option linter.unusedVariables false

/-!
# C175: what the rules of the SLI plugin can contain
-/

namespace Txstatsd
open Spec
section
variable [Rounding] {R : Type}

/-- C175: whatever the rules are, accepted or not, and whatever was configured before, only proper patterns and labels get into the
configuration. -/
theorem C175_labels (cfg : SliConfig) (h : ReadRules cfg) (rules : Option Str) : ReadRules (configureSli cfg rules).1 := by
  cases rules with
  | none => exact h
  | some text => exact readRules_rules _ h

theorem dotless_read {cfg : SliConfig} (h : ReadRules cfg) : DotlessLabels cfg := by
  intro pc hpc kc hkc hd
  exact absurd (((h.2 pc hpc).2.2.2 kc hkc).2 '.' hd) (by decide)

/-- C175: so matching a name against such a pattern never fails, and asks for the shell match. -/
theorem C175_patterns (cfg : SliConfig) (h : ReadRules cfg) (rules : Option Str) :
    ∀ pc ∈ (configureSli cfg rules).1, ∀ path, ∃ b, fnmatch path pc.1 = .ok b ∧ (b = true ↔ GlobMatch pc.1 path) := by
  intro pc hpc path
  have hb : '[' ∉ pc.1 := fun hb => absurd (((C175_labels cfg h rules).2 pc hpc).2.1 '[' hb) (by decide)
  rw [fnmatch_plain hb]
  exact ⟨_, rfl, (fnmatch_iff hb _).1 (fnmatch_plain hb)⟩

/-- C175: if no rule asks for the condition `metric`, every metric gets conditions with different labels which can be evaluated. -/
theorem C175_conditions (text : Str) (h : NoMetricRules text) (pre name : Str) :
    ProperConditions (buildSli (configureSli [] (some text)).1 pre name).conditions :=
  gather_proper _ _ _ (noReporters_rules _ (fun _ h => by simp at h) h) ⟨List.nodup_nil, by simp⟩

/-- C175: a rule may ask for `metric`; it is accepted, and the metrics that it matches refuse every number. -/
theorem C175_metric (pre name : Str) (f : Str) (x : PyFloat) (hf : parseFloat f = some x) (he : f ≠ c!"error") :
    let cfg := configureSli [] (some c!"* => x IF metric a b")
    cfg.2 = none ∧ ¬ ProperConditions (buildSli cfg.1 pre name).conditions ∧
    ((buildSli cfg.1 pre name).process [f, c!"sli"]).2 = some .typeError := by
  intro cfg
  have hcfg : cfg = ([(c!"*", [(c!"x", .reporter)])], none) := rfl
  have hfn : fnmatch (sliPath pre name) c!"*" = .ok true := by
    rw [fnmatch_iff (by decide)]
    simp only [true_iff]
    simpa using GlobMatch.star (sliPath pre name) [] [] .nil
  have hb : buildSli cfg.1 pre name = .init (sliPath pre name) [(c!"x", .reporter)] := by
    rw [hcfg]
    simp only [buildSli, gather, List.foldl_cons, List.foldl_nil, hfn]
    rfl
  refine ⟨by rw [hcfg], fun h => ?_, ?_⟩
  · rw [hb] at h
    exact h.2 (c!"x", .reporter) List.mem_cons_self rfl
  · rw [hb]
    simp [SliReporter.process, sliSize, sliValue, he, hf, SliReporter.update, SliReporter.init, SliReporter.clear, tally, SliCond.call]

theorem created_shipped {files : Str → Option Str} {argv : List Str} {o : Opts} (h : startOptions files argv = .ok o) {rx : Regexes R}
    {node : Str} {hasInfo : Bool} {c : Created R} (hc : createService rx node hasInfo [.distinct, .sli []] o = .ok c) :
    ∃ rules, c.plugins = [.distinct, .sli (configureSli [] rules).1] ∧ ∀ text, rules = some text → GivenRules o text := by
  obtain ⟨-, -, -, -, -, hp⟩ := created_eq h hc
  refine ⟨sliRules o, ?_, fun text ht => (sliRules_some text).1 ht⟩
  simp only [configurePlugins, Factory.configure] at hp
  cases hs : configureSli [] (sliRules o) with
  | mk cfg e =>
    rw [hs] at hp
    cases e with
    | none => simp at hp; exact hp.symm
    | some e => simp at hp

/-- C175: every service made of a command line and files, with the plugins that come with it, has a configuration of proper patterns and
labels, without dots in labels; and if no rule asks for `metric`, every SLI metric has conditions which can be evaluated. -/
theorem C175_created (files : Str → Option Str) (argv : List Str) (o : Opts) (h : startOptions files argv = .ok o) (rx : Regexes R)
    (node : Str) (hasInfo : Bool) (c : Created R) (hc : createService rx node hasInfo [.distinct, .sli []] o = .ok c) :
    ∃ cfg, c.plugins = [.distinct, .sli cfg] ∧ ReadRules cfg ∧ DotlessLabels cfg ∧
      ((∀ text, GivenRules o text → NoMetricRules text) → ∀ pre name, ProperConditions (buildSli cfg pre name).conditions) := by
  obtain ⟨rules, h1, h2⟩ := created_shipped h hc
  have h3 := C175_labels [] ⟨List.nodup_nil, by simp⟩ rules
  refine ⟨_, h1, h3, dotless_read h3, fun hm pre name => ?_⟩
  cases rules with
  | none => exact gather_proper (sliPath pre name) [] [] (fun _ h => by simp at h) ⟨List.nodup_nil, fun _ h => by simp at h⟩
  | some text => exact C175_conditions text (hm text (h2 text rfl)) pre name

/-- C173: in every service made of a command line and files, with the plugins that come with it. -/
theorem C173_created_partial [Power] (files : Str → Option Str) (argv : List Str) (o : Opts) (h : startOptions files argv = .ok o) (rx : Regexes R)
    (node : Str) (hasInfo : Bool) (c : Created R) (hc : createService rx node hasInfo [.distinct, .sli []] o = .ok c) (w : World)
    (os : List Op) (interval percent : ℤ) (hg : OneReading (messages os))
    (hn : ∀ word ∈ [c!"timers.", c!"gauge.", c!"meter.", c!"SLI.", c!"pdistinct."], NoCounter word (messages os)) :
    let r := flush (messageProcessor shippedOps) w interval percent
      (runOps (messageProcessor shippedOps) w (MPState.init shippedOps c.plugins) os).1
    r.2.2 = none → UniqueNames r.2.1 := by
  obtain ⟨cfg, h1, -, h3, -⟩ := C175_created files argv o h rx node hasInfo c hc
  rw [h1]
  exact C173_shipped_partial cfg h3 w os interval percent hg hn

/-- C173: the same of the configurable processor. -/
theorem C173_createdC_partial [Power] (files : Str → Option Str) (argv : List Str) (o : Opts) (h : startOptions files argv = .ok o) (rx : Regexes R)
    (node : Str) (hasInfo : Bool) (c : Created R) (hc : createService rx node hasInfo [.distinct, .sli []] o = .ok c)
    (pre int : Str) (hpre : pre.getLast? ≠ some '.') (w : World)
    (os : List Op) (interval percent : ℤ) (hk : OneKind (messages os)) (hpk : PluginsApart (messages os)) :
    let self := if int = [] then (if pre = [] then c!"statsd." else pre ++ c!".statsd.") else int
    let r := flush (configurable shippedOps pre int) w interval percent
      (runOps (configurable shippedOps pre int) w (CPState.init shippedOps c.plugins) os).1
    (∀ t k suffix, Received t k (messages os) → (t, suffix) ∈ suffixes → ¬ self <+: prefixed pre k suffix) →
    (∀ k y, ForPlugin k (messages os) → '.' ∉ y → ¬ self <+: prefixed pre k ('.' :: y)) →
    r.2.2 = none → UniqueNames r.2.1 := by
  obtain ⟨cfg, h1, -, h3, -⟩ := C175_created files argv o h rx node hasInfo c hc
  rw [h1]
  exact C173_shippedC_partial cfg h3 pre int hpre w os interval percent hk hpk

/-- C174: in every service made of a command line and files, with the plugins that come with it. -/
theorem C174_created_partial [Power] (files : Str → Option Str) (argv : List Str) (o : Opts) (h : startOptions files argv = .ok o) (rx : Regexes R)
    (node : Str) (hasInfo : Bool) (c : Created R) (hc : createService rx node hasInfo [.distinct, .sli []] o = .ok c) (w : World)
    (hclk : ∀ n, 0 ≤ w.clk n) (os : List Op) (hg : OneReading (messages os))
    (hn : ∀ word ∈ [c!"timers.", c!"gauge.", c!"meter.", c!"SLI.", c!"pdistinct."], NoCounter word (messages os))
    (ha : FlushesApart (messageProcessor shippedOps) w (MPState.init shippedOps c.plugins) os)
    (hok : AllComplete (messageProcessor shippedOps) w (MPState.init shippedOps c.plugins) os) :
    let out := (runOps (messageProcessor shippedOps) w (MPState.init shippedOps c.plugins) os).2
    carbonKeeps out = out := by
  obtain ⟨cfg, h1, -, h3, -⟩ := C175_created files argv o h rx node hasInfo c hc
  rw [h1] at ha hok ⊢
  exact C174_shipped_partial cfg h3 w hclk os hg hn ha hok

/-- C175: in every service made of a command line and files in which no rule asks for `metric`, the counts of an SLI metric that were sent
or are under way and the stored one add up to the number of its events, at every moment of every schedule. -/
theorem C175_counts [Power] (files : Str → Option Str) (argv : List Str) (o : Opts) (h : startOptions files argv = .ok o) (rx : Regexes R)
    (node : Str) (hasInfo : Bool) (c : Created R) (hc : createService rx node hasInfo [.distinct, .sli []] o = .ok c)
    (hm : ∀ text, GivenRules o text → NoMetricRules text) (w : World) (key : Str) (es : List Event)
    (hn : NoCounter c!"SLI." (arrivals es)) (hd : NoDistinct key (arrivals es)) :
    let v := (startUp (MPState.init shippedOps c.plugins)).run (messageProcessor shippedOps) w es
    ((named (c!"stats.SLI." ++ key ++ c!".count") v.out).map fun d => d.value.rat).sum +
      ((named (c!"stats.SLI." ++ key ++ c!".count") (underWay v.gens)).map fun d => d.value.rat).sum +
      sliCount v.ps key = (sliEvents key (arrivals es)).length := by
  obtain ⟨cfg, h1, -, h3, h4⟩ := C175_created files argv o h rx node hasInfo c hc
  rw [h1]
  exact C122_counts w cfg h3 key (h4 hm _ _) es hn hd

/-- C175: the same of the configurable processor. -/
theorem C175_countsC [Power] (files : Str → Option Str) (argv : List Str) (o : Opts) (h : startOptions files argv = .ok o) (rx : Regexes R)
    (node : Str) (hasInfo : Bool) (c : Created R) (hc : createService rx node hasInfo [.distinct, .sli []] o = .ok c)
    (hm : ∀ text, GivenRules o text → NoMetricRules text) (w : World) (pre int key : Str) (hpre : pre.getLast? ≠ some '.')
    (hi1 : ¬ internalPrefixOf pre int <+: prefixed pre key ['.']) (hi2 : ¬ prefixed pre key ['.'] <+: internalPrefixOf pre int)
    (es : List Event) (hno : ∀ T ∈ [c!"c", c!"ms", c!"g", c!"m"], ¬ Received T key (arrivals es)) (hd : NoDistinct key (arrivals es)) :
    let v := (startUp (CPState.init shippedOps c.plugins)).run (configurable shippedOps pre int) w es
    ((named (prefixed pre key c!".count") v.out).map fun d => d.value.rat).sum +
      ((named (prefixed pre key c!".count") (underWay v.gens)).map fun d => d.value.rat).sum +
      sliCount v.ps key = (sliEvents key (arrivals es)).length := by
  obtain ⟨cfg, h1, -, h3, h4⟩ := C175_created files argv o h rx node hasInfo c hc
  rw [h1]
  exact C130_counts w cfg h3 pre int key hpre (h4 hm _ _) hi1 hi2 es hno hd

/-- The hypotheses of `C175_created` are met by a file with two rules. -/
example (rx : Regexes R) : ∃ o c, startOptions
      (fun _ => some c!"[statsd]\n[plugin_sli]\nrules = a => red IF below 5 1\n  *.b-? => x_1 IF between 1 2\n") [c!"--config=f"] = .ok o ∧
    GivenRules o c!"a => red IF below 5 1\n*.b-? => x_1 IF between 1 2" ∧
    createService rx c!"host" false [.distinct, .sli []] o = .ok c ∧
    ∀ text, GivenRules o text → NoMetricRules text := by
  refine ⟨_, _, rfl, ⟨_, rfl, [], [], rfl, by simp⟩, rfl, ?_⟩
  intro text ht
  have h1 := (sliRules_some text).2 ht
  have h2 : some text = some c!"a => red IF below 5 1\n*.b-? => x_1 IF between 1 2" := h1.symm.trans rfl
  cases h2
  intro line hl head label params hr
  have hm := (matchRule_iff _ _ _ _ _).2 hr
  have hs : splitOn '\n' (strip c!"a => red IF below 5 1\n*.b-? => x_1 IF between 1 2") =
    [c!"a => red IF below 5 1", c!"*.b-? => x_1 IF between 1 2"] := by decide +kernel
  rw [hs] at hl
  simp only [List.mem_cons, List.not_mem_nil, or_false] at hl
  rcases hl with rfl | rfl
  · have h3 : matchRule c!"a => red IF below 5 1" = some (c!"a", c!"red", c!"below", c!" 5 1") := by decide +kernel
    rw [h3] at hm
    simp at hm
  · have h3 : matchRule c!"*.b-? => x_1 IF between 1 2" = some (c!"*.b-?", c!"x_1", c!"between", c!" 1 2") := by decide +kernel
    rw [h3] at hm
    simp at hm

/-- The hypotheses of `C173_created_partial`, `C174_created_partial` and `C175_counts` about what is received are met by a history with
messages for both plugins. -/
example :
    let ms := [c!"a:4|sli", c!"b:x|pd", c!"a:1|c"]
    messages [.msg c!"a:4|sli", .msg c!"b:x|pd", .flush 10000 90, .msg c!"a:1|c"] = ms ∧
    arrivals [.arrive c!"a:4|sli", .spawn 10000 90, .arrive c!"b:x|pd", .advance 0, .arrive c!"a:1|c"] = ms ∧
    (∀ word ∈ [c!"timers.", c!"gauge.", c!"meter.", c!"SLI.", c!"pdistinct."], NoCounter word ms) ∧ NoDistinct c!"a" ms ∧
    OneReading ms := by
  intro ms
  refine ⟨by decide +kernel, by decide +kernel, ?_, ?_, ?_⟩
  · intro word hw m hm k fs hp hx
    have : ∀ word ∈ [c!"timers.", c!"gauge.", c!"meter.", c!"SLI.", c!"pdistinct."], ∀ m ∈ ms,
        ((parseMessage m).map fun x => word.isPrefixOf x.key) ≠ some true := by decide +kernel
    refine this word hw m hm ?_
    rw [parsed_iff.1 hp]
    exact congrArg some (List.isPrefixOf_iff_prefix.2 hx)
  · intro m hm x hx hk ht
    have : ∀ m ∈ ms, ((parseMessage m).map fun x => (x.key, x.mtype)) ≠ some (c!"a", c!"pd") := by decide +kernel
    refine this m hm ?_
    rw [hx, ← hk, ← ht]
    rfl
  · intro key vs h
    have h1 := collect_le (fun m => decide ((parseMessage m).map (fun x => x.mtype) = some c!"g")) (by
      rintro m v ⟨f0, rest, h1, -⟩
      rw [parsed_iff.1 h1]
      simp) h
    exact le_trans h1 (by decide +kernel)

/-- A configuration with what rules may contain, and one with a label that no rule can have. -/
example : ReadRules [(c!"*.b-?", [(c!"x_1", .reporter), (c!"red", .reporter)])] ∧ ¬ ReadRules [(c!"a", [(c!"x.y", .reporter)])] := by
  refine ⟨⟨by decide, ?_⟩, fun h => ?_⟩
  · intro pc hpc
    simp only [List.mem_cons, List.not_mem_nil, or_false] at hpc
    subst hpc
    refine ⟨by decide, by decide, by decide, ?_⟩
    intro kc hkc
    simp only [List.mem_cons, List.not_mem_nil, or_false] at hkc
    rcases hkc with rfl | rfl <;> exact ⟨by decide, by decide⟩
  · exact absurd (((h.2 _ List.mem_cons_self).2.2.2 _ List.mem_cons_self).2 '.' (by decide)) (by decide)

end
end Txstatsd
