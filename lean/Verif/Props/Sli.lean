import Verif.Lemmas.Glob
import Verif.Lemmas.Sli
import Verif.Props.Histograms

/-!
# Service level indicators: C44–C46, C82, C83
-/

namespace Txstatsd
open Spec
section
variable [Rounding]

/-! ## C44 -/

/-- C44: after any sequence of events and flushes, a flush reports the events accepted since the previous flush: all of them,
the errors among them, and for each label those that satisfy its condition (in the order of Python's dictionary, here any). -/
theorem C44_flush (name : Str) (conds : Dict SliCond) (hc : ProperConditions conds) (ops : List SliOp) (ts : ℤ) :
    ((runSli (.init name conds) ops).flush ts).2.Perm (sliPoints name conds (eventsSince ops) ts) := by
  rw [runSli_eq name hc, flush_state]

/-- C44: a flush leaves the metric as it was when created. -/
theorem C44_reset (name : Str) (conds : Dict SliCond) (hc : ProperConditions conds) (ops : List SliOp) (ts : ℤ) :
    ((runSli (.init name conds) ops).flush ts).1 = .init name conds := by
  rw [runSli_eq name hc, flush_state, init_eq]

/-- C44: no accepted event raises. -/
theorem C44_accepted (name : Str) (conds : Dict SliCond) (hc : ProperConditions conds) (ops : List SliOp) (fields : List Str)
    (e : Option PyFloat × Num) (he : sliEvent fields = some e) :
    ((runSli (.init name conds) ops).process fields).2 = none := by
  have hf : fields ≠ [] := by rintro rfl; simp [sliEvent] at he
  rw [runSli_eq name hc, process_eq _ _ hf, he]
  simp [update_eq name hc]

/-! ## C45 -/

/-- C45: an event whose size or value is not a number (the value may also be `error`) raises `ValueError` and changes nothing. -/
theorem C45_malformed (r : SliReporter) (fields : List Str) (hf : fields ≠ [])
    (hbad : (fields.length = 3 ∧ parseFloat (fields.getD 2 []) = none) ∨
      (fields.head? ≠ some c!"error" ∧ parseFloat (fields.headD []) = none)) :
    r.process fields = (r, some .valueError) := by
  rw [process_eq r fields hf]
  have : sliEvent fields = none := by
    unfold sliEvent
    rw [if_neg hf]
    rcases hbad with ⟨h1, h2⟩ | ⟨h1, h2⟩
    · have : eventSize fields = none := by unfold eventSize; rw [if_pos h1, h2]; rfl
      rw [this]
    · have : eventValue fields = none := by unfold eventValue; rw [if_neg h1, h2]; rfl
      rw [this]
      cases eventSize fields <;> rfl
  rw [this]

/-- C45: every other event is counted. -/
theorem C45_counted (r : SliReporter) (fields : List Str) (hf : fields ≠ [])
    (h1 : fields.length = 3 → parseFloat (fields.getD 2 []) ≠ none)
    (h2 : fields.head? = some c!"error" ∨ parseFloat (fields.headD []) ≠ none) :
    (r.process fields).1.count = r.count + 1 ∧
    (r.process fields).1.error = r.error + if fields.head? = some c!"error" then 1 else 0 := by
  rw [process_eq r fields hf]
  have he : ∃ v size, sliEvent fields = some (v, size) ∧ (v = none ↔ fields.head? = some c!"error") := by
    obtain ⟨size, hs⟩ : ∃ size, eventSize fields = some size := by
      unfold eventSize
      split
      · rename_i h
        obtain ⟨x, hx⟩ := Option.ne_none_iff_exists'.1 (h1 h)
        exact ⟨_, by rw [hx]; rfl⟩
      · exact ⟨_, rfl⟩
    unfold sliEvent
    rw [hs, if_neg hf]
    by_cases he : fields.head? = some c!"error"
    · have : eventValue fields = some none := by unfold eventValue; rw [if_pos he]
      rw [this]
      exact ⟨none, size, rfl, by simp [he]⟩
    · obtain ⟨x, hx⟩ := Option.ne_none_iff_exists'.1 (h2.resolve_left he)
      have : eventValue fields = some (some x) := by unfold eventValue; rw [if_neg he, hx]; rfl
      rw [this]
      exact ⟨some x, size, rfl, by simp [he]⟩
  obtain ⟨v, size, he, hv⟩ := he
  rw [he]
  simp only
  cases v with
  | none => simp [SliReporter.update, hv.1 rfl]
  | some v =>
    have : ¬ fields.head? = some c!"error" := fun h => by simpa using hv.2 h
    simp [SliReporter.update, this]

/-! ## C46 -/

/-- C46: `above` compares with the line `v + s * size`. -/
theorem C46_above [Exact] (v s x : ℚ) (size : Num) (q : ℚ) (hq : size.toFloat = .fin q) :
    (SliCond.above (.fin v) (.fin s)).call (.fin x) size = .ok (decide (x > v + s * q)) := by
  have : ((Num.flt (.fin s)).mul size).toFloat = .fin (s * q) := by
    cases size <;> simp_all [Num.mul, Num.toFloat, PyFloat.mul, Exact.rnd_eq]
  simp [SliCond.call, this, PyFloat.add, Exact.rnd_eq, PyFloat.lt]

/-- C46: `below` compares with the same line. -/
theorem C46_below [Exact] (v s x : ℚ) (size : Num) (q : ℚ) (hq : size.toFloat = .fin q) :
    (SliCond.below (.fin v) (.fin s)).call (.fin x) size = .ok (decide (x < v + s * q)) := by
  have : ((Num.flt (.fin s)).mul size).toFloat = .fin (s * q) := by
    cases size <;> simp_all [Num.mul, Num.toFloat, PyFloat.mul, Exact.rnd_eq]
  simp [SliCond.call, this, PyFloat.add, Exact.rnd_eq, PyFloat.lt]

/-- C46: `between` excludes both ends, and ignores the size. -/
theorem C46_between (lo hi x : ℚ) (size : Num) :
    (SliCond.between (.fin lo) (.fin hi)).call (.fin x) size = .ok (decide (lo < x ∧ x < hi)) := by
  simp [SliCond.call, PyFloat.lt]

/-- C46: no value, not even a special one, is above and below the same line (whatever the rounding). -/
theorem C46_exclusive (v s x : PyFloat) (size : Num) :
    ¬ ((SliCond.above v s).call x size = .ok true ∧ (SliCond.below v s).call x size = .ok true) := by
  simp only [SliCond.call, Except.ok.injEq]
  generalize v.add ((Num.flt s).mul size).toFloat = l
  rintro ⟨h1, h2⟩
  rcases l with _ | a | a <;> rcases x with _ | b | b <;> simp only [PyFloat.lt, decide_eq_true_eq] at h1 h2
  all_goals first | cases h1; done | cases h2; done | skip
  · cases a <;> cases b <;> revert h1 h2 <;> decide
  · cases a <;> revert h1 h2 <;> decide
  · cases b <;> revert h1 h2 <;> decide
  · exact absurd h1 (not_lt.2 (le_of_lt h2))

/-- C46: not-a-number satisfies no condition. -/
theorem C46_nan (c : SliCond) (size : Num) : c.call .nan size ≠ .ok true := by
  cases c with
  | below v s => simp [SliCond.call, PyFloat.lt]
  | above v s =>
    simp only [SliCond.call, ne_eq, Except.ok.injEq]
    cases v.add ((Num.flt s).mul size).toFloat <;> simp [PyFloat.lt]
  | between lo hi => cases lo <;> simp [SliCond.call, PyFloat.lt]
  | reporter => simp [SliCond.call]

omit [Rounding] in
/-- C46: a new metric has a condition for a label iff some pattern matching its path has one, and it is that of such a pattern. -/
theorem C46_build (cfg : SliConfig) (hw : ∀ pc ∈ cfg, pc.2.keys.Nodup) (pre name label : Str) :
    let path := sliPath pre name
    let found := (buildSli cfg pre name).conditions.find label
    (∀ c, found = some c → ∃ pat conds, (pat, conds) ∈ cfg ∧ GoodPattern pat ∧ ShellMatch pat path ∧ conds.find label = some c) ∧
    ((∃ pat conds c, (pat, conds) ∈ cfg ∧ GoodPattern pat ∧ ShellMatch pat path ∧ conds.find label = some c) → ∃ c, found = some c) := by
  intro path found
  have hfound : found = (gather path cfg []).find label := rfl
  constructor
  · intro c hc
    rw [hfound] at hc
    obtain ⟨pat, conds, h1, h2, h3⟩ := gather_sound path cfg hw label c hc
    exact ⟨pat, conds, h1, ((fnmatch_true _ _).1 h2).1, ((fnmatch_true _ _).1 h2).2, h3⟩
  · rintro ⟨pat, conds, c, h1, h2a, h2b, h3⟩
    have h2 := (fnmatch_true _ _).2 ⟨h2a, h2b⟩
    rw [hfound]
    exact Option.isSome_iff_exists.1 (gather_complete path cfg hw label pat conds h1 h2 (by rw [h3]; rfl))

omit [Rounding] in
/-- C46: a metric starts with all counts zero, under the prefix and name joined by one dot. -/
theorem C46_build_fresh (cfg : SliConfig) (pre name : Str) :
    let r := buildSli cfg pre name
    r.count = 0 ∧ r.error = 0 ∧ (∀ kv ∈ r.counts, kv.2 = 0) ∧ r.counts.keys = r.conditions.keys ∧ r.conditions.keys.Nodup ∧
    (pre = [] → r.name = name) ∧ (∀ p, pre = p ++ c!"." → r.name = p ++ c!"." ++ name) ∧
    (pre ≠ [] → pre.getLast? ≠ some '.' → r.name = pre ++ c!"." ++ name) := by
  intro r
  refine ⟨rfl, rfl, ?_, ?_, gather_wf _ _ _ (by simp [Dict.keys]), ?_, ?_, ?_⟩
  · intro kv h
    simp only [r, buildSli, SliReporter.init, SliReporter.clear, List.mem_map] at h
    obtain ⟨a, _, rfl⟩ := h
    rfl
  · simp [r, buildSli, SliReporter.init, SliReporter.clear, Dict.keys, Function.comp_def]
  · intro h; simp [r, buildSli, SliReporter.init, SliReporter.clear, sliPath, h]
  · rintro p rfl; simp [r, buildSli, SliReporter.init, SliReporter.clear, sliPath]
  · intro h1 h2; simp [r, buildSli, SliReporter.init, SliReporter.clear, sliPath, h1, h2]

/-! ## C82 -/

/-- C82: a rule line `head => label IF kind params` whose parameters make sense stores that condition under the label of the head,
and changes nothing else. -/
theorem C82_rule (cfg : SliConfig) (line head label kind : Str) (params : Str) (c : SliCond)
    (hl : RuleLine line head label kind params) (hm : Means kind (splitOn ' ' params.tail) c) :
    let r := configureRule cfg line
    r.2 = none ∧ (((r.1.find head).bind fun d => d.find label) = some c) ∧
    (∀ label', label' ≠ label → (r.1.find head).bind (fun d => d.find label') = (cfg.find head).bind fun d => d.find label') ∧
    (∀ head', head' ≠ head → r.1.find head' = cfg.find head') := by
  intro r
  have hr : r = (cfg.put head (((cfg.find head).getD []).put label c), none) := by
    simp only [r, configureRule, (matchRule_iff ..).2 hl, buildCond_means hm]
  rw [hr]
  refine ⟨rfl, by simp, ?_, ?_⟩
  · intro l' hne
    simp only [Dict.find_put_self, Option.bind_some]
    rw [Dict.find_put_ne _ _ hne]
    cases cfg.find head <;> simp
  · intro h' hne
    exact Dict.find_put_ne _ _ hne

/-- C82: a line that is not of that form raises `TypeError` and changes nothing. -/
theorem C82_not_a_rule (cfg : SliConfig) (line : Str) (h : ∀ head label kind params, ¬ RuleLine line head label kind params) :
    configureRule cfg line = (cfg, some .typeError) := by
  have : matchRule line = none := by
    cases hm : matchRule line with
    | none => rfl
    | some p =>
      obtain ⟨a, b, c, d⟩ := p
      exact absurd ((matchRule_iff ..).1 hm) (h a b c d)
  simp [configureRule, this]

/-- C82: a line of that form whose condition makes no sense raises the exception that calls for. The head is known from then on,
with the conditions it had; nothing else changes. -/
theorem C82_senseless (cfg : SliConfig) (line head label kind : Str) (params : Str) (e : PyErr)
    (hl : RuleLine line head label kind params) (hs : Senseless kind (splitOn ' ' params.tail) e) :
    let r := configureRule cfg line
    r.2 = some e ∧ r.1.find head = some ((cfg.find head).getD []) ∧ ∀ head', head' ≠ head → r.1.find head' = cfg.find head' := by
  intro r
  have hr : r = (cfg.put head ((cfg.find head).getD []), some e) := by
    simp only [r, configureRule, (matchRule_iff ..).2 hl, buildCond_senseless hs]
  rw [hr]
  exact ⟨rfl, by simp, fun h' hne => Dict.find_put_ne _ _ hne⟩

/-- C82: a kind and its parameters make sense, or are a `metric` with two or three parameters (C83), or make no sense in a way
that calls for one exception. -/
theorem C82_conditions (kind : Str) (params : List Str) :
    ((∃ c, Means kind params c) ∨ kind = c!"metric" ∧ (params.length = 2 ∨ params.length = 3)) ∧ (∀ e, ¬ Senseless kind params e) ∨
    (∃ e, Senseless kind params e ∧ ∀ e', Senseless kind params e' → e' = e) ∧ ∀ c, ¬ Means kind params c := by
  cases h : buildCond kind params with
  | ok c =>
    left
    refine ⟨?_, fun e he => ?_⟩
    · rcases means_of_buildCond h with hm | ⟨hk, hl, _⟩
      · exact .inl ⟨c, hm⟩
      · exact .inr ⟨hk, hl⟩
    · rw [buildCond_senseless he] at h
      cases h
  | error e =>
    right
    refine ⟨⟨e, senseless_of_buildCond h, fun e' he => ?_⟩, fun c hc => ?_⟩
    · rw [buildCond_senseless he] at h
      cases h
      rfl
    · rw [buildCond_means hc] at h
      cases h

omit [Rounding] in
/-- C82: the parts of a rule line are determined by the line. -/
theorem C82_unique (line h l k p h' l' k' p' : Str) (a : RuleLine line h l k p) (b : RuleLine line h' l' k' p') :
    h = h' ∧ l = l' ∧ k = k' ∧ p = p' := by
  have h1 := (matchRule_iff ..).2 a
  have h2 := (matchRule_iff ..).2 b
  rw [h1] at h2
  simpa using h2

/-- C82: the rules are applied in order, and the first line that fails ends the configuration; without a `rules` option nothing
happens. -/
theorem C82_order (cfg : SliConfig) (text line : Str) (before after : List Str)
    (htext : splitOn '\n' (strip text) = before ++ line :: after) (hb : (configureRules cfg before).2 = none) (e : PyErr)
    (he : (configureRule (configureRules cfg before).1 line).2 = some e) :
    configureSli cfg (some text) = ((configureRule (configureRules cfg before).1 line).1, some e) ∧
    configureSli cfg none = (cfg, none) := by
  refine ⟨?_, rfl⟩
  simp only [configureSli, htext]
  clear htext
  induction before generalizing cfg with
  | nil =>
    simp only [List.nil_append, configureRules] at he ⊢
    split
    · rename_i c' e' h
      rw [h] at he ⊢
      simp only [Option.some.injEq] at he
      rw [he]
    · rename_i c' h
      rw [h] at he
      cases he
  | cons l before ih =>
    simp only [List.cons_append, configureRules] at hb he ⊢
    split
    · rename_i c' e' h
      rw [h] at hb
      cases hb
    · rename_i c' h
      rw [h] at hb he
      exact (by rw [h] at *; exact ih c' hb he)

/-! ## C83 -/

/-- C83 (what holds): a rule accepted with a kind other than `metric` stores a condition that can be evaluated on every event. -/
theorem C83_callable_partial (kind : Str) (params : List Str) (c : SliCond) (h : buildCond kind params = .ok c)
    (hk : kind ≠ c!"metric") (v : PyFloat) (size : Num) : ∃ b, c.call v size = .ok b := by
  rcases means_of_buildCond h with hm | ⟨hm, _⟩
  · cases hm <;> exact ⟨_, rfl⟩
  · exact absurd hm hk

/-- C83: a rule of kind `metric` with two parameters is accepted too, and from then on every value event of a matching metric
is counted but raises `TypeError`. -/
theorem C83_metric_rule (a b : Str) (name label : Str) (v : PyFloat) (size : Num) :
    ∃ c, buildCond c!"metric" [a, b] = .ok c ∧
      ((SliReporter.init name [(label, c)]).update (some v) size).2 = some .typeError ∧
      ((SliReporter.init name [(label, c)]).update (some v) size).1.count = 1 :=
  ⟨.reporter, rfl, rfl, rfl⟩

end

section
attribute [local instance] ratRounding

/-- C83 is false in general: this rule is accepted and its condition cannot be evaluated. -/
theorem C83_refuted : ¬ ∀ (line : Str) (head label : Str) (conds : Dict SliCond) (c : SliCond),
    (configureRule [] line).2 = none → (configureRule [] line).1.find head = some conds → conds.find label = some c →
    ∀ v size, ∃ b, c.call v size = .ok b := by
  intro h
  obtain ⟨b, hb⟩ := h c!"x => slow IF metric a b" c!"x" c!"slow" [(c!"slow", .reporter)] .reporter (by decide +kernel)
    (by decide +kernel) (by decide +kernel) (.fin 0) (.int 1)
  simp [SliCond.call] at hb

example : Senseless c!"above" [c!"3", c!"x"] .valueError :=
  .slopedNumber _ _ c!"x" (.inl rfl) (by simp) (by simp) (by decide +kernel)

/-- Three conditions. -/
def exConds : Dict SliCond :=
  [(c!"red", .above (.fin 5) (.fin (1 / 10))), (c!"green", .below (.fin 5) (.fin (1 / 10))), (c!"mid", .between (.fin 1) (.fin 9))]

example : ProperConditions exConds := ⟨by decide, by decide⟩

example : ((runSli (.init c!"m" exConds) [.event [c!"9", c!"sli"], .flush 1, .event [c!"7", c!"sli", c!"30"],
    .event [c!"error", c!"sli"], .event [c!"x", c!"sli"], .event [c!"6", c!"sli"]]).flush 7).2 =
    [⟨c!"m.count_red", .int 1, 7⟩, ⟨c!"m.count_green", .int 1, 7⟩, ⟨c!"m.count_mid", .int 2, 7⟩,
     ⟨c!"m.count", .int 3, 7⟩, ⟨c!"m.error", .int 1, 7⟩] := by decide +kernel

example : sliEvent [c!"7", c!"sli", c!"30"] = some (some (.fin 7), .flt (.fin 30)) := by decide +kernel

example : parseFloat (([c!"7", c!"sli", c!"big"] : List Str).getD 2 []) = none ∧
    parseFloat (([c!"bad", c!"sli"] : List Str).headD []) = none := by decide +kernel

example : (Num.int 1).toFloat = .fin 1 := rfl

example : RuleLine c!"test_o*k => red IF below 5 0.1" c!"test_o*k" c!"red" c!"below" c!" 5 0.1" :=
  ⟨by decide, by decide, by decide, by decide, by decide, by decide, by decide,
   fun c h => by simp at h; subst h; decide⟩

example : Means c!"below" (splitOn ' ' (c!" 5 0.1").tail) (.below (.fin 5) (.fin (1 / 10))) := by
  have h : splitOn ' ' (c!" 5 0.1").tail = [c!"5", c!"0.1"] := by decide +kernel
  rw [h]
  exact .below2 (by decide +kernel) (by decide +kernel)

example : (configureSli [] (some c!"\ntest_o*k => red IF below 5 0.1\ntest_o*k => green IF between 0.1 0.3\nbad line\n")).2 =
    some .typeError := by decide +kernel

example : (buildSli [(c!"*.ok", exConds), (c!"other", [(c!"x", .between (.fin 0) (.fin 1))])] c!"stats.SLI" c!"test.ok").conditions
    = exConds := by decide +kernel

end
end Txstatsd
