import Verif.Lemmas.RouterServer
import Verif.Props.Counters

/-!
# C47-C50, C53, C54: the router
-/

namespace Txstatsd
open Spec

variable {R : Type}

/-- For the examples: a regular expression is a literal prefix, substitution replaces it. -/
def exRx : Regexes Str where
  compile p := some p
  isMatch p key := p.isPrefixOf key
  sub p repl key := some (if p.isPrefixOf key then repl ++ key.drop p.length else key)

/-! ## C47: routing is sequential rewriting -/

/-- C47: with rules that cannot raise, `process_message` sends away exactly what the specification
says, and hands exactly the rewritten metrics, in order, to the processor. -/
theorem C47_route {S : Type} (rx : Regexes R) (rules : List (Rule R)) (h : ∀ r ∈ rules, Sound rx r)
    (proc : S → Str → Metric → S × Outcome) (s : S) (m : Metric) :
    (routeMessage rx rules proc s m).1 = sentAway rx rules [m] ∧
    ((∀ s m, (proc s (textOf m) m).2.exc = none) →
      (routeMessage rx rules proc s m).2.1
          = (routed rx rules [m]).foldl (fun s m => (proc s (textOf m) m).1) s ∧
      (routeMessage rx rules proc s m).2.2.exc = none) := by
  unfold routeMessage
  rw [applyRules_spec h]
  exact ⟨by simp, fun hp => deliver_ok hp s _⟩

/-- C47: seen by a processor that writes down its calls: each rewritten metric arrives once, in
order, with its own text. -/
theorem C47_calls (rx : Regexes R) (rules : List (Rule R)) (h : ∀ r ∈ rules, Sound rx r) (m : Metric) :
    (routeMessage rx rules (fun (s : List (Str × Metric)) t m => (s ++ [(t, m)], {})) [] m).2.1
      = (routed rx rules [m]).map fun m => (textOf m, m) := by
  have h1 := ((C47_route rx rules h
    (fun (s : List (Str × Metric)) t m => (s ++ [(t, m)], {})) [] m).2 (fun _ _ => rfl)).1
  rw [h1]
  have : ∀ (ms : List Metric) (acc : List (Str × Metric)),
      ms.foldl (fun s m => s ++ [(textOf m, m)]) acc = acc ++ ms.map fun m => (textOf m, m) := by
    intro ms
    induction ms with
    | nil => intro acc; simp
    | cons x ms ih => intro acc; rw [List.foldl_cons, ih]; simp
  rw [this, List.nil_append]

/-- C47: an exception of the processor ends the deliveries: the metrics before it were processed, the
ones after it are lost. -/
theorem C47_first_exception {S : Type} (rx : Regexes R) (rules : List (Rule R))
    (h : ∀ r ∈ rules, Sound rx r) (proc : S → Str → Metric → S × Outcome) (s : S) (m x : Metric)
    (before after : List Metric) (e : PyErr) (hr : routed rx rules [m] = before ++ x :: after)
    (hp : ∀ s m, m ∈ before → (proc s (textOf m) m).2.exc = none)
    (he : ∀ s, (proc s (textOf x) x).2.exc = some e) :
    (routeMessage rx rules proc s m).2.1
        = (proc (before.foldl (fun s m => (proc s (textOf m) m).1) s) (textOf x) x).1 ∧
    (routeMessage rx rules proc s m).2.2.exc = some e := by
  have hb : ∀ (ms : List Metric) (s : S), (∀ m ∈ ms, m ∈ before) →
      (deliver proc s ms).1 = ms.foldl (fun s m => (proc s (textOf m) m).1) s ∧
      (deliver proc s ms).2.exc = none := by
    intro ms
    induction ms with
    | nil => intro s _; exact ⟨rfl, rfl⟩
    | cons y ms ih =>
      intro s hm
      simp only [deliver, rebuild_eq, hp s y (hm y (by simp))]
      exact ih _ (fun z hz => hm z (by simp [hz]))
  obtain ⟨h1, h2⟩ := hb before s (fun _ hz => hz)
  unfold routeMessage
  rw [applyRules_spec h, hr]
  have := deliver_stop s before x after e h2 (he _)
  rw [h1] at this
  exact this

/-- C47: without rules a message is processed as if there were no router: same state, same
exception. -/
theorem C47_no_rules [Rounding] {C T G PF PM : Type} (I : Impl C T G PF PM) (hI : TextFree I)
    (w : World) (s : PS C T G PF PM) (rx : Regexes R) (message : Str) :
    (routeText rx [] (processMessage I w) s message).1 = [] ∧
    (routeText rx [] (processMessage I w) s message).2.1 = (process I w s message).1 ∧
    (routeText rx [] (processMessage I w) s message).2.2.exc = (process I w s message).2.exc := by
  unfold routeText process
  cases hp : parseMessage message with
  | none => exact ⟨rfl, rfl, rfl⟩
  | some m =>
    have ht := processMessage_text hI w s (rebuildMessage m.mtype m.key m.fields) message m
    simp only [routeMessage, applyRules, deliver]
    refine ⟨trivial, ?_, ?_⟩
    · split
      · exact ht.1
      · exact ht.1
    · rw [← ht.2]
      split
      · rfl
      · next hx => exact hx.symm

/-- C47: what happens without the hypotheses: a matching redirect of a router without a service
raises `TypeError`; the processor sees nothing of the message. -/
theorem C47_inert_raises {S : Type} (rx : Regexes R) (c : Cond) (hc : GoodPatterns c)
    (rules : List (Rule R)) (proc : S → Str → Metric → S × Outcome) (s : S) (m : Metric)
    (hm : Holds c m) :
    routeMessage rx (⟨c, .inert⟩ :: rules) proc s m = ([], s, { exc := some .typeError }) := by
  unfold routeMessage
  simp [applyRules, applyRule, eval_decide hc, hm, Target.run]

example : Sound exRx ⟨.not (.pathLike c!"a.*"), .rewrite c!"b" c!"c" true⟩ :=
  ⟨goodPattern_plain (by decide), fun _ => rfl⟩

example [Rounding] : TextFree (messageProcessor noPlugins) := textFree_messageProcessor noPlugins

example : (routeText exRx [⟨.metricType [c!"c"], .rewrite c!"a" c!"b" true⟩,
      ⟨.pathLike c!"a*", .redirect ⟨false, c!"h", 1⟩⟩, ⟨.pathLike c!"a*", .drop⟩]
      (fun (s : List Str) t _ => (s ++ [t], {})) [] c!"ax:1|c") =
    ([(⟨false, c!"h", 1⟩, c!"ax:1|c")], [c!"bx:1|c"], { bad := [], exc := none }) := by decide +kernel

/-! ## C48: drop stops processing -/

/-- C48: behind a drop rule the remaining rules behave as if the matching metrics had never
existed: they are neither delivered nor redirected. -/
theorem C48_drop (rx : Regexes R) (before after : List (Rule R)) (c : Cond) (hc : GoodPatterns c)
    (hb : ∀ r ∈ before, Sound rx r) (ha : ∀ r ∈ after, Sound rx r) (m : Metric) :
    ∃ survivors, survivors.Sublist (routed rx before [m]) ∧
      (∀ x, x ∈ survivors ↔ x ∈ routed rx before [m] ∧ ¬ Holds c x) ∧
      applyRules rx (before ++ ⟨c, .drop⟩ :: after) [m] []
        = (sentAway rx before [m] ++ sentAway rx after survivors, .ok (routed rx after survivors)) := by
  classical
  refine ⟨(routed rx before [m]).filter (fun x => ¬ Holds c x), List.filter_sublist, by simp, ?_⟩
  have hd : Sound rx (⟨c, .drop⟩ : Rule R) := ⟨hc, trivial⟩
  have hs : ∀ r ∈ before ++ ⟨c, .drop⟩ :: after, Sound rx r := by
    intro r hr
    rcases List.mem_append.1 hr with h | h
    · exact hb r h
    · rcases List.mem_cons.1 h with rfl | h
      · exact hd
      · exact ha r h
  have hw : ∀ ms : List Metric, rewriteBy rx (⟨c, .drop⟩ : Rule R) ms = ms.filter (fun x => ¬ Holds c x) := by
    intro ms
    induction ms with
    | nil => rfl
    | cons x ms ih =>
      simp only [rewriteBy, List.flatMap_cons, outputs] at ih ⊢
      rw [ih, List.filter_cons]
      by_cases hx : Holds c x <;> simp [hx]
  have hcp : ∀ ms : List Metric, copiesBy (⟨c, .drop⟩ : Rule R) ms = [] := by
    intro ms
    simp [copiesBy, copies]
  rw [applyRules_spec hs, List.nil_append, sentAway_append, routed_append, sentAway, routed_cons, hw, hcp,
    List.nil_append]

/-- C48: if the drop rule matches all that is left, the message has no effect on the processor. -/
theorem C48_dropped {S : Type} (rx : Regexes R) (before after : List (Rule R)) (c : Cond)
    (hc : GoodPatterns c) (hb : ∀ r ∈ before, Sound rx r) (ha : ∀ r ∈ after, Sound rx r)
    (proc : S → Str → Metric → S × Outcome) (s : S) (m : Metric)
    (hm : ∀ x ∈ routed rx before [m], Holds c x) :
    routeMessage rx (before ++ ⟨c, .drop⟩ :: after) proc s m = (sentAway rx before [m], s, {}) := by
  obtain ⟨sv, _, hsv, he⟩ := C48_drop rx before after c hc hb ha m
  have hnil : sv = [] := by
    rw [List.eq_nil_iff_forall_not_mem]
    intro x hx
    obtain ⟨h1, h2⟩ := (hsv x).1 hx
    exact h2 (hm x h1)
  unfold routeMessage
  rw [he, hnil, routed_nil, sentAway_nil, List.append_nil]
  rfl

/-- C48: a metric that no rule's condition holds of arrives unchanged, and nothing is redirected. -/
theorem C48_unmatched {S : Type} (rx : Regexes R) (rules : List (Rule R))
    (hs : ∀ r ∈ rules, GoodPatterns r.cond) (proc : S → Str → Metric → S × Outcome) (s : S)
    (m : Metric) (hm : ∀ r ∈ rules, ¬ Holds r.cond m) :
    routeMessage rx rules proc s m = ([], deliver proc s [m]) := by
  have : applyRules rx rules [m] [] = ([], .ok [m]) := by
    induction rules with
    | nil => rfl
    | cons r rs ih =>
      simp only [applyRules, List.isEmpty_cons, Bool.false_eq_true, if_false, applyRule,
        eval_decide (hs r (by simp)), hm r (by simp), decide_false, List.nil_append]
      exact ih (fun r' h' => hs r' (by simp [h'])) (fun r' h' => hm r' (by simp [h']))
  unfold routeMessage
  rw [this]

example : (routeText exRx [⟨.any, .rewrite c!"a" c!"b" true⟩, ⟨.not (.metricType [c!"g"]), .drop⟩,
      ⟨.any, .redirect ⟨true, c!"h", 1⟩⟩]
      (fun (s : List Str) t _ => (s ++ [t], {})) [] c!"ax:1|c") =
    ([], [], { bad := [], exc := none }) := by decide +kernel

/-! ## C49: the condition algebra -/

/-- C49: a text whose words express a condition builds a condition function that never raises (on
patterns without classes) and decides exactly that condition. -/
theorem C49_condition (text : Str) (ws : List Str) (c : Cond) (hw : Words text ws)
    (hc : CondWords ws c) (hp : GoodPatterns c) :
    buildCondition (parts text) = .ok c ∧
      ∀ m, ∃ b, c.eval m = .ok b ∧ (b = true ↔ Holds c m) :=
  ⟨by rw [words_iff.1 hw]; exact buildCondition_iff.2 hc, fun m => eval_iff hp m⟩

/-- C49: `not` in front of a text negates the condition the rest of the text expresses (texts
without tabs and the like). -/
theorem C49_not (text : Str) (ht : ∀ c ∈ text, White c → c = ' ') (c : Cond)
    (h : buildCondition (parts text) = .ok c) :
    buildCondition (parts (c!"not " ++ text)) = .ok (.not c) := by
  have hp : parts (c!"not " ++ text) = c!"not" :: parts text := by
    have := parts_word (w := c!"not") (rest := ' ' :: text) (by decide) (by decide) (by simp)
    rw [parts_space] at this
    exact this
  have hne : nonEmpty (parts text) = parts text := by
    unfold nonEmpty
    rw [List.filter_eq_self]
    intro w hw
    obtain ⟨p, hp, rfl⟩ := List.mem_map.1 hw
    obtain ⟨hp1, hp2⟩ := List.mem_filter.1 hp
    have hsp : ∀ c ∈ p, isSpace c = false := by
      intro c hc
      rw [isSpace_false_iff]
      intro hwc
      have hct : c ∈ text := mem_of_mem_splitOn hp1 hc
      have := ht c hct hwc
      subst this
      exact splitOn_parts ' ' text p hp1 hc
    rw [strip_noSpace hsp]; exact hp2
  rw [hp, buildCondition, if_neg (by decide), if_pos rfl, hne, h]
  rfl

/-- `n` times `not `, then `any`. -/
def nots : Nat → Str
  | 0 => c!"any"
  | n + 1 => c!"not " ++ nots n

/-- C49: to any nesting depth: `not not … any` holds iff the number of `not`s is even. -/
theorem C49_depth (n : Nat) (m : Metric) :
    ∃ c, buildCondition (parts (nots n)) = .ok c ∧ c.eval m = .ok (decide (n % 2 = 0)) := by
  have key : ∀ n, (∀ c ∈ nots n, White c → c = ' ') ∧
      ∃ c, buildCondition (parts (nots n)) = .ok c ∧ c.eval m = .ok (decide (n % 2 = 0)) := by
    intro n
    induction n with
    | zero =>
      refine ⟨by decide, .any, by decide +kernel, rfl⟩
    | succ n ih =>
      obtain ⟨h1, c, h2, h3⟩ := ih
      refine ⟨?_, .not c, C49_not (nots n) h1 c h2, ?_⟩
      · intro c hc hw
        rcases List.mem_append.1 hc with hc | hc
        · have : ∀ c ∈ c!"not ", White c → c = ' ' := by decide
          exact this c hc hw
        · exact h1 c hc hw
      · simp only [Cond.eval, h3, Except.map]
        congr 1
        rw [Bool.eq_iff_iff]
        simp only [Bool.not_eq_true', decide_eq_false_iff_not, decide_eq_true_eq]
        omega
  exact (key n).2

example : Words c!" not  metric_type c ms" [c!"not", c!"metric_type", c!"c", c!"ms"] :=
  words_iff.2 (by decide +kernel)

example : CondWords [c!"not", c!"metric_type", c!"c", c!"ms"] (.not (.metricType [c!"c", c!"ms"])) :=
  .not _ _ (.metricType _)

/-! ## C50: redirects and the metric type -/

/-- C50: whatever the rules do, a redirected text parses to the type and the fields of the message
that came in: `set_metric_type` does not reach it. -/
theorem C50_original_type (rx : Regexes R) (rules : List (Rule R)) (hs : ∀ r ∈ rules, Sound rx r)
    (hl : LegalRewrites rx rules) (msg : Str) (m : Metric) (hm : parseMessage msg = some m)
    {S : Type} (proc : S → Str → Metric → S × Outcome) (s : S) :
    ∀ x ∈ (routeText rx rules proc s msg).1,
      ∃ key, parseMessage x.2 = some ⟨m.mtype, key, m.fields⟩ := by
  intro x hx
  rw [show routeText rx rules proc s msg = routeMessage rx rules proc s m by simp [routeText, hm],
    (C47_route rx rules hs proc s m).1] at hx
  have hk : ∀ c ∈ m.key, Legal c := by
    obtain ⟨raw, _, hkey⟩ := (parseMessage_spec msg m).1 hm
    intro c hc
    rw [hkey, ← normalizeKey_eq] at hc
    exact legal_of_mem_normalizeKey hc
  obtain ⟨m', e, hf, hk'⟩ := sentAway_keep hs hl (fields := m.fields) (ms := [m])
    (by intro y hy; simp only [List.mem_singleton] at hy; subst hy; exact ⟨rfl, hk⟩) x hx
  exact ⟨m'.key, by rw [e, parse_textOf hm hk' hf]⟩

/-- C50, full statement: a metric of type `t` reaching a redirect is redirected as a text of type
`t`. This theorem: it is, if no rule sets a type. Missing: rules with `set_metric_type`, for which the
statement is false (`C50_refuted`). -/
theorem C50_redirect_type_partial (rx : Regexes R) (before : List (Rule R)) (sink : Sink)
    (hs : ∀ r ∈ before, Sound rx r) (hl : LegalRewrites rx before)
    (ht : ∀ r ∈ before, ∀ t d, r.target ≠ .setType t d)
    (msg : Str) (m : Metric) (hm : parseMessage msg = some m) :
    ∀ x ∈ routed rx before [m], x.mtype = m.mtype ∧
      ((Target.redirect sink : Target R).run rx x).1 = [(sink, textOf x)] ∧
      (parseMessage (textOf x)).map Metric.mtype = some x.mtype := by
  have hk : ∀ c ∈ m.key, Legal c := by
    obtain ⟨raw, _, hkey⟩ := (parseMessage_spec msg m).1 hm
    intro c hc
    rw [hkey, ← normalizeKey_eq] at hc
    exact legal_of_mem_normalizeKey hc
  have key : ∀ (rs : List (Rule R)) (ms : List Metric), (∀ r ∈ rs, Sound rx r) →
      LegalRewrites rx rs → (∀ r ∈ rs, ∀ t d, r.target ≠ .setType t d) →
      (∀ y ∈ ms, y.mtype = m.mtype ∧ y.fields = m.fields ∧ ∀ c ∈ y.key, Legal c) →
      ∀ y ∈ routed rx rs ms, y.mtype = m.mtype ∧ y.fields = m.fields ∧ ∀ c ∈ y.key, Legal c := by
    intro rs
    induction rs with
    | nil => intro ms _ _ _ h; exact h
    | cons r rs ih =>
      intro ms h1 h2 h3 h4
      rw [routed_cons]
      have h2' : LegalRewrites rx [r] := fun r' h' => by
        simp only [List.mem_singleton] at h'; subst h'; exact h2 _ (by simp)
      have hkeep := rewriteBy_keep (h1 r (by simp)) h2' (fun y hy => (h4 y hy).2)
      refine ih _ (fun r' h' => h1 r' (by simp [h'])) (fun r' h' => h2 r' (by simp [h']))
        (fun r' h' => h3 r' (by simp [h'])) ?_
      intro y hy
      refine ⟨?_, hkeep y hy⟩
      obtain ⟨z, hz, hy⟩ := List.mem_flatMap.1 hy
      split at hy
      · have hno := h3 r (by simp)
        have hzt := (h4 z hz).1
        cases htr : r.target with
        | drop => rw [htr] at hy; simp [outputs] at hy
        | rewrite rexp repl dup =>
          rw [htr] at hy
          simp only [outputs] at hy
          split at hy
          · simp only [List.mem_cons, List.not_mem_nil, or_false] at hy
            rcases hy with rfl | rfl <;> exact hzt
          · simp only [List.mem_cons, List.not_mem_nil, or_false] at hy
            subst hy; exact hzt
        | setType t d => exact absurd htr (hno t d)
        | redirect _ => rw [htr] at hy; simp only [outputs, List.mem_singleton] at hy; subst hy; exact hzt
        | inert => rw [htr] at hy; simp only [outputs, List.mem_singleton] at hy; subst hy; exact hzt
      · simp only [List.mem_singleton] at hy; subst hy; exact (h4 _ hz).1
  intro x hx
  obtain ⟨h1, h2, h3⟩ := key before [m] hs hl ht
    (by intro y hy; simp only [List.mem_singleton] at hy; subst hy; exact ⟨rfl, rfl, hk⟩) x hx
  refine ⟨h1, by simp [Target.run, rebuild_eq], ?_⟩
  rw [parse_textOf hm h3 h2, h1]; rfl

/-- The rules text of the counterexample. -/
def exTypeRules : Str := c!"any => set_metric_type ms\nany => redirect_udp host 8125"

/-- C50 is false: with the rules above, `a:1|c` reaches the processor as a timer but is redirected as
the text `a:1|c`, a counter. -/
theorem C50_refuted :
    ¬ ∀ (rules : List (Rule Str)) (msg t : Str) (x : Sink × Str),
      buildRules exRx true (c!"any => set_metric_type " ++ t ++ c!"\nany => redirect_udp host 8125") = .ok rules →
      x ∈ (routeText exRx rules (fun (s : List Metric) _ m => (s ++ [m], {})) [] msg).1 →
      (parseMessage x.2).map Metric.mtype = some t := by
  intro h
  have := h [⟨.any, .setType c!"ms" false⟩, ⟨.any, .redirect ⟨false, c!"host", 8125⟩⟩] c!"a:1|c" c!"ms"
    (⟨false, c!"host", 8125⟩, c!"a:1|c") ?_ ?_
  · revert this; decide +kernel
  · have : buildRules exRx true exTypeRules
        = .ok [⟨.any, .setType c!"ms" false⟩, ⟨.any, .redirect ⟨false, c!"host", 8125⟩⟩] := by decide +kernel
    exact this
  · decide +kernel

/-- The processor sees the new type, the other server the old one. -/
example : routeText exRx [⟨.any, .setType c!"ms" false⟩, ⟨.any, .redirect ⟨false, c!"host", 8125⟩⟩]
    (fun (s : List Metric) _ m => (s ++ [m], {})) [] c!"a:1|c"
    = ([(⟨false, c!"host", 8125⟩, c!"a:1|c")], [⟨c!"ms", c!"a", [c!"1", c!"c"]⟩], {}) := by
  decide +kernel

example : LegalRewrites exRx [⟨.any, .rewrite c!"a" c!"b" false⟩] := by
  intro r hr
  simp only [List.mem_singleton] at hr
  subst hr
  intro key k hk h c hc
  simp only [exRx, Option.some.injEq] at h
  subst h
  split at hc
  · rcases List.mem_append.1 hc with hc | hc
    · have : ∀ c ∈ c!"b", Legal c := by decide
      exact this c hc
    · exact hk c (List.mem_of_mem_drop hc)
  · exact hk c hc

/-! ## C53: glob conditions -/

/-- C53: every pattern has exactly one reading. If a class in it has a range in the wrong order, `path_like p` always raises;
otherwise it never raises, and holds of a key iff the key fits the reading. -/
theorem C53_path_like (p : Str) : ∃ ps, Reads p ps ∧ (∀ ps', Reads p ps' → ps' = ps) ∧ ∀ m : Metric,
    (Disordered ps → (Cond.pathLike p).eval m = .error .otherError) ∧
    (¬ Disordered ps → ∃ b, (Cond.pathLike p).eval m = .ok b ∧ (b = true ↔ Fits ps m.key)) := by
  obtain ⟨ps, h1, h2, h3⟩ := fnmatch_full p
  exact ⟨ps, h1, h2, fun m => h3 m.key⟩

/-- C53: without brackets it never raises, and decides the shell match. -/
theorem C53_plain (p : Str) (hp : '[' ∉ p) (m : Metric) :
    ∃ b, (Cond.pathLike p).eval m = .ok b ∧ (b = true ↔ GlobMatch p m.key) := by
  obtain ⟨b, e, hb⟩ := fnmatch_good (goodPattern_plain hp) m.key
  exact ⟨b, e, hb.trans (shell_plain hp m.key)⟩

/-- `[]a-c!]?[` reads as: a bracket, a letter from a to c or an exclamation mark; any character; an opening bracket. -/
example : Reads c!"[]a-c!]?[" [.oneOf false [(']', ']'), ('a', 'c'), ('!', '!')], .one, .char '['] := by
  have h : Reads c!"?[" [.one, .char '['] := .one _ _ (.bracket [] [] (by
    intro neg body q _ h; have := congrArg List.length h; simp [classAnd] at this) .nil)
  refine .oneOf false c!"]a-c!" _ _ _ ⟨by decide, by decide, by decide⟩ ?_ h
  refine .single _ _ _ (by intro b r; simp) (.range _ _ _ _ (.single _ _ _ (by intro b r; simp) .nil))

/-- C53: with a character class `[abc]` or `[!abc]` in front: one character (not) in the class, then
the rest of the pattern. -/
theorem C53_class (neg : Bool) (body p : Str) (m : Metric) (hne : body ≠ []) (h1 : ']' ∉ body)
    (h2 : neg = false → body.head? ≠ some '!') (h3 : '-' ∉ body) (h4 : '[' ∉ p) :
    (Cond.pathLike ('[' :: ((if neg then ['!'] else []) ++ body ++ ']' :: p))).eval m = .ok true ↔
      ∃ c s, m.key = c :: s ∧ (c ∈ body ↔ neg = false) ∧ GlobMatch p s :=
  fnmatch_class hne h1 h2 h3 h4

/-- C53: a pattern without special characters matches only itself. -/
theorem C53_literal (p : Str) (hp : ∀ c ∈ p, c ≠ '*' ∧ c ≠ '?') (s : Str) :
    GlobMatch p s ↔ s = p := by
  induction p generalizing s with
  | nil =>
    constructor
    · intro h; cases h; rfl
    · rintro rfl; exact .nil
  | cons c p ih =>
    have hc := hp c (by simp)
    have ih' := fun s => ih (fun d hd => hp d (by simp [hd])) s
    constructor
    · intro h
      generalize hx : c :: p = x at h
      cases h with
      | nil => cases hx
      | star => cases hx; exact absurd rfl hc.1
      | one => cases hx; exact absurd rfl hc.2
      | lit _ _ _ _ _ h => cases hx; rw [(ih' _).1 h]
    · rintro rfl; exact .lit c p p hc.1 hc.2 ((ih' p).2 rfl)

/-- C53: a trailing `*` is a prefix test. -/
theorem C53_prefix (p : Str) (hp : ∀ c ∈ p, c ≠ '*' ∧ c ≠ '?') (s : Str) :
    GlobMatch (p ++ ['*']) s ↔ p <+: s := by
  induction p generalizing s with
  | nil =>
    constructor
    · intro _; exact List.nil_prefix
    · intro _
      have := GlobMatch.star s [] [] .nil
      rw [List.append_nil] at this; exact this
  | cons c p ih =>
    have hc := hp c (by simp)
    have ih' := fun s => ih (fun d hd => hp d (by simp [hd])) s
    constructor
    · intro h
      generalize hx : (c :: p) ++ ['*'] = x at h
      cases h with
      | nil => cases hx
      | star => cases hx; exact absurd rfl hc.1
      | one => cases hx; exact absurd rfl hc.2
      | lit _ _ _ _ _ h => cases hx; rw [List.cons_prefix_cons]; exact ⟨rfl, (ih' _).1 h⟩
    · intro h
      obtain ⟨t, rfl⟩ := h
      exact .lit c _ _ hc.1 hc.2 ((ih' _).2 ⟨t, rfl⟩)

example : (Cond.pathLike c!"a.*.c?").eval ⟨c!"c", c!"a.b.b.cd", []⟩ = .ok true := by decide +kernel
example : (Cond.pathLike c!"a.*.c?").eval ⟨c!"c", c!"a.b.b.c", []⟩ = .ok false := by decide +kernel
example : (Cond.pathLike c!"[!ab]*").eval ⟨c!"c", c!"cab", []⟩ = .ok true := by decide +kernel

/-! ## C54: rule texts are validated -/

/-- C54: a rules text builds exactly when every non-empty line expresses a rule, and then the rules
are those of the non-empty lines, in order. -/
theorem C54_rules (rx : Regexes R) (service : Bool) (lines : List Str) (hne : lines ≠ [])
    (hl : ∀ l ∈ lines, '\n' ∉ l) (rules : List (Rule R)) :
    buildRules rx service (['\n'].intercalate lines) = .ok rules ↔
      List.Forall₂ (RuleText rx service) (lines.filter (· ≠ [])) rules := by
  unfold buildRules
  rw [← joinWith_eq, splitOn_join hne hl, buildLines_iff]

/-- C54: every text is such a sequence of lines. -/
theorem C54_lines (text : Str) :
    ∃ lines, lines ≠ [] ∧ (∀ l ∈ lines, '\n' ∉ l) ∧ text = ['\n'].intercalate lines :=
  ⟨splitOn '\n' text, splitOn_ne_nil _ _, splitOn_parts _ _, by rw [← joinWith_eq, join_splitOn]⟩

/-- C54: the number of rules is the number of non-empty lines. -/
theorem C54_count (rx : Regexes R) (service : Bool) (lines : List Str) (hne : lines ≠ [])
    (hl : ∀ l ∈ lines, '\n' ∉ l) (rules : List (Rule R))
    (h : buildRules rx service (['\n'].intercalate lines) = .ok rules) :
    rules.length = (lines.filter (· ≠ [])).length :=
  ((C54_rules rx service lines hne hl rules).1 h).length_eq.symm

/-- C54: every line expresses a rule or is wrong in exactly one way. -/
theorem C54_faults (rx : Regexes R) (service : Bool) (l : Str) :
    (∃ rule, RuleText rx service l rule ∧ ∀ e, ¬ RuleFault rx service l e) ∨
    ∃ e, RuleFault rx service l e ∧ (∀ e', RuleFault rx service l e' → e' = e) ∧ ∀ rule, ¬ RuleText rx service l rule := by
  cases h : buildRule rx service l with
  | ok rule =>
    refine .inl ⟨rule, buildRule_iff.1 h, fun e he => ?_⟩
    rw [buildRule_fault.2 he] at h
    cases h
  | error e =>
    refine .inr ⟨e, buildRule_fault.1 h, fun e' he => ?_, fun rule hr => ?_⟩
    · rw [buildRule_fault.2 he] at h
      cases h
      rfl
    · rw [buildRule_iff.2 hr] at h
      cases h

/-- C54: otherwise construction raises what the first wrong line calls for. -/
theorem C54_raises (rx : Regexes R) (service : Bool) (before after : List Str) (l : Str)
    (hl : ∀ x ∈ before ++ l :: after, '\n' ∉ x)
    (hb : ∀ x ∈ before, x = [] ∨ ∃ rule, RuleText rx service x rule) (hne : l ≠ [])
    (e : PyErr) (hf : RuleFault rx service l e) :
    buildRules rx service (['\n'].intercalate (before ++ l :: after)) = .error e := by
  unfold buildRules
  rw [← joinWith_eq, splitOn_join (by simp) hl, buildLines_fault hb hne hf]

example : RuleText exRx true c!"not path_like a.* => redirect_tcp h 80"
    ⟨.not (.pathLike c!"a.*"), .redirect ⟨true, c!"h", 80⟩⟩ :=
  buildRule_iff.1 (by decide +kernel)

example : RuleFault exRx true c!"any => redirect_udp h x" .valueError := buildRule_fault.1 (by decide +kernel)
example : RuleFault exRx true c!"not not path_like => drop" .typeError := buildRule_fault.1 (by decide +kernel)
example : buildRules exRx true c!"any => drop => drop" = .error .valueError := by decide +kernel
example : buildRules exRx true c!"any x => drop" = .error .typeError := by decide +kernel
example : buildRules exRx true c!"any =>" = .error .indexError := by decide +kernel

end Txstatsd
