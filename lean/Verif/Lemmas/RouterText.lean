import Verif.Lemmas.Router

/-!
# Building rules from their text
-/

set_option linter.unusedSectionVars false
set_option linter.unusedSimpArgs false
set_option linter.unusedVariables false

namespace Txstatsd
open Spec

variable {R : Type}

/-! ## Words -/

theorem mem_of_mem_splitOn {c d : Char} {s p : Str} (hp : p ∈ splitOn d s) (hc : c ∈ p) : c ∈ s := by
  induction s generalizing p with
  | nil => simp [splitOn] at hp; subst hp; simp at hc
  | cons x s ih =>
    rw [splitOn] at hp
    split at hp
    · rcases List.mem_cons.1 hp with rfl | hp
      · simp at hc
      · exact List.mem_cons_of_mem _ (ih hp hc)
    · split at hp
      · simp only [List.mem_singleton] at hp; subst hp
        simp only [List.mem_singleton] at hc; simp [hc]
      · next h t hs =>
        rcases List.mem_cons.1 hp with rfl | hp
        · rcases List.mem_cons.1 hc with rfl | hc
          · simp
          · exact List.mem_cons_of_mem _ (ih (p := h) (by rw [hs]; simp) hc)
        · exact List.mem_cons_of_mem _ (ih (by rw [hs]; simp [hp]) hc)

theorem parts_space (s : Str) : parts (' ' :: s) = parts s := by
  simp [parts, splitOn]

theorem parts_spaces {pre : Str} (h : ∀ c ∈ pre, c = ' ') (s : Str) : parts (pre ++ s) = parts s := by
  induction pre with
  | nil => rfl
  | cons c pre ih =>
    have : c = ' ' := h c (by simp)
    subst this
    rw [List.cons_append, parts_space, ih (fun c hc => h c (by simp [hc]))]

theorem parts_nil : parts [] = [] := by simp [parts, splitOn]

theorem parts_word {w rest : Str} (hne : w ≠ []) (hw : ' ' ∉ w)
    (hr : ∀ c, rest.head? = some c → c = ' ') : parts (w ++ rest) = strip w :: parts rest := by
  cases rest with
  | nil =>
    rw [List.append_nil, parts_nil]
    simp [parts, splitOn_of_not_mem hw, hne]
  | cons c r =>
    have : c = ' ' := hr c rfl
    subst this
    rw [parts_space]
    simp only [parts, splitOn_append hw]
    simp [List.filter_cons, hne]

theorem parts_of_words {s : Str} {ws : List Str} (h : Words s ws) : parts s = ws := by
  induction h with
  | blank s h =>
    have := parts_spaces h []
    rw [List.append_nil] at this
    rw [this, parts_nil]
  | word pre w w' rest ws hp hne hw hr hst _ ih =>
    rw [List.append_assoc, parts_spaces hp, parts_word hne hw hr, strip_of_stripped hst, ih]

theorem words_exists (s : Str) : ∃ ws, Words s ws := by
  generalize hn : s.length = n
  induction n using Nat.strong_induction_on generalizing s with
  | _ n ih =>
    set pre := s.takeWhile (· == ' ') with hpre
    set t := s.dropWhile (· == ' ') with ht
    have hs : s = pre ++ t := (List.takeWhile_append_dropWhile).symm
    have hp : ∀ c ∈ pre, c = ' ' := by
      intro c hc
      have := List.mem_takeWhile_imp hc
      simpa using this
    by_cases hte : t = []
    · exact ⟨[], by rw [hs, hte, List.append_nil]; exact .blank _ hp⟩
    · set w := t.takeWhile (· != ' ') with hw
      set rest := t.dropWhile (· != ' ') with hrest
      have htt : t = w ++ rest := (List.takeWhile_append_dropWhile).symm
      have hhead : t.head? ≠ some ' ' := by
        have := List.head?_dropWhile_not (p := (· == ' ')) s
        intro hh
        rw [← ht, hh] at this
        simp at this
      have hwne : w ≠ [] := by
        cases htc : t with
        | nil => exact absurd htc hte
        | cons c t' =>
          have : c ≠ ' ' := by intro e; rw [htc, e] at hhead; exact hhead rfl
          rw [hw, htc, List.takeWhile_cons]
          simp [this]
      have hwsp : ' ' ∉ w := by
        intro hc
        have := List.mem_takeWhile_imp hc
        simp at this
      have hrh : ∀ c, rest.head? = some c → c = ' ' := by
        intro c hc
        have := List.head?_dropWhile_not (p := (· != ' ')) t
        rw [← hrest, hc] at this
        simpa using this
      have hlen : rest.length < n := by
        have h1 := congrArg List.length hs
        have h2 := congrArg List.length htt
        simp only [List.length_append] at h1 h2
        have : 0 < w.length := List.length_pos_iff.2 hwne
        omega
      obtain ⟨ws, hws⟩ := ih _ hlen rest rfl
      refine ⟨strip w :: ws, ?_⟩
      have := Words.word pre w (strip w) rest ws hp hwne hwsp hrh (strip_spec w) hws
      rw [hs, htt, ← List.append_assoc]; exact this

theorem words_iff {s : Str} {ws : List Str} : Words s ws ↔ parts s = ws := by
  refine ⟨parts_of_words, ?_⟩
  rintro rfl
  obtain ⟨ws, h⟩ := words_exists s
  rw [parts_of_words h]; exact h

/-! ## Conditions -/

theorem nonEmpty_eq (ws : List Str) : nonEmpty ws = ws.filter (· ≠ []) := by
  unfold nonEmpty
  apply List.filter_congr
  intro x _
  cases x <;> simp

theorem buildCondition_iff {ws : List Str} {c : Cond} :
    buildCondition ws = .ok c ↔ CondWords ws c := by
  constructor
  · intro h
    generalize hn : ws.length = n
    induction n using Nat.strong_induction_on generalizing ws c with
    | _ n ih =>
      unfold buildCondition at h
      split at h
      · cases h
      · next name args =>
        split at h
        · next hn1 =>
          subst hn1
          split at h
          · next he => cases h; rw [List.isEmpty_iff.1 he]; exact .any
          · cases h
        · split at h
          · next hn2 =>
            subst hn2
            cases hb : buildCondition (nonEmpty args) with
            | error e => rw [hb] at h; simp [Except.map] at h
            | ok c' =>
              rw [hb] at h; simp only [Except.map, Except.ok.injEq] at h
              subst h
              refine .not args c' ?_
              rw [← nonEmpty_eq]
              have hl : (nonEmpty args).length < n := by
                have := List.length_filter_le (fun p : Str => !p.isEmpty) args
                rw [← hn]; simp only [List.length_cons, nonEmpty]; omega
              exact ih _ hl hb rfl
          · split at h
            · next hn3 => subst hn3; cases h; exact .metricType args
            · split at h
              · next hn4 =>
                subst hn4
                unfold buildPathLike at h
                split at h
                · cases h; exact .pathLike _
                · cases h
              · cases h
  · intro h
    induction h with
    | any => rw [buildCondition]; rfl
    | not ws c _ ih =>
      rw [buildCondition, if_neg (by decide), if_pos rfl, nonEmpty_eq, ih]; rfl
    | metricType types =>
      rw [buildCondition, if_neg (by decide), if_neg (by decide), if_pos rfl]
    | pathLike pattern =>
      rw [buildCondition, if_neg (by decide), if_neg (by decide), if_neg (by decide), if_pos rfl]
      rfl

/-- `not` in the text: joining the arguments with spaces and splitting them again
(router.py:178-179, 220) gives the non-empty ones, which is what the model recurses on. -/
theorem parts_join {ws : List Str} (h : ∀ w ∈ ws, ' ' ∉ w ∧ strip w = w) :
    parts (joinWith [' '] ws) = nonEmpty ws := by
  induction ws with
  | nil => simp [joinWith, parts_nil, nonEmpty]
  | cons w ws ih =>
    have hw := h w (by simp)
    have hws : ∀ w ∈ ws, ' ' ∉ w ∧ strip w = w := fun x hx => h x (by simp [hx])
    have hcons : parts (joinWith [' '] (w :: ws))
        = (if w = [] then [] else [w]) ++ parts (joinWith [' '] ws) := by
      cases ws with
      | nil =>
        simp only [joinWith, parts_nil, List.append_nil]
        split
        · next e => rw [e, parts_nil]
        · next e =>
          have := parts_word (rest := []) e hw.1 (by simp)
          rw [List.append_nil, parts_nil, hw.2] at this; exact this
      | cons x ws =>
        rw [joinWith, List.append_assoc]
        split
        · next e => rw [e, List.nil_append]; exact parts_space _
        · next e =>
          rw [parts_word e hw.1 (by simp), hw.2]
          show w :: parts (' ' :: joinWith [' '] (x :: ws)) = _
          rw [parts_space]; rfl
    rw [hcons, ih hws]
    unfold nonEmpty
    rw [List.filter_cons]
    by_cases e : w = []
    · simp [e]
    · simp [e]

theorem parts_clean (s : Str) : ∀ w ∈ parts s, ' ' ∉ w ∧ strip w = w := by
  intro w hw
  obtain ⟨p, hp, rfl⟩ := List.mem_map.1 hw
  have hp' := splitOn_parts ' ' s p (List.mem_filter.1 hp).1
  have hst := strip_spec p
  refine ⟨?_, ?_⟩
  · obtain ⟨a, b, e, _⟩ := hst
    intro hc; apply hp'; rw [e]; simp [hc]
  · obtain ⟨a, b, e, ha, hb, h1, h2⟩ := hst
    exact strip_of_stripped (stripped_self h1 h2)

/-- The recursion of `build_condition_not` at the level of texts: `not` followed by words is the
negation of the condition built from `" ".join(args)`. -/
theorem buildCondition_not_text {s : Str} {args : List Str} (h : parts s = c!"not" :: args) :
    buildCondition (parts s) = (buildCondition (parts (joinWith [' '] args))).map .not := by
  have hc : ∀ w ∈ args, ' ' ∉ w ∧ strip w = w := by
    intro w hw; exact parts_clean s w (by rw [h]; simp [hw])
  rw [h, buildCondition, if_neg (by decide), if_pos rfl, parts_join hc]

/-! ## Ports and targets -/

theorem parseInt_iff {s : Str} {z : ℤ} : parseInt s = some z ↔ Port s z := by
  have hstrip := strip_spec s
  constructor
  · intro h
    refine ⟨strip s, hstrip, ?_⟩
    unfold parseInt at h
    cases ht : takeSign (strip s) with
    | mk neg ds =>
      rw [ht] at h
      simp only at h
      split at h
      · cases h
      · next hb =>
        have hne : ds ≠ [] := by
          intro e; rw [e] at hb; simp at hb
        have hds : ∀ c ∈ ds, isDigit c = true := by
          intro c hc
          by_contra hcd
          apply hb
          rw [Bool.or_eq_true]; right
          rw [Bool.not_eq_true', List.all_eq_false]
          exact ⟨c, hc, hcd⟩
        cases h
        unfold takeSign at ht
        split at ht
        · next r e => cases ht; right; exact ⟨_, e, hne, hds, by simp⟩
        · next r e => cases ht; left; exact ⟨_, .inr e, hne, hds, by simp⟩
        · next r e1 e2 =>
          cases ht; left
          exact ⟨_, .inl rfl, hne, hds, by simp⟩
  · rintro ⟨t, hst, h⟩
    have : strip s = t := strip_of_stripped hst
    unfold parseInt
    rw [this]
    have key : ∀ (ds : Str), ds ≠ [] → (∀ c ∈ ds, isDigit c = true) →
        (ds.isEmpty || !ds.all isDigit) = false := by
      intro ds h1 h2
      cases ds with
      | nil => exact absurd rfl h1
      | cons a b =>
        simp only [List.isEmpty_cons, Bool.false_or, Bool.not_eq_false']
        rw [List.all_eq_true]; exact h2
    rcases h with ⟨ds, h1, hne, hd, rfl⟩ | ⟨ds, rfl, hne, hd, rfl⟩
    · rcases h1 with rfl | rfl
      · have hts : takeSign t = (false, t) := by
          cases t with
          | nil => exact absurd rfl hne
          | cons c r => exact takeSign_digit (hd c (by simp))
        rw [hts]; simp only [key t hne hd]; simp
      · simp only [takeSign, key ds hne hd]; simp
    · simp only [takeSign, key ds hne hd]; simp

theorem buildTarget_iff {rx : Regexes R} {service : Bool} {ws : List Str} {t : Target R} :
    buildTarget rx service ws = .ok t ↔ TargetWords rx service ws t := by
  constructor
  · intro h
    cases ws with
    | nil => cases h
    | cons name args =>
      rw [buildTarget] at h
      split at h
      · next hn =>
        subst hn
        split at h
        · next he => cases h; rw [List.isEmpty_iff.1 he]; exact .drop
        · cases h
      · split at h
        · next hn =>
          subst hn
          unfold buildRewrite at h
          split at h
          · split at h
            · cases h
            · next r hr => cases h; exact .rewrite _ _ r hr
          · next p repl d =>
            split at h
            · cases h
            · next r hr =>
              cases h
              by_cases hd : d = c!"dup"
              · subst hd; exact .rewriteDup _ _ r hr
              · rw [decide_eq_false hd]; exact .rewriteOther _ _ r d hr hd
          · cases h
        · split at h
          · next hn =>
            subst hn
            unfold buildSetType at h
            split at h
            · cases h; exact .setType _
            · next ty d =>
              cases h
              by_cases hd : d = c!"dup"
              · subst hd; exact .setTypeDup _
              · rw [decide_eq_false hd]; exact .setTypeOther _ d hd
            · cases h
          · split at h
            · next hn =>
              subst hn
              unfold buildRedirect at h
              split at h
              · split at h
                · next hs => cases h; exact .udpInert _ _ (by simpa using hs)
                · next hs =>
                  split at h
                  · cases h
                  · next z hz => cases h; exact .udp _ _ z (by simpa using hs) (parseInt_iff.1 hz)
              · cases h
            · split at h
              · next hn =>
                subst hn
                unfold buildRedirect at h
                split at h
                · split at h
                  · next hs => cases h; exact .tcpInert _ _ (by simpa using hs)
                  · next hs =>
                    split at h
                    · cases h
                    · next z hz => cases h; exact .tcp _ _ z (by simpa using hs) (parseInt_iff.1 hz)
                · cases h
              · cases h
  · intro h
    cases h with
    | drop => rfl
    | rewrite p repl r hr =>
      rw [buildTarget, if_neg (by decide), if_pos rfl, buildRewrite, hr]
    | rewriteDup p repl r hr =>
      rw [buildTarget, if_neg (by decide), if_pos rfl, buildRewrite, hr]; simp
    | rewriteOther p repl r d hr hd =>
      rw [buildTarget, if_neg (by decide), if_pos rfl, buildRewrite, hr]; simp only [decide_eq_false hd]
    | setType t => rw [buildTarget, if_neg (by decide), if_neg (by decide), if_pos rfl, buildSetType]
    | setTypeDup t => rw [buildTarget, if_neg (by decide), if_neg (by decide), if_pos rfl, buildSetType]; simp
    | setTypeOther t d hd =>
      rw [buildTarget, if_neg (by decide), if_neg (by decide), if_pos rfl, buildSetType]; simp only [decide_eq_false hd]
    | udp h p z hs hp =>
      rw [buildTarget, if_neg (by decide), if_neg (by decide), if_neg (by decide), if_pos rfl,
        buildRedirect, hs, parseInt_iff.2 hp]; rfl
    | tcp h p z hs hp =>
      rw [buildTarget, if_neg (by decide), if_neg (by decide), if_neg (by decide),
        if_neg (by decide), if_pos rfl, buildRedirect, hs, parseInt_iff.2 hp]; rfl
    | udpInert h p hs =>
      rw [buildTarget, if_neg (by decide), if_neg (by decide), if_neg (by decide), if_pos rfl,
        buildRedirect, hs]; rfl
    | tcpInert h p hs =>
      rw [buildTarget, if_neg (by decide), if_neg (by decide), if_neg (by decide),
        if_neg (by decide), if_pos rfl, buildRedirect, hs]; rfl

/-! ## Lines -/

theorem splitArrow_ne_nil (s : Str) : splitArrow s ≠ [] := by
  induction s with
  | nil => simp [splitArrow]
  | cons c s ih =>
    cases s with
    | nil => simp [splitArrow]
    | cons d rest =>
      unfold splitArrow
      split
      · simp
      · split <;> simp

theorem infix_cons_cons {c d : Char} {rest : Str} (h : ¬ (c = '=' ∧ d = '>')) :
    ['=', '>'] <:+: c :: d :: rest ↔ ['=', '>'] <:+: d :: rest := by
  rw [List.infix_cons_iff]
  constructor
  · rintro (hp | h')
    · obtain ⟨t, ht⟩ := hp
      simp only [List.cons_append, List.nil_append, List.cons.injEq] at ht
      exact absurd ⟨ht.1.symm, ht.2.1.symm⟩ h
    · exact h'
  · exact .inr

theorem splitArrow_none {s : Str} (h : ¬ ['=', '>'] <:+: s) : splitArrow s = [s] := by
  induction s with
  | nil => rfl
  | cons c s ih =>
    cases s with
    | nil => rfl
    | cons d rest =>
      have hcd : ¬ (c = '=' ∧ d = '>') := by
        rintro ⟨rfl, rfl⟩
        exact h ⟨[], rest, by simp⟩
      rw [splitArrow, if_neg hcd, ih (fun h' => h ((infix_cons_cons hcd).2 h'))]

theorem splitArrow_append {a b : Str} (h : ¬ ['=', '>'] <:+: a) :
    splitArrow (a ++ ['=', '>'] ++ b) = a :: splitArrow b := by
  induction a with
  | nil => rw [List.nil_append]; show splitArrow ('=' :: '>' :: b) = _; rw [splitArrow, if_pos ⟨rfl, rfl⟩]
  | cons c a ih =>
    have h1 : ¬ ['=', '>'] <:+: a := fun h' => h (List.infix_cons_iff.2 (.inr h'))
    have h2 : ∀ d r, a ++ ['=', '>'] ++ b = d :: r → ¬ (c = '=' ∧ d = '>') := by
      intro d r e
      rintro ⟨rfl, rfl⟩
      cases a with
      | nil => simp at e
      | cons x a =>
        simp only [List.cons_append, List.cons.injEq] at e
        obtain ⟨rfl, -⟩ := e
        exact h ⟨[], a, by simp⟩
    have ih' := ih h1
    rw [List.cons_append, List.cons_append]
    cases hx : a ++ ['=', '>'] ++ b with
    | nil => simp at hx
    | cons d r =>
      rw [hx] at ih'
      rw [splitArrow, if_neg (h2 d r hx), ih']

theorem splitArrow_spec (s : Str) : splitArrow s = [s] ∧ ¬ ['=', '>'] <:+: s ∨
    ∃ a b, s = a ++ ['=', '>'] ++ b ∧ ¬ ['=', '>'] <:+: a ∧ splitArrow s = a :: splitArrow b := by
  by_cases h : ['=', '>'] <:+: s
  · right
    -- take the first occurrence
    induction s with
    | nil => simp at h
    | cons c s ih =>
      cases s with
      | nil =>
        exfalso
        have := h.length_le
        simp at this
      | cons d rest =>
        by_cases hcd : c = '=' ∧ d = '>'
        · obtain ⟨rfl, rfl⟩ := hcd
          exact ⟨[], rest, by simp, by simp, by rw [splitArrow, if_pos ⟨rfl, rfl⟩]⟩
        · obtain ⟨a, b, e, ha, hs⟩ := ih ((infix_cons_cons hcd).1 h)
          have ha' : ¬ ['=', '>'] <:+: c :: a := by
            cases a with
            | nil => intro h'; have := h'.length_le; simp at this
            | cons x a =>
              simp only [List.cons_append, List.cons.injEq] at e
              obtain ⟨rfl, -⟩ := e
              rw [infix_cons_cons hcd]; exact ha
          refine ⟨c :: a, b, by rw [e]; simp, ha', ?_⟩
          rw [show c :: d :: rest = (c :: a) ++ ['=', '>'] ++ b by rw [e]; simp]
          exact splitArrow_append ha'
  · exact .inl ⟨splitArrow_none h, h⟩

theorem splitArrow_two {s a b : Str} : splitArrow s = [a, b] ↔
    s = a ++ ['=', '>'] ++ b ∧ ¬ ['=', '>'] <:+: a ∧ ¬ ['=', '>'] <:+: b := by
  constructor
  · intro h
    rcases splitArrow_spec s with ⟨h1, _⟩ | ⟨a', b', e, ha, hs⟩
    · rw [h1] at h; simp at h
    · rw [hs] at h
      simp only [List.cons.injEq] at h
      obtain ⟨rfl, hb⟩ := h
      rcases splitArrow_spec b' with ⟨h1, h2⟩ | ⟨a2, b2, _, _, hs2⟩
      · rw [h1] at hb; simp only [List.cons.injEq, and_true] at hb; subst hb
        exact ⟨e, ha, h2⟩
      · rw [hs2] at hb
        simp only [List.cons.injEq] at hb
        exact absurd hb.2 (splitArrow_ne_nil b2)
  · rintro ⟨rfl, ha, hb⟩
    rw [splitArrow_append ha, splitArrow_none hb]

theorem buildRule_iff {rx : Regexes R} {service : Bool} {line : Str} {rule : Rule R} :
    buildRule rx service line = .ok rule ↔ RuleText rx service line rule := by
  constructor
  · intro h
    unfold buildRule at h
    split at h
    · next a b hs =>
      obtain ⟨e, ha, hb⟩ := splitArrow_two.1 hs
      cases hc : buildCondition (parts a) with
      | error e => rw [hc] at h; cases h
      | ok c =>
        cases ht : buildTarget rx service (parts b) with
        | error e => rw [hc, ht] at h; cases h
        | ok t =>
          rw [hc, ht] at h
          cases h
          exact ⟨a, b, parts a, parts b, e, ha, hb, words_iff.2 rfl, buildCondition_iff.1 hc,
            words_iff.2 rfl, buildTarget_iff.1 ht⟩
    · cases h
  · rintro ⟨a, b, ws, vs, e, ha, hb, hw, hc, hv, ht⟩
    unfold buildRule
    rw [splitArrow_two.2 ⟨e, ha, hb⟩]
    simp only
    rw [words_iff.1 hw, words_iff.1 hv, buildCondition_iff.2 hc, buildTarget_iff.2 ht]
    rfl

theorem buildLines_iff {rx : Regexes R} {service : Bool} {lines : List Str} {rules : List (Rule R)} :
    buildLines rx service lines = .ok rules ↔
      List.Forall₂ (RuleText rx service) (lines.filter (· ≠ [])) rules := by
  induction lines generalizing rules with
  | nil =>
    simp only [buildLines, List.filter_nil, Except.ok.injEq]
    constructor
    · rintro rfl; exact .nil
    · intro h; cases h; rfl
  | cons l ls ih =>
    rw [buildLines]
    cases l with
    | nil => simp only [List.isEmpty_nil, if_true, ih]; simp
    | cons c l =>
      simp only [List.isEmpty_cons, Bool.false_eq_true, if_false]
      have hf : ((c :: l) :: ls).filter (· ≠ []) = (c :: l) :: ls.filter (· ≠ []) := by simp
      rw [hf]
      cases hr : buildRule rx service (c :: l) with
      | error e =>
        constructor
        · intro h; cases h
        · intro h
          cases h with
          | cons h1 h2 => rw [buildRule_iff.2 h1] at hr; cases hr
      | ok r =>
        cases hl : buildLines rx service ls with
        | error e =>
          constructor
          · intro h; cases h
          · intro h
            cases h with
            | cons h1 h2 => rw [ih.2 h2] at hl; cases hl
        | ok rs =>
          constructor
          · intro h; cases h
            exact .cons (buildRule_iff.1 hr) (ih.1 hl)
          · intro h
            cases h with
            | cons h1 h2 =>
              rw [buildRule_iff.2 h1] at hr; rw [ih.2 h2] at hl
              cases hr; cases hl; rfl

/-! ## What is wrong -/

theorem buildCondition_fault {ws : List Str} {e : PyErr} : buildCondition ws = .error e ↔ CondFault ws e := by
  constructor
  · intro h
    induction hn : ws.length using Nat.strong_induction_on generalizing ws with
    | _ n ih =>
      cases ws with
      | nil => rw [buildCondition] at h; cases h; exact .nothing
      | cons w ws =>
        rw [buildCondition] at h
        split at h
        · next hw =>
          subst hw
          split at h
          · cases h
          · next he => cases h; exact .any _ (by simpa using he)
        · split at h
          · next hw =>
            subst hw
            cases hb : buildCondition (nonEmpty ws) with
            | ok c => rw [hb] at h; cases h
            | error e' =>
              rw [hb] at h
              cases h
              rw [nonEmpty_eq] at hb
              refine .not _ _ (ih _ ?_ hb rfl)
              rw [← hn]
              exact Nat.lt_succ_of_le (List.length_filter_le _ _)
          · split at h
            · cases h
            · split at h
              · next hw =>
                subst hw
                unfold buildPathLike at h
                split at h
                · cases h
                · next hx =>
                  cases h
                  refine .pathLike _ fun hl => ?_
                  obtain ⟨p, rfl⟩ := List.length_eq_one_iff.1 hl
                  exact hx p rfl
              · cases h
                exact .unknown _ _ (by simp_all)
  · intro h
    induction h with
    | nothing => rw [buildCondition]
    | any ws h =>
      rw [buildCondition, if_pos rfl, if_neg (by simpa using h)]
    | not ws e h ih =>
      rw [buildCondition, if_neg (by decide), if_pos rfl, nonEmpty_eq, ih]; rfl
    | pathLike ws h =>
      rw [buildCondition, if_neg (by decide), if_neg (by decide), if_neg (by decide), if_pos rfl]
      unfold buildPathLike
      split
      · simp at h
      · rfl
    | unknown w ws h =>
      simp only [List.mem_cons, List.not_mem_nil, or_false, not_or] at h
      rw [buildCondition, if_neg h.1, if_neg h.2.1, if_neg h.2.2.1, if_neg h.2.2.2]

theorem buildRewrite_fault {rx : Regexes R} {service : Bool} {ws : List Str} {e : PyErr}
    (h : buildRewrite rx ws = .error e) : TargetFault rx service (c!"rewrite" :: ws) e := by
  unfold buildRewrite at h
  split at h
  · split at h
    · next hc => cases h; exact .pattern _ _ (by simp) hc
    · cases h
  · split at h
    · next hc => cases h; exact .pattern _ _ (by simp) hc
    · cases h
  · next h1 h2 =>
    cases h
    refine .rewrite _ (fun hl => ?_) (fun hl => ?_)
    · obtain ⟨a, b, rfl⟩ := List.length_eq_two.1 hl
      exact h1 _ _ rfl
    · obtain ⟨a, b, c, rfl⟩ := List.length_eq_three.1 hl
      exact h2 _ _ _ rfl

theorem buildSetType_fault {rx : Regexes R} {service : Bool} {ws : List Str} {e : PyErr}
    (h : buildSetType (R := R) ws = .error e) : TargetFault rx service (c!"set_metric_type" :: ws) e := by
  unfold buildSetType at h
  split at h
  · cases h
  · cases h
  · next h1 h2 =>
    cases h
    refine .setType _ (fun hl => ?_) (fun hl => ?_)
    · obtain ⟨a, rfl⟩ := List.length_eq_one_iff.1 hl
      exact h1 _ rfl
    · obtain ⟨a, b, rfl⟩ := List.length_eq_two.1 hl
      exact h2 _ _ rfl

theorem buildRedirect_fault {rx : Regexes R} {service tcp : Bool} {w : Str} {ws : List Str} {e : PyErr}
    (hw : w = c!"redirect_udp" ∨ w = c!"redirect_tcp")
    (h : buildRedirect (R := R) service tcp ws = .error e) : TargetFault rx service (w :: ws) e := by
  unfold buildRedirect at h
  split at h
  · split at h
    · cases h
    · next hs =>
      split at h
      · next hp =>
        cases h
        refine .port _ _ _ hw (by simpa using hs) fun z hz => ?_
        rw [parseInt_iff.2 hz] at hp
        cases hp
      · cases h
  · next h1 =>
    cases h
    refine .redirect _ _ hw fun hl => ?_
    obtain ⟨a, b, rfl⟩ := List.length_eq_two.1 hl
    exact h1 _ _ rfl

theorem parseInt_none {p : Str} (h : ∀ z, ¬ Port p z) : parseInt p = none := by
  cases hp : parseInt p with
  | none => rfl
  | some z => exact absurd (parseInt_iff.1 hp) (h z)

theorem redirect_fault {service tcp : Bool} {ws : List Str} (h : ws.length ≠ 2) :
    buildRedirect (R := R) service tcp ws = .error .typeError := by
  unfold buildRedirect
  split
  · simp at h
  · rfl

theorem redirect_port {tcp : Bool} {a p : Str} (h : ∀ z, ¬ Port p z) :
    buildRedirect (R := R) true tcp [a, p] = .error .valueError := by
  simp [buildRedirect, parseInt_none h]

theorem buildTarget_fault {rx : Regexes R} {service : Bool} {ws : List Str} {e : PyErr} :
    buildTarget rx service ws = .error e ↔ TargetFault rx service ws e := by
  constructor
  · intro h
    cases ws with
    | nil => rw [buildTarget] at h; cases h; exact .nothing
    | cons w ws =>
      rw [buildTarget] at h
      split at h
      · next hw =>
        subst hw
        split at h
        · cases h
        · next he => cases h; exact .drop _ (by simpa using he)
      · split at h
        · next hw => subst hw; exact buildRewrite_fault h
        · split at h
          · next hw => subst hw; exact buildSetType_fault h
          · split at h
            · next hw => exact buildRedirect_fault (.inl hw) h
            · split at h
              · next hw => exact buildRedirect_fault (.inr hw) h
              · cases h
                exact .unknown _ _ (by simp_all)
  · intro h
    cases h with
    | nothing => rw [buildTarget]
    | drop ws h => rw [buildTarget, if_pos rfl, if_neg (by simpa using h)]
    | rewrite ws h1 h2 =>
      rw [buildTarget, if_neg (by decide), if_pos rfl]
      unfold buildRewrite
      split
      · simp at h1
      · simp at h2
      · rfl
    | pattern p ws h1 h2 =>
      rw [buildTarget, if_neg (by decide), if_pos rfl]
      rcases h1 with h1 | h1
      · obtain ⟨a, rfl⟩ := List.length_eq_one_iff.1 h1
        simp [buildRewrite, h2]
      · obtain ⟨a, b, rfl⟩ := List.length_eq_two.1 h1
        simp [buildRewrite, h2]
    | setType ws h1 h2 =>
      rw [buildTarget, if_neg (by decide), if_neg (by decide), if_pos rfl]
      unfold buildSetType
      split
      · simp at h1
      · simp at h2
      · rfl
    | redirect w ws hw h =>
      rcases hw with rfl | rfl
      · rw [buildTarget, if_neg (by decide), if_neg (by decide), if_neg (by decide), if_pos rfl, redirect_fault h]
      · rw [buildTarget, if_neg (by decide), if_neg (by decide), if_neg (by decide), if_neg (by decide), if_pos rfl,
          redirect_fault h]
    | port w a p hw hs h =>
      subst hs
      rcases hw with rfl | rfl
      · rw [buildTarget, if_neg (by decide), if_neg (by decide), if_neg (by decide), if_pos rfl, redirect_port h]
      · rw [buildTarget, if_neg (by decide), if_neg (by decide), if_neg (by decide), if_neg (by decide), if_pos rfl,
          redirect_port h]
    | unknown w ws h =>
      simp only [List.mem_cons, List.not_mem_nil, or_false, not_or] at h
      rw [buildTarget, if_neg h.1, if_neg h.2.1, if_neg h.2.2.1, if_neg h.2.2.2.1, if_neg h.2.2.2.2]

theorem buildRule_fault {rx : Regexes R} {service : Bool} {line : Str} {e : PyErr} :
    buildRule rx service line = .error e ↔ RuleFault rx service line e := by
  constructor
  · intro h
    unfold buildRule at h
    split at h
    · next a b hs =>
      obtain ⟨el, ha, hb⟩ := splitArrow_two.1 hs
      subst el
      cases hc : buildCondition (parts a) with
      | error e' =>
        rw [hc] at h
        cases h
        exact .cond a b _ _ ha hb (words_iff.2 rfl) (buildCondition_fault.1 hc)
      | ok c =>
        cases ht : buildTarget rx service (parts b) with
        | ok t => rw [hc, ht] at h; cases h
        | error e' =>
          rw [hc, ht] at h
          cases h
          exact .target a b _ c _ _ ha hb (words_iff.2 rfl) (buildCondition_iff.1 hc) (words_iff.2 rfl)
            (buildTarget_fault.1 ht)
    · next hx =>
      cases h
      refine .arrows _ fun a b e => ?_
      by_contra hno
      rw [not_or] at hno
      exact hx a b (splitArrow_two.2 ⟨e, hno.1, hno.2⟩)
  · intro h
    cases h with
    | arrows l h =>
      unfold buildRule
      split
      · next a b hs =>
        obtain ⟨e, ha, hb⟩ := splitArrow_two.1 hs
        exact absurd (h a b e) (by simp [ha, hb])
      · rfl
    | cond a b ws e ha hb hw hf =>
      unfold buildRule
      rw [splitArrow_two.2 ⟨rfl, ha, hb⟩]
      simp only
      rw [words_iff.1 hw, buildCondition_fault.2 hf]
      rfl
    | target a b ws c vs e ha hb hw hc hv hf =>
      unfold buildRule
      rw [splitArrow_two.2 ⟨rfl, ha, hb⟩]
      simp only
      rw [words_iff.1 hw, words_iff.1 hv, buildCondition_iff.2 hc, buildTarget_fault.2 hf]
      rfl

theorem buildLines_fault {rx : Regexes R} {service : Bool} {before after : List Str} {l : Str} {e : PyErr}
    (hb : ∀ x ∈ before, x = [] ∨ ∃ rule, RuleText rx service x rule) (hl : l ≠ []) (h : RuleFault rx service l e) :
    buildLines rx service (before ++ l :: after) = .error e := by
  induction before with
  | nil =>
    rw [List.nil_append, buildLines, if_neg (by simpa using hl), buildRule_fault.2 h]
    rfl
  | cons x xs ih =>
    rw [List.cons_append, buildLines]
    have h1 := ih fun y hy => hb y (by simp [hy])
    rcases hb x (by simp) with rfl | ⟨rule, hr⟩
    · simpa using h1
    · split
      · exact h1
      · rw [buildRule_iff.2 hr, h1]; rfl

end Txstatsd
