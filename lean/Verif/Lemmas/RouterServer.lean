import Verif.Lemmas.RouterText
import Verif.Model.Configurable

/-!
# The router in front of a processor: message texts, types of redirected texts
-/

set_option linter.unusedSectionVars false
set_option linter.unusedSimpArgs false
set_option linter.unusedVariables false

namespace Txstatsd
open Spec

section
variable [Rounding] {C T G PF PM : Type}

/-- Counter handling uses the message text only for its log entries. -/
def TextFree (I : Impl C T G PF PM) : Prop :=
  ∀ w s key fields msg msg', (I.processCounter w s key fields msg).1 = (I.processCounter w s key fields msg').1 ∧
    (I.processCounter w s key fields msg).2.exc = (I.processCounter w s key fields msg').2.exc

theorem textFree_messageProcessor (ops : PluginOps PF PM) : TextFree (messageProcessor ops) := by
  intro w s key fields msg msg'
  show (processCounter s key fields msg).1 = (processCounter s key fields msg').1 ∧ _
  show _ ∧ (processCounter s key fields msg).2.exc = (processCounter s key fields msg').2.exc
  unfold processCounter
  split
  · exact ⟨rfl, rfl⟩
  · split
    · split
      · exact ⟨rfl, rfl⟩
      · split <;> exact ⟨rfl, rfl⟩
    · exact ⟨rfl, rfl⟩

theorem dispatch_text {I : Impl C T G PF PM} (hI : TextFree I) (w : World) (s : PS C T G PF PM)
    (msg msg' : Str) (m : Metric) :
    (dispatch I w s msg m).map (fun r => (r.1, r.2.exc)) =
      (dispatch I w s msg' m).map (fun r => (r.1, r.2.exc)) := by
  unfold dispatch
  split
  · have := hI w s m.key m.fields msg msg'
    simp [this.1, this.2]
  · split
    · simp only [processTimer, Option.map_some]
      split <;> rfl
    · split
      · simp only [processGauge, Option.map_some]
        split
        · rfl
        · split <;> rfl
      · split
        · simp only [processMeter, Option.map_some]
          split
          · rfl
          · split <;> rfl
        · rfl

/-- The processor's state and exceptions do not depend on the message text kept for the log. -/
theorem processMessage_text {I : Impl C T G PF PM} (hI : TextFree I) (w : World)
    (s : PS C T G PF PM) (msg msg' : Str) (m : Metric) :
    (processMessage I w s msg m).1 = (processMessage I w s msg' m).1 ∧
      (processMessage I w s msg m).2.exc = (processMessage I w s msg' m).2.exc := by
  have h := dispatch_text hI w { s with ticks := s.ticks + 1 } msg msg' m
  unfold processMessage
  simp only
  cases h1 : dispatch I w { s with ticks := s.ticks + 1 } msg m with
  | none =>
    cases h2 : dispatch I w { s with ticks := s.ticks + 1 } msg' m with
    | none => exact ⟨rfl, rfl⟩
    | some r => rw [h1, h2] at h; cases h
  | some r =>
    cases h2 : dispatch I w { s with ticks := s.ticks + 1 } msg' m with
    | none => rw [h1, h2] at h; cases h
    | some r' =>
      rw [h1, h2] at h
      simp only [Option.map_some, Option.some.injEq, Prod.mk.injEq] at h
      simp only [finish, h.2]
      split
      · exact ⟨by rw [h.1], h.2⟩
      · exact ⟨h.1, h.2⟩

end

/-! ## Redirected texts -/

variable {R : Type}

/-- A text rebuilt with another legal key parses to the same type and fields. -/
theorem parse_textOf {msg : Str} {m : Metric} (h : parseMessage msg = some m) {m' : Metric}
    (hk : ∀ c ∈ m'.key, Legal c) (hf : m'.fields = m.fields) :
    parseMessage (textOf m') = some { m with key := m'.key } := by
  obtain ⟨raw, ⟨text, hst, hc, hfs, hcase⟩, hkey⟩ := (parseMessage_spec msg m).1 h
  rw [parseMessage_spec]
  simp only
  have hlast : ∀ c, text.getLast? = some c → ¬ White c := by
    obtain ⟨a, b, _, _, _, _, hl⟩ := hst; exact hl
  have e : (∃ f0, m.fields = [f0, m.mtype] ∧ textOf m' = m'.key ++ ':' :: (f0 ++ '|' :: m.mtype) ∧
      text = raw ++ ':' :: (f0 ++ '|' :: m.mtype)) ∨
     (∃ f0 f2, m.fields = [f0, m.mtype, f2] ∧
        textOf m' = m'.key ++ ':' :: (f0 ++ '|' :: (m.mtype ++ '|' :: f2)) ∧
        text = raw ++ ':' :: (f0 ++ '|' :: (m.mtype ++ '|' :: f2))) := by
    rcases hcase with ⟨f0, hf', e⟩ | ⟨f0, f2, hf', e⟩
    · left; exact ⟨f0, hf', by simp [textOf, hf, hf', List.intercalate, List.intersperse], e⟩
    · right; exact ⟨f0, f2, hf', by simp [textOf, hf, hf', List.intercalate, List.intersperse], e⟩
  refine ⟨m'.key, ⟨textOf m', ?_, ?_, hfs, ?_⟩, ?_⟩
  · apply stripped_self
    · intro c hc'
      cases hkk : m'.key with
      | nil =>
        unfold textOf at hc'
        rw [hkk] at hc'; simp at hc'; rw [← hc']; decide
      | cons d ds =>
        unfold textOf at hc'
        rw [hkk] at hc'; simp at hc'; subst hc'
        exact not_white_of_legal (hk d (by rw [hkk]; simp))
    · intro c hc'
      apply hlast c
      rw [← hc']
      rcases e with ⟨f0, _, e1, e2⟩ | ⟨f0, f2, _, e1, e2⟩
      · rw [e1, e2, List.getLast?_append_of_ne_nil _ (by simp), List.getLast?_append_of_ne_nil _ (by simp)]
      · rw [e1, e2, List.getLast?_append_of_ne_nil _ (by simp), List.getLast?_append_of_ne_nil _ (by simp)]
  · intro hc'; exact ne_colon_of_legal (hk _ hc') rfl
  · rcases e with ⟨f0, h2, e1, e2⟩ | ⟨f0, f2, h2, e1, e2⟩
    · left; exact ⟨f0, h2, e1⟩
    · right; exact ⟨f0, f2, h2, e1⟩
  · rw [← normalizeKey_eq, normalizeKey_legal hk]

/-- The rewrites of the rules keep keys within the legal alphabet. -/
def LegalRewrites (rx : Regexes R) (rules : List (Rule R)) : Prop :=
  ∀ r ∈ rules, match r.target with
    | .rewrite rexp repl _ => ∀ key k, (∀ c ∈ key, Legal c) → rx.sub rexp repl key = some k →
        ∀ c ∈ k, Legal c
    | _ => True

/-- Every metric made from `m` keeps its fields, and legal keys stay legal. -/
theorem outputs_keep {rx : Regexes R} {rule : Rule R} (hs : Sound rx rule)
    (hr : LegalRewrites rx [rule]) {fields : List Str} {m : Metric}
    (hm : m.fields = fields ∧ ∀ c ∈ m.key, Legal c) :
    ∀ x ∈ outputs rx rule.target m, x.fields = fields ∧ ∀ c ∈ x.key, Legal c := by
  obtain ⟨c, t⟩ := rule
  have hr' := hr ⟨c, t⟩ (by simp)
  intro x hx
  cases t with
  | drop => simp [outputs] at hx
  | rewrite rexp repl dup =>
    obtain ⟨k, hk⟩ := Option.isSome_iff_exists.1 (hs.2 m.key)
    have hkl := hr' m.key k hm.2 hk
    simp only [outputs, hk, Option.getD_some] at hx
    split at hx
    · simp only [List.mem_cons, List.not_mem_nil, or_false] at hx
      rcases hx with rfl | rfl
      · exact hm
      · exact ⟨hm.1, hkl⟩
    · simp only [List.mem_cons, List.not_mem_nil, or_false] at hx
      subst hx; exact ⟨hm.1, hkl⟩
  | setType type dup =>
    simp only [outputs] at hx
    split at hx
    · simp only [List.mem_cons, List.not_mem_nil, or_false] at hx
      rcases hx with rfl | rfl <;> exact hm
    · simp only [List.mem_cons, List.not_mem_nil, or_false] at hx
      subst hx; exact hm
  | redirect sink => simp only [outputs, List.mem_singleton] at hx; subst hx; exact hm
  | inert => simp only [outputs, List.mem_singleton] at hx; subst hx; exact hm

theorem rewriteBy_keep {rx : Regexes R} {rule : Rule R} (hs : Sound rx rule)
    (hr : LegalRewrites rx [rule]) {fields : List Str} {ms : List Metric}
    (hm : ∀ m ∈ ms, m.fields = fields ∧ ∀ c ∈ m.key, Legal c) :
    ∀ x ∈ rewriteBy rx rule ms, x.fields = fields ∧ ∀ c ∈ x.key, Legal c := by
  intro x hx
  obtain ⟨m, hmem, hx⟩ := List.mem_flatMap.1 hx
  split at hx
  · exact outputs_keep hs hr (hm m hmem) x hx
  · simp only [List.mem_singleton] at hx; subst hx; exact hm _ hmem

theorem sentAway_keep {rx : Regexes R} {rules : List (Rule R)} (hs : ∀ r ∈ rules, Sound rx r)
    (hr : LegalRewrites rx rules) {fields : List Str} {ms : List Metric}
    (hm : ∀ m ∈ ms, m.fields = fields ∧ ∀ c ∈ m.key, Legal c) :
    ∀ x ∈ sentAway rx rules ms, ∃ m : Metric, x.2 = textOf m ∧ m.fields = fields ∧ ∀ c ∈ m.key, Legal c := by
  induction rules generalizing ms with
  | nil => intro x hx; simp [sentAway] at hx
  | cons r rs ih =>
    intro x hx
    rw [sentAway, List.mem_append] at hx
    rcases hx with hx | hx
    · obtain ⟨m, hmem, hx⟩ := List.mem_flatMap.1 hx
      split at hx
      · unfold copies at hx
        split at hx
        · simp only [List.mem_singleton] at hx; subst hx
          exact ⟨_, rfl, hm _ hmem⟩
        · simp at hx
      · simp at hx
    · refine ih (fun r' h' => hs r' (by simp [h'])) (fun r' h' => hr r' (by simp [h'])) ?_ x hx
      exact rewriteBy_keep (hs r (by simp)) (fun r' h' => by
        simp only [List.mem_singleton] at h'; subst h'; exact hr _ (by simp)) hm

end Txstatsd
