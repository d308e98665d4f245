import Verif.Lemmas.Fnmatch
import Verif.Lemmas.Glob

/-!
# Routing: the loops of `Router.process_message` against the specification
-/

set_option linter.unusedSectionVars false
set_option linter.unusedSimpArgs false
set_option linter.unusedVariables false

namespace Txstatsd
open Spec

variable {R : Type}

/-- On conditions whose patterns are good, evaluating a condition never raises and decides it. -/
theorem eval_iff {c : Cond} (h : GoodPatterns c) (m : Metric) :
    ∃ b, c.eval m = .ok b ∧ (b = true ↔ Holds c m) := by
  induction c with
  | any => exact ⟨true, rfl, by simp [Holds]⟩
  | not c ih =>
    obtain ⟨b, hb, hi⟩ := ih h
    refine ⟨!b, by simp [Cond.eval, hb, Except.map], ?_⟩
    rw [Holds, ← hi]; cases b <;> simp
  | metricType types => exact ⟨types.contains m.mtype, rfl, by simp [Holds]⟩
  | pathLike pattern =>
    exact fnmatch_good h m.key

open Classical in
theorem eval_decide {c : Cond} (h : GoodPatterns c) (m : Metric) :
    c.eval m = .ok (decide (Holds c m)) := by
  obtain ⟨b, hb, hi⟩ := eval_iff h m
  rw [hb]
  congr 1
  rw [Bool.eq_iff_iff, hi, decide_eq_true_iff]

theorem joinWith_eq (c : Char) (fs : List Str) : joinWith [c] fs = [c].intercalate fs := by
  induction fs with
  | nil => rfl
  | cons f fs ih =>
    cases fs with
    | nil => simp [joinWith, List.intercalate, List.intersperse]
    | cons g fs =>
      rw [joinWith, ih]
      simp [List.intercalate, List.intersperse]

theorem rebuild_eq (m : Metric) : rebuildMessage m.mtype m.key m.fields = textOf m := by
  unfold rebuildMessage textOf
  rw [joinWith_eq]; simp

theorem run_sound {rx : Regexes R} {rule : Rule R} (h : Sound rx rule) (m : Metric) :
    rule.target.run rx m = (copies rule.target m, .ok none) ∧ outputs rx rule.target m = [] ∨
    rule.target.run rx m = (copies rule.target m, .ok (some (outputs rx rule.target m))) := by
  obtain ⟨c, t⟩ := rule
  obtain ⟨_, ht⟩ := h
  cases t with
  | drop => exact .inl ⟨rfl, rfl⟩
  | rewrite rexp repl dup =>
    right
    have := ht m.key
    obtain ⟨k, hk⟩ := Option.isSome_iff_exists.1 this
    simp only [Target.run, hk, copies, outputs, Option.getD_some, Bool.and_eq_true]
    split <;> rfl
  | setType type dup =>
    right
    simp only [Target.run, copies, outputs]
    split <;> rfl
  | redirect sink => right; simp only [Target.run, copies, outputs, rebuild_eq]
  | inert => exact absurd ht (by simp)

theorem applyRule_spec {rx : Regexes R} {rule : Rule R} (h : Sound rx rule) (ms acc : List Metric)
    (log : List (Sink × Str)) :
    applyRule rx rule ms acc log = (log ++ copiesBy rule ms, .ok (acc ++ rewriteBy rx rule ms)) := by
  induction ms generalizing acc log with
  | nil => simp [applyRule, copiesBy, rewriteBy]
  | cons m ms ih =>
    unfold applyRule
    rw [eval_decide h.1]
    simp only [copiesBy, rewriteBy, List.flatMap_cons] at ih ⊢
    by_cases hm : Holds rule.cond m
    · simp only [hm, decide_true, if_true]
      rcases run_sound h m with ⟨hr, ho⟩ | hr
      · rw [hr]; simp only [ih, ho, List.nil_append, List.append_assoc]
      · rw [hr]; simp only [ih, List.append_assoc]
    · simp only [hm, decide_false, if_false, ih, List.nil_append, List.append_assoc]

theorem routed_nil (rx : Regexes R) (rules : List (Rule R)) : routed rx rules [] = [] := by
  induction rules with
  | nil => rfl
  | cons r rs ih =>
    show routed rx rs (rewriteBy rx r []) = []
    have : rewriteBy rx r [] = [] := by simp [rewriteBy]
    rw [this, ih]

theorem sentAway_nil (rx : Regexes R) (rules : List (Rule R)) : sentAway rx rules [] = [] := by
  induction rules with
  | nil => rfl
  | cons r rs ih =>
    have : rewriteBy rx r [] = [] := by simp [rewriteBy]
    rw [sentAway, this, ih]; simp [copiesBy]

theorem routed_cons (rx : Regexes R) (r : Rule R) (rs : List (Rule R)) (ms : List Metric) :
    routed rx (r :: rs) ms = routed rx rs (rewriteBy rx r ms) := rfl

theorem routed_append (rx : Regexes R) (rs rs' : List (Rule R)) (ms : List Metric) :
    routed rx (rs ++ rs') ms = routed rx rs' (routed rx rs ms) := by
  simp [routed, List.foldl_append]

theorem sentAway_append (rx : Regexes R) (rs rs' : List (Rule R)) (ms : List Metric) :
    sentAway rx (rs ++ rs') ms = sentAway rx rs ms ++ sentAway rx rs' (routed rx rs ms) := by
  induction rs generalizing ms with
  | nil => simp [sentAway, routed]
  | cons r rs ih => rw [List.cons_append, sentAway, sentAway, ih, routed_cons, List.append_assoc]

theorem applyRules_spec {rx : Regexes R} {rules : List (Rule R)} (h : ∀ r ∈ rules, Sound rx r)
    (ms : List Metric) (log : List (Sink × Str)) :
    applyRules rx rules ms log = (log ++ sentAway rx rules ms, .ok (routed rx rules ms)) := by
  induction rules generalizing ms log with
  | nil => simp [applyRules, sentAway, routed]
  | cons r rs ih =>
    unfold applyRules
    cases ms with
    | nil => simp only [List.isEmpty_nil, if_true, sentAway_nil, routed_nil, List.append_nil]
    | cons m ms =>
      simp only [List.isEmpty_cons, Bool.false_eq_true, if_false]
      rw [applyRule_spec (h r (by simp))]
      simp only [List.nil_append]
      rw [ih (fun r' hr' => h r' (by simp [hr'])), sentAway, routed_cons, List.append_assoc]

/-- The deliveries, as long as nothing raises. -/
theorem deliver_ok {S : Type} {proc : S → Str → Metric → S × Outcome}
    (hp : ∀ s m, (proc s (textOf m) m).2.exc = none) (s : S) (ms : List Metric) :
    (deliver proc s ms).1 = ms.foldl (fun s m => (proc s (textOf m) m).1) s ∧
      (deliver proc s ms).2.exc = none := by
  induction ms generalizing s with
  | nil => exact ⟨rfl, rfl⟩
  | cons m ms ih =>
    simp only [deliver, rebuild_eq, hp]
    exact ⟨(ih _).1, (ih _).2⟩

/-- The deliveries stop at the first exception. -/
theorem deliver_stop {S : Type} {proc : S → Str → Metric → S × Outcome} (s : S)
    (ms : List Metric) (m : Metric) (ms' : List Metric) (e : PyErr)
    (h : (deliver proc s ms).2.exc = none)
    (he : (proc (deliver proc s ms).1 (textOf m) m).2.exc = some e) :
    (deliver proc s (ms ++ m :: ms')).1 = (proc (deliver proc s ms).1 (textOf m) m).1 ∧
      (deliver proc s (ms ++ m :: ms')).2.exc = some e := by
  induction ms generalizing s with
  | nil =>
    simp only [List.nil_append, deliver, rebuild_eq] at he ⊢
    rw [he]; exact ⟨rfl, he⟩
  | cons x ms ih =>
    simp only [List.cons_append, deliver, rebuild_eq] at h he ⊢
    cases hx : (proc s (textOf x) x).2.exc with
    | some e' => rw [hx] at h; simp only at h; rw [hx] at h; cases h
    | none =>
      rw [hx] at h he
      simp only at h he ⊢
      exact ih _ h he

end Txstatsd
