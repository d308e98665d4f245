import Verif.Lemmas.Prelude
import Verif.Lemmas.ConfigurableStored
import Verif.Spec.Metrics

set_option linter.unusedSectionVars false
set_option linter.unusedSimpArgs false
set_option linter.unusedVariables false

namespace Txstatsd
open Spec

/-! ## Names -/

theorem fullyQualify_eq (ns name : Option Str) : fullyQualify ns name = qualified ns name := by
  unfold fullyQualify qualified
  rcases ns with _ | s
  · rcases name with _ | n <;> simp [joinWith]
  · rcases s with _ | ⟨c, s⟩
    · rcases name with _ | n <;> simp [joinWith, Option.filter]
    · rcases name with _ | n <;> simp [joinWith, Option.filter]

theorem qualified_legal {ns : Option Str} {n : Str} (hns : ∀ s, ns = some s → ∀ c ∈ s, Legal c) (hn : ∀ c ∈ n, Legal c) :
    ∀ c ∈ qualified ns (some n), Legal c := by
  rw [← fullyQualify_eq]
  unfold fullyQualify
  rcases ns with _ | s
  · simpa using hn
  · simp only
    split
    · intro c hc
      simp only [List.mem_append, List.mem_cons, List.not_mem_nil, or_false] at hc
      rcases hc with h | h | h
      · exact hns s rfl c h
      · subst h; decide
      · exact hn c h
    · exact hn

theorem legal_not_white {c : Char} (h : Legal c) : ¬ White c := by
  rintro hw
  unfold White at hw
  simp only [List.mem_cons, List.not_mem_nil, or_false] at hw
  rcases hw with rfl | rfl | rfl | rfl | rfl | rfl <;> revert h <;> decide

theorem legal_not_colon {c : Char} (h : Legal c) : c ≠ ':' := by
  rintro rfl; revert h; decide

/-! ## Messages with a legal name -/

/-- The key of a parsed message that begins with a legal name. -/
theorem parse_key {n rest : Str} (hn : ∀ c ∈ n, Legal c) {m : Metric} (h : parseMessage (n ++ c!":" ++ rest) = some m) :
    m.key = n := by
  obtain ⟨raw, ⟨text, ⟨a, b, he, ha, hb, hh, hl⟩, hk, hf, hc⟩, hkey⟩ := (parseMessage_spec _ m).1 h
  have hraw : ∃ r, text = raw ++ ':' :: r := by
    rcases hc with ⟨f0, _, e⟩ | ⟨f0, f2, _, e⟩ <;> exact ⟨_, e⟩
  obtain ⟨r, rfl⟩ := hraw
  -- nothing is stripped in front
  have ha0 : a = [] := by
    cases a with
    | nil => rfl
    | cons x xs =>
      exfalso
      have hx := ha x (by simp)
      cases n with
      | nil => simp only [List.nil_append, List.cons_append, List.append_assoc, List.cons.injEq] at he; rw [← he.1] at hx; revert hx; decide
      | cons y ys =>
        simp only [List.cons_append, List.append_assoc, List.cons.injEq] at he
        exact legal_not_white (hn y (by simp)) (he.1 ▸ hx)
  subst ha0
  have : n = raw := by
    have he' : n ++ ':' :: rest = raw ++ ':' :: (r ++ b) := by simpa using he
    have hn' : ':' ∉ n := fun h => legal_not_colon (hn _ h) rfl
    clear he hh hl hc h hkey hf
    induction n generalizing raw with
    | nil =>
      cases raw with
      | nil => rfl
      | cons x xs => simp at he'; simp [← he'.1] at hk
    | cons y ys ih =>
      cases raw with
      | nil => simp at he'; simp [he'.1] at hn'
      | cons x xs =>
        simp only [List.cons_append, List.cons.injEq] at he'
        rw [he'.1, ih (fun c hc => hn c (by simp [hc])) xs (fun h => hk (by simp [h])) he'.2 (fun h => hn' (by simp [h]))]
  subst this
  rw [hkey, ← normalizeKey_eq, normalizeKey_legal hn]

theorem last_append_singleton {a : Str} {c : Char} : (a ++ [c]).getLast? = some c := by simp

/-- The parts of `n:text|t`. -/
theorem parse_two {n text t : Str} (hn : ∀ c ∈ n, Legal c) (h1 : '|' ∉ text) (h2 : '|' ∉ t) (hlast : ∀ c, t.getLast? = some c → ¬ White c)
    (ht : t ≠ []) : parseMessage (n ++ c!":" ++ (text ++ c!"|" ++ t)) = some ⟨t, n, [text, t]⟩ := by
  rw [parseMessage_spec]
  refine ⟨n, ⟨_, stripped_self ?_ ?_, fun h => legal_not_colon (hn _ h) rfl, ?_, Or.inl ⟨text, rfl, by simp⟩⟩, ?_⟩
  · intro c hc
    cases n with
    | nil => simp at hc; subst hc; decide
    | cons x xs => simp at hc; subst hc; exact legal_not_white (hn _ (by simp))
  · intro c hc
    apply hlast
    rw [← hc]
    obtain ⟨l, x, rfl⟩ : ∃ l x, t = l ++ [x] := ⟨t.dropLast, t.getLast ht, (List.dropLast_append_getLast ht).symm⟩
    simp [← List.append_assoc]
  · intro f hf
    simp only [List.mem_cons, List.not_mem_nil, or_false] at hf
    rcases hf with rfl | rfl <;> assumption
  · rw [← normalizeKey_eq, normalizeKey_legal hn]

/-- The parts of `n:text|t|x`. -/
theorem parse_three {n text t x : Str} (hn : ∀ c ∈ n, Legal c) (h1 : '|' ∉ text) (h2 : '|' ∉ t) (h3 : '|' ∉ x)
    (hlast : ∀ c, x.getLast? = some c → ¬ White c) (hx : x ≠ []) :
    parseMessage (n ++ c!":" ++ (text ++ c!"|" ++ t ++ c!"|" ++ x)) = some ⟨t, n, [text, t, x]⟩ := by
  rw [parseMessage_spec]
  refine ⟨n, ⟨_, stripped_self ?_ ?_, fun h => legal_not_colon (hn _ h) rfl, ?_, Or.inr ⟨text, x, rfl, by simp⟩⟩, ?_⟩
  · intro c hc
    cases n with
    | nil => simp at hc; subst hc; decide
    | cons y ys => simp at hc; subst hc; exact legal_not_white (hn _ (by simp))
  · intro c hc
    apply hlast
    rw [← hc]
    obtain ⟨l, y, rfl⟩ : ∃ l y, x = l ++ [y] := ⟨x.dropLast, x.getLast hx, (List.dropLast_append_getLast hx).symm⟩
    simp [← List.append_assoc]
  · intro f hf
    simp only [List.mem_cons, List.not_mem_nil, or_false] at hf
    rcases hf with rfl | rfl | rfl <;> assumption
  · rw [← normalizeKey_eq, normalizeKey_legal hn]

end Txstatsd
