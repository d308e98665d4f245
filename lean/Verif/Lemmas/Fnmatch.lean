import Verif.Spec.Router
import Verif.Lemmas.Text
import Mathlib.Data.List.Infix

/-!
# `fnmatch` on patterns without character classes, and on simple classes
-/

set_option linter.unusedSectionVars false
set_option linter.unusedSimpArgs false
set_option linter.unusedVariables false

namespace Txstatsd
open Spec

/-- The translation of one character outside classes. -/
def plainGlob (c : Char) : Glob :=
  if c = '*' then .star else if c = '?' then .one else .lit c

theorem globs_plain {p : Str} (h : '[' ∉ p) : globs 0 p = p.map plainGlob := by
  induction p with
  | nil => rfl
  | cons c p ih =>
    have hc : c ≠ '[' := fun e => h (by simp [e])
    have hp : '[' ∉ p := fun e => h (by simp [e])
    rw [globs, List.map_cons, plainGlob]
    split
    · rw [ih hp]
    · split
      · rw [ih hp]
      · first | rw [ih hp] | rw [if_neg hc, ih hp]

theorem bad_plain (p : Str) : (p.map plainGlob).any Glob.bad = false := by
  rw [List.any_eq_false]
  intro g hg
  obtain ⟨c, _, rfl⟩ := List.mem_map.1 hg
  unfold plainGlob
  split
  · simp [Glob.bad]
  · split <;> simp [Glob.bad]

theorem tails_any {f : Str → Bool} {s : Str} :
    s.tails.any f = true ↔ ∃ a t, s = a ++ t ∧ f t = true := by
  rw [List.any_eq_true]
  constructor
  · rintro ⟨t, ht, hf⟩
    rw [List.mem_tails] at ht
    obtain ⟨a, rfl⟩ := ht
    exact ⟨a, t, rfl, hf⟩
  · rintro ⟨a, t, rfl, hf⟩
    exact ⟨t, by rw [List.mem_tails]; exact ⟨a, rfl⟩, hf⟩

theorem globMatch_plain {p s : Str} : globMatch (p.map plainGlob) s = true ↔ GlobMatch p s := by
  induction p generalizing s with
  | nil =>
    simp only [List.map_nil, globMatch, List.isEmpty_iff]
    constructor
    · rintro rfl; exact .nil
    · intro h; cases h; rfl
  | cons c p ih =>
    rw [List.map_cons, plainGlob]
    split
    · next hc =>
      subst hc
      rw [globMatch, tails_any]
      constructor
      · rintro ⟨a, t, rfl, ht⟩; exact .star a p t (ih.1 ht)
      · intro h
        cases h with
        | star a _ t ht => exact ⟨a, t, rfl, ih.2 ht⟩
        | lit _ _ _ h1 => exact absurd rfl h1
    · next hc =>
      split
      · next hq =>
        subst hq
        cases s with
        | nil =>
          simp only [globMatch, Bool.false_eq_true, false_iff]
          intro h; cases h
        | cons d s =>
          rw [globMatch, ih]
          constructor
          · exact .one d p s
          · intro h
            cases h with
            | one _ _ _ h => exact h
            | lit _ _ _ _ h2 => exact absurd rfl h2
      · next hq =>
        cases s with
        | nil =>
          simp only [globMatch, Bool.false_eq_true, false_iff]
          intro h
          generalize hx : c :: p = x at h
          generalize hy : ([] : Str) = y at h
          cases h with
          | nil => cases hx
          | star a _ t _ => cases hx; exact hc rfl
          | one => cases hy
          | lit => cases hy
        | cons d s =>
          rw [globMatch, Bool.and_eq_true, beq_iff_eq, ih]
          constructor
          · rintro ⟨rfl, h⟩; exact .lit c p s hc hq h
          · intro h
            generalize hx : c :: p = x at h
            generalize hy : d :: s = y at h
            cases h with
            | nil => cases hx
            | star a _ t _ => cases hx; exact absurd rfl hc
            | one => cases hx; exact absurd rfl hq
            | lit _ _ _ _ _ h => cases hx; cases hy; exact ⟨rfl, h⟩

theorem fnmatch_plain {name p : Str} (h : '[' ∉ p) :
    fnmatch name p = .ok (globMatch (p.map plainGlob) name) := by
  unfold fnmatch
  simp only [globs_plain h, bad_plain, Bool.false_eq_true, if_false]

/-- A pattern without classes never raises, and decides the shell match. -/
theorem fnmatch_iff {name p : Str} (h : '[' ∉ p) (b : Bool) :
    fnmatch name p = .ok b ↔ (b = true ↔ GlobMatch p name) := by
  rw [fnmatch_plain h, ← globMatch_plain]
  cases globMatch (p.map plainGlob) name <;> cases b <;> simp

/-! ## Classes -/

theorem classRanges_plain {body : Str} (h : '-' ∉ body) :
    classRanges body = some (body.map fun c => (c, c)) := by
  induction body with
  | nil => rfl
  | cons c body ih =>
    have hb : '-' ∉ body := fun e => h (by simp [e])
    cases body with
    | nil => rfl
    | cons d body =>
      have hd : d ≠ '-' := fun e => hb (by simp [e])
      cases body with
      | nil => simp [classRanges, hd]
      | cons e body =>
        rw [classRanges, ih hb]
        · simp
        · intro h; cases h
        · intro x h; cases h
        · intro x rest h; cases h; exact hd rfl

theorem inClass_plain (neg : Bool) (body : Str) (c : Char) :
    inClass neg (body.map fun c => (c, c)) c = (decide (c ∈ body) != neg) := by
  unfold inClass
  congr 1
  rw [List.any_map, Bool.eq_iff_iff, List.any_eq_true, decide_eq_true_iff]
  constructor
  · rintro ⟨d, hd, h⟩
    simp only [Function.comp, Bool.and_eq_true, decide_eq_true_eq] at h
    have : c = d := by
      apply Char.ext; exact UInt32.le_antisymm h.2 h.1
    rw [this]; exact hd
  · intro h
    refine ⟨c, h, ?_⟩
    simp only [Function.comp, Bool.and_eq_true, decide_eq_true_eq]
    exact ⟨UInt32.le_refl _, UInt32.le_refl _⟩

theorem globs_skip (x : Str) (rest : Str) (k : Nat) (h : k = x.length) :
    globs k (x ++ rest) = globs 0 rest := by
  subst h
  induction x with
  | nil => rfl
  | cons c x ih => rw [List.cons_append, List.length_cons, globs, ih]

theorem closeBracket_plain {neg : Bool} {body p : Str} (hne : body ≠ []) (h1 : ']' ∉ body)
    (h2 : neg = false → body.head? ≠ some '!') :
    closeBracket ((if neg then ['!'] else []) ++ body ++ ']' :: p)
      = some ((if neg then ['!'] else []) ++ body, p) := by
  cases body with
  | nil => exact absurd rfl hne
  | cons c body =>
    have hc : c ≠ ']' := fun e => h1 (by simp [e])
    have hb : ']' ∉ c :: body := h1
    have m2 : skipChar ']' (c :: body ++ ']' :: p) = ([], c :: body ++ ']' :: p) := by
      simp [skipChar, hc]
    cases neg with
    | true =>
      have m1 : skipChar '!' (['!'] ++ (c :: body) ++ ']' :: p) = (['!'], c :: body ++ ']' :: p) := by
        simp [skipChar]
      simp only [closeBracket, if_true, m1, m2, split1_eq hb]
      rfl
    | false =>
      have h3 : c ≠ '!' := fun e => h2 rfl (by simp [e])
      have m1 : skipChar '!' ([] ++ (c :: body) ++ ']' :: p) = ([], c :: body ++ ']' :: p) := by
        simp [skipChar, h3]
      simp only [closeBracket, Bool.false_eq_true, if_false, m1, m2, split1_eq hb]
      rfl

theorem classOf_plain {neg : Bool} {body : Str}
    (h2 : neg = false → body.head? ≠ some '!') :
    classOf ((if neg then ['!'] else []) ++ body) = .set neg (classRanges body) := by
  cases neg with
  | true => rfl
  | false =>
    simp only [Bool.false_eq_true, if_false, List.nil_append]
    unfold classOf
    split
    · next r => exact absurd rfl (h2 rfl)
    · rfl

/-- A pattern starting with a class of single characters. -/
theorem fnmatch_class {neg : Bool} {body p name : Str} (hne : body ≠ []) (h1 : ']' ∉ body)
    (h2 : neg = false → body.head? ≠ some '!') (h3 : '-' ∉ body) (h4 : '[' ∉ p) :
    fnmatch name ('[' :: ((if neg then ['!'] else []) ++ body ++ ']' :: p)) = .ok true ↔
      ∃ c s, name = c :: s ∧ (c ∈ body ↔ neg = false) ∧ GlobMatch p s := by
  have hg : globs 0 ('[' :: ((if neg then ['!'] else []) ++ body ++ ']' :: p))
      = .set neg (some (body.map fun c => (c, c))) :: p.map plainGlob := by
    rw [globs, if_neg (by decide), if_neg (by decide), if_pos rfl, closeBracket_plain hne h1 h2]
    simp only
    rw [classOf_plain h2, classRanges_plain h3]
    congr 1
    rw [← globs_plain h4]
    have e : (if neg then ['!'] else []) ++ body ++ ']' :: p
        = ((if neg then ['!'] else []) ++ body ++ [']']) ++ p := by simp
    rw [e]
    apply globs_skip
    simp only [List.length_append]; omega
  unfold fnmatch
  simp only [hg, List.any_cons, Glob.bad, Bool.false_or, bad_plain, Bool.false_eq_true, if_false,
    Except.ok.injEq]
  cases name with
  | nil => simp [globMatch]
  | cons c s =>
    rw [globMatch, Bool.and_eq_true, globMatch_plain, Option.getD_some, inClass_plain]
    constructor
    · rintro ⟨h, hs⟩
      refine ⟨c, s, rfl, ?_, hs⟩
      cases neg <;> simpa using h
    · rintro ⟨c', s', ⟨⟩, h, hs⟩
      refine ⟨?_, hs⟩
      cases neg <;> simpa using h

end Txstatsd
