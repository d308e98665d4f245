import Verif.Lemmas.Fnmatch
import Verif.Spec.Glob

set_option linter.unusedSectionVars false
set_option linter.unusedSimpArgs false
set_option linter.unusedVariables false

/-!
# `fnmatch` on all patterns
-/

namespace Txstatsd
open Spec

theorem classRanges_range (a b : Char) (r : Str) :
    classRanges (a :: '-' :: b :: r) = if b < a then none else (classRanges r).map ((a, b) :: ·) := by
  rw [classRanges]

theorem classRanges_single (a : Char) (r : Str) (hr : ∀ b r', r ≠ '-' :: b :: r') :
    classRanges (a :: r) = (classRanges r).map ((a, a) :: ·) := by
  cases r with
  | nil => rfl
  | cons d r =>
    cases r with
    | nil =>
      by_cases hd : d = '-'
      · subst hd; rfl
      · simp [classRanges, hd]
    | cons e r =>
      have hd : d ≠ '-' := fun h => hr e r (by rw [h])
      rw [classRanges]
      · intro h; cases h
      · intro x h; cases h
      · intro x rest h; cases h; exact hd rfl

theorem classText_ranges {body : Str} {rs : List (Char × Char)} (h : ClassText body rs) :
    classRanges body = if rs.any (fun r => decide (r.2 < r.1)) then none else some rs := by
  induction h with
  | nil => rfl
  | range a b r rs h ih =>
    rw [classRanges_range, ih]
    by_cases hb : b < a
    · simp [hb]
    · simp only [hb, if_false, List.any_cons, decide_false, Bool.false_or]
      split_ifs <;> rfl
  | single a r rs hr h ih =>
    rw [classRanges_single a r hr, ih]
    have : decide (a < a) = false := by simp
    simp only [List.any_cons, this, Bool.false_or]
    split_ifs <;> rfl

theorem classText_exists (body : Str) : ∃ rs, ClassText body rs := by
  induction hn : body.length using Nat.strong_induction_on generalizing body with
  | _ n ih =>
    match body with
    | [] => exact ⟨_, .nil⟩
    | a :: r =>
      by_cases hr : ∃ b r', r = '-' :: b :: r'
      · obtain ⟨b, r', rfl⟩ := hr
        obtain ⟨rs, h⟩ := ih r'.length (by rw [← hn]; simp only [List.length_cons]; omega) r' rfl
        exact ⟨_, .range a b r' rs h⟩
      · obtain ⟨rs, h⟩ := ih r.length (by rw [← hn]; simp) r rfl
        exact ⟨_, .single a r rs (fun b r' e => hr ⟨b, r', e⟩) h⟩

theorem classText_unique {body : Str} {rs rs' : List (Char × Char)} (h : ClassText body rs) (h' : ClassText body rs') : rs = rs' := by
  induction h generalizing rs' with
  | nil => cases h'; rfl
  | range a b r rs h ih =>
    cases h' with
    | range _ _ _ rs2 h2 => rw [ih h2]
    | single _ _ rs2 hr h2 => exact absurd rfl (hr b r)
  | single a r rs hr h ih =>
    cases h' with
    | range _ b r2 rs2 h2 => exact absurd rfl (hr b r2)
    | single _ _ rs2 hr h2 => rw [ih h2]

theorem skipChar_eq (c : Char) (p : Str) : skipChar c p = if p.head? = some c then ([c], p.tail) else ([], p) := rfl

theorem split1_mem {p m rest : Str} {c : Char} (h : split1 c p = some (m, rest)) : p = m ++ c :: rest ∧ c ∉ m := by
  induction p generalizing m rest with
  | nil => simp [split1] at h
  | cons d p ih =>
    rw [split1] at h
    split_ifs at h with hd
    · cases h; subst hd; simp
    · cases hs : split1 c p with
      | none => rw [hs] at h; cases h
      | some mr =>
        rw [hs] at h
        obtain ⟨m2, r2⟩ := mr
        simp only [Option.map_some, Option.some.injEq, Prod.mk.injEq] at h
        obtain ⟨rfl, rfl⟩ := h
        obtain ⟨e, hn⟩ := ih hs
        refine ⟨by rw [e]; rfl, ?_⟩
        intro hm
        rcases List.mem_cons.1 hm with hm | hm
        · exact hd hm.symm
        · exact hn hm

theorem closeBracket_of {neg : Bool} {body rest : Str} (h : ClassBody neg body) :
    closeBracket (classAnd neg body rest) = some ((if neg then ['!'] else []) ++ body, rest) := by
  obtain ⟨hne, h1, h2⟩ := h
  cases body with
  | nil => exact absurd rfl hne
  | cons b body =>
    rw [List.tail_cons] at h1
    have step : ∀ x : Str, (let y := skipChar ']' (b :: (body ++ ']' :: rest))
        match split1 ']' y.2 with
        | none => none
        | some (m, r) => some (x ++ y.1 ++ m, r)) = some (x ++ b :: body, rest) := by
      intro x
      by_cases hb : b = ']'
      · subst hb
        simp only [skipChar_eq, List.head?_cons, if_true, List.tail_cons, split1_eq h1]
        simp
      · have hb2 : ']' ∉ b :: body := by
          intro h; rcases List.mem_cons.1 h with h | h
          · exact hb h.symm
          · exact h1 h
        have := split1_eq (b := rest) hb2
        rw [List.cons_append] at this
        simp only [skipChar_eq, List.head?_cons, Option.some.injEq, hb, if_false, this]
        simp
    cases neg with
    | true =>
      have := step ['!']
      unfold closeBracket classAnd
      simp only [if_true, List.singleton_append, List.cons_append, skipChar_eq '!', List.head?_cons, List.tail_cons]
      exact this
    | false =>
      have hb : b ≠ '!' := by simpa using h2 rfl
      have := step []
      unfold closeBracket classAnd
      simp only [Bool.false_eq_true, if_false, List.nil_append, List.cons_append, skipChar_eq '!', List.head?_cons, Option.some.injEq, hb]
      exact this

theorem closeBracket_some {p stuff rest : Str} (h : closeBracket p = some (stuff, rest)) :
    ∃ neg body, ClassBody neg body ∧ p = classAnd neg body rest ∧ stuff = (if neg then ['!'] else []) ++ body := by
  have inner : ∀ q m r, split1 ']' (skipChar ']' q).2 = some (m, r) →
      q = (skipChar ']' q).1 ++ m ++ ']' :: r ∧ ']' ∉ ((skipChar ']' q).1 ++ m).tail ∧ (skipChar ']' q).1 ++ m ≠ [] := by
    intro q m r hs
    rw [skipChar_eq] at hs ⊢
    split_ifs at hs ⊢ with hq
    · obtain ⟨e, hn⟩ := split1_mem hs
      cases q with
      | nil => cases hq
      | cons d q =>
        simp only [List.head?_cons, Option.some.injEq] at hq
        subst hq
        change q = m ++ ']' :: r at e
        exact ⟨by rw [e]; simp, by simpa using hn, by simp⟩
    · obtain ⟨e, hn⟩ := split1_mem hs
      simp only at e
      refine ⟨by simpa using e, fun hm => hn (List.mem_of_mem_tail (by simpa using hm)), ?_⟩
      rintro hm
      rw [List.nil_append] at hm
      subst hm
      rw [e] at hq
      exact hq rfl
  unfold closeBracket at h
  by_cases hp : p.head? = some '!'
  · cases p with
    | nil => cases hp
    | cons d q =>
      simp only [List.head?_cons, Option.some.injEq] at hp
      subst hp
      have e1 : skipChar '!' ('!' :: q) = (['!'], q) := rfl
      simp only [e1] at h
      cases hs : split1 ']' (skipChar ']' q).2 with
      | none => rw [hs] at h; cases h
      | some mr =>
        obtain ⟨m, r⟩ := mr
        rw [hs] at h
        simp only [Option.some.injEq, Prod.mk.injEq] at h
        obtain ⟨rfl, rfl⟩ := h
        obtain ⟨i1, i2, i3⟩ := inner q m r hs
        refine ⟨true, (skipChar ']' q).1 ++ m, ⟨i3, i2, fun h => by cases h⟩, ?_, by simp⟩
        unfold classAnd
        simp only [if_true, List.singleton_append, List.cons_append, List.nil_append]
        rw [← i1]
  · have e1 : skipChar '!' p = ([], p) := by rw [skipChar_eq, if_neg hp]
    simp only [e1] at h
    cases hs : split1 ']' (skipChar ']' p).2 with
    | none => rw [hs] at h; cases h
    | some mr =>
      obtain ⟨m, r⟩ := mr
      rw [hs] at h
      simp only [Option.some.injEq, Prod.mk.injEq] at h
      obtain ⟨rfl, rfl⟩ := h
      obtain ⟨i1, i2, i3⟩ := inner p m r hs
      refine ⟨false, (skipChar ']' p).1 ++ m, ⟨i3, i2, fun _ hh => hp ?_⟩, ?_, by simp⟩
      · rw [i1, List.head?_append, hh]; rfl
      · unfold classAnd
        simp only [Bool.false_eq_true, if_false, List.nil_append]
        exact i1

theorem classOf_eq {neg : Bool} {body : Str} (h : ClassBody neg body) :
    classOf ((if neg then ['!'] else []) ++ body) = .set neg (classRanges body) := by
  obtain ⟨hne, _, h2⟩ := h
  cases neg with
  | true => rfl
  | false =>
    cases body with
    | nil => exact absurd rfl hne
    | cons b body =>
      have hb : b ≠ '!' := by simpa using h2 rfl
      simp only [Bool.false_eq_true, if_false, List.nil_append]
      rw [classOf]
      intro r h
      cases h
      exact hb rfl

/-- The element `fnmatch.translate` makes. -/
def globOf : PatternPart → Glob
  | .any => .star
  | .one => .one
  | .char c => .lit c
  | .oneOf neg rs => .set neg (if rs.any (fun r => decide (r.2 < r.1)) then none else some rs)

theorem globs_class {neg : Bool} {body p : Str} (hb : ClassBody neg body) :
    globs 0 ('[' :: classAnd neg body p) = .set neg (classRanges body) :: globs 0 p := by
  rw [globs, if_neg (by decide), if_neg (by decide), if_pos rfl, closeBracket_of hb]
  simp only
  rw [classOf_eq hb]
  congr 1
  have e : classAnd neg body p = ((if neg then ['!'] else []) ++ body ++ [']']) ++ p := by simp [classAnd]
  rw [e]
  apply globs_skip
  rw [List.length_append]
  omega

theorem globs_bracket {p : Str} (hn : ∀ neg body q, ClassBody neg body → p ≠ classAnd neg body q) :
    globs 0 ('[' :: p) = .lit '[' :: globs 0 p := by
  rw [globs, if_neg (by decide), if_neg (by decide), if_pos rfl]
  cases hc : closeBracket p with
  | none => rfl
  | some sr =>
    obtain ⟨stuff, rest⟩ := sr
    obtain ⟨neg, body, h1, h2, _⟩ := closeBracket_some hc
    exact absurd h2 (hn neg body rest h1)

theorem reads_globs {p : Str} {ps : List PatternPart} (h : Reads p ps) : globs 0 p = ps.map globOf := by
  induction h with
  | nil => rfl
  | any p ps h ih => rw [globs, if_pos rfl, ih]; rfl
  | one p ps h ih => rw [globs, if_neg (by decide), if_pos rfl, ih]; rfl
  | char c p ps hc h ih =>
    simp only [List.mem_cons, List.not_mem_nil, or_false, not_or] at hc
    rw [globs, if_neg hc.1, if_neg hc.2.1, if_neg hc.2.2, ih]; rfl
  | oneOf neg body rs p ps hb ht h ih => rw [globs_class hb, ih, classText_ranges ht]; rfl
  | bracket p ps hn h ih => rw [globs_bracket hn, ih]; rfl

theorem reads_exists (p : Str) : ∃ ps, Reads p ps := by
  induction hn : p.length using Nat.strong_induction_on generalizing p with
  | _ n ih =>
    match p with
    | [] => exact ⟨_, .nil⟩
    | c :: p =>
      obtain ⟨ps, h⟩ := ih p.length (by rw [← hn]; simp) p rfl
      by_cases h1 : c = '*'
      · subst h1; exact ⟨_, .any p ps h⟩
      by_cases h2 : c = '?'
      · subst h2; exact ⟨_, .one p ps h⟩
      by_cases h3 : c = '['
      · subst h3
        by_cases hc : ∃ neg body q, ClassBody neg body ∧ p = classAnd neg body q
        · obtain ⟨neg, body, q, hb, rfl⟩ := hc
          obtain ⟨rs, ht⟩ := classText_exists body
          obtain ⟨ps2, hq⟩ := ih q.length (by rw [← hn]; simp [classAnd]; omega) q rfl
          exact ⟨_, .oneOf neg body rs q ps2 hb ht hq⟩
        · exact ⟨_, .bracket p ps (fun neg body q hb e => hc ⟨neg, body, q, hb, e⟩) h⟩
      · exact ⟨_, .char c p ps (by simp [h1, h2, h3]) h⟩

theorem classAnd_unique {neg neg' : Bool} {body body' p p' : Str} (h : ClassBody neg body) (h' : ClassBody neg' body')
    (e : classAnd neg body p = classAnd neg' body' p') : neg = neg' ∧ body = body' ∧ p = p' := by
  have c := closeBracket_of (rest := p) h
  rw [e, closeBracket_of h'] at c
  simp only [Option.some.injEq, Prod.mk.injEq] at c
  obtain ⟨c1, c2⟩ := c
  cases neg <;> cases neg'
  · exact ⟨rfl, by simpa using c1.symm, c2.symm⟩
  · exact absurd (by rw [show body = '!' :: body' by simpa using c1.symm]; rfl) (h.2.2 rfl)
  · exact absurd (by rw [show body' = '!' :: body by simpa using c1]; rfl) (h'.2.2 rfl)
  · exact ⟨rfl, by simpa using c1.symm, c2.symm⟩

theorem reads_unique {p : Str} {ps ps' : List PatternPart} (h : Reads p ps) (h' : Reads p ps') : ps = ps' := by
  induction h generalizing ps' with
  | nil => cases h'; rfl
  | any p ps h ih =>
    cases h' with
    | any _ ps2 h2 => rw [ih h2]
    | char _ _ _ hc _ => simp at hc
  | one p ps h ih =>
    cases h' with
    | one _ ps2 h2 => rw [ih h2]
    | char _ _ _ hc _ => simp at hc
  | char c p ps hc h ih =>
    cases h' with
    | any => simp at hc
    | one => simp at hc
    | char _ _ ps2 _ h2 => rw [ih h2]
    | oneOf => simp at hc
    | bracket => simp at hc
  | oneOf neg body rs p ps hb ht h ih =>
    generalize hx : '[' :: classAnd neg body p = x at h'
    cases h' with
    | nil => cases hx
    | any => cases hx
    | one => cases hx
    | char c _ _ hc _ => cases hx; simp at hc
    | oneOf neg2 body2 rs2 p2 ps2 hb2 ht2 h2 =>
      obtain ⟨rfl, rfl, rfl⟩ := classAnd_unique hb hb2 (List.cons.inj hx).2
      rw [ih h2, classText_unique ht ht2]
    | bracket p2 ps2 hn h2 => exact absurd (List.cons.inj hx).2.symm (hn neg body p hb)
  | bracket p ps hn h ih =>
    generalize hx : '[' :: p = x at h'
    cases h' with
    | nil => cases hx
    | any => cases hx
    | one => cases hx
    | char c _ _ hc _ => cases hx; simp at hc
    | oneOf neg2 body2 rs2 p2 ps2 hb2 ht2 h2 => exact absurd (List.cons.inj hx).2 (hn neg2 body2 p2 hb2)
    | bracket p2 ps2 hn2 h2 => cases hx; rw [ih h2]

theorem fits_iff {ps : List PatternPart} (hd : ¬ Disordered ps) (s : Str) :
    globMatch (ps.map globOf) s = true ↔ Fits ps s := by
  induction ps generalizing s with
  | nil =>
    simp only [List.map_nil, globMatch, List.isEmpty_iff]
    constructor
    · rintro rfl; exact .nil
    · intro h; cases h; rfl
  | cons g ps ih =>
    have hd' : ¬ Disordered ps := fun ⟨neg, rs, h, r⟩ => hd ⟨neg, rs, List.mem_cons_of_mem _ h, r⟩
    have ih := ih hd'
    rw [List.map_cons]
    cases g with
    | any =>
      show globMatch (.star :: ps.map globOf) s = true ↔ _
      rw [globMatch, tails_any]
      constructor
      · rintro ⟨a, t, rfl, ht⟩; exact .any a t ps ((ih t).1 ht)
      · intro h
        cases h with
        | any a t _ ht => exact ⟨a, t, rfl, (ih t).2 ht⟩
    | one =>
      show globMatch (.one :: ps.map globOf) s = true ↔ _
      cases s with
      | nil => simp only [globMatch, Bool.false_eq_true, false_iff]; intro h; cases h
      | cons c s =>
        rw [globMatch, ih]
        exact ⟨fun h => .one c s ps h, fun h => by cases h; assumption⟩
    | char d =>
      show globMatch (.lit d :: ps.map globOf) s = true ↔ _
      cases s with
      | nil => simp only [globMatch, Bool.false_eq_true, false_iff]; intro h; cases h
      | cons c s =>
        rw [globMatch, Bool.and_eq_true, beq_iff_eq, ih]
        constructor
        · rintro ⟨rfl, h⟩; exact .char d s ps h
        · intro h; cases h; exact ⟨rfl, by assumption⟩
    | oneOf neg rs =>
      have ho : rs.any (fun r => decide (r.2 < r.1)) = false := by
        rw [List.any_eq_false]
        intro r hr hlt
        exact hd ⟨neg, rs, by simp, r, hr, of_decide_eq_true hlt⟩
      show globMatch (.set neg _ :: ps.map globOf) s = true ↔ _
      rw [ho]
      cases s with
      | nil => simp only [globMatch, Bool.false_eq_true, false_iff]; intro h; cases h
      | cons c s =>
        rw [globMatch, Bool.and_eq_true, ih]
        have hin : inClass neg rs c = true ↔ ((∃ r ∈ rs, r.1 ≤ c ∧ c ≤ r.2) ↔ neg = false) := by
          unfold inClass
          have : (rs.any fun r => decide (r.1 ≤ c) && decide (c ≤ r.2)) = true ↔ ∃ r ∈ rs, r.1 ≤ c ∧ c ≤ r.2 := by
            simp [List.any_eq_true]
          rw [← this]
          cases (rs.any fun r => decide (r.1 ≤ c) && decide (c ≤ r.2)) <;> cases neg <;> simp
        simp only [Bool.false_eq_true, if_false, Option.getD_some]
        rw [hin]
        constructor
        · rintro ⟨h1, h2⟩; exact .oneOf neg rs c s ps h1 h2
        · intro h
          cases h with
          | oneOf _ _ _ _ _ h1 h2 => exact ⟨h1, h2⟩

theorem bad_iff (ps : List PatternPart) : (ps.map globOf).any Glob.bad = true ↔ Disordered ps := by
  rw [List.any_eq_true]
  constructor
  · rintro ⟨g, hg, hb⟩
    obtain ⟨q, hq, rfl⟩ := List.mem_map.1 hg
    cases q with
    | any => cases hb
    | one => cases hb
    | char c => cases hb
    | oneOf neg rs =>
      by_cases h : rs.any (fun r => decide (r.2 < r.1)) = true
      · obtain ⟨r, hr, hlt⟩ := List.any_eq_true.1 h
        exact ⟨neg, rs, hq, r, hr, of_decide_eq_true hlt⟩
      · simp [globOf, h, Glob.bad] at hb
  · rintro ⟨neg, rs, h, r, hr, hlt⟩
    refine ⟨_, List.mem_map_of_mem h, ?_⟩
    have : rs.any (fun r => decide (r.2 < r.1)) = true := List.any_eq_true.2 ⟨r, hr, decide_eq_true hlt⟩
    simp [globOf, this, Glob.bad]

/-- `fnmatch` on every pattern. -/
theorem fnmatch_full (p : Str) : ∃ ps, Reads p ps ∧ (∀ ps', Reads p ps' → ps' = ps) ∧ ∀ name,
    (Disordered ps → fnmatch name p = .error .otherError) ∧
    (¬ Disordered ps → ∃ b, fnmatch name p = .ok b ∧ (b = true ↔ Fits ps name)) := by
  obtain ⟨ps, h⟩ := reads_exists p
  refine ⟨ps, h, fun ps' h' => reads_unique h' h, fun name => ⟨fun hd => ?_, fun hd => ?_⟩⟩
  · unfold fnmatch
    simp only [reads_globs h, (bad_iff ps).2 hd, if_true]
  · have hb : (ps.map globOf).any Glob.bad = false := by
      rw [Bool.eq_false_iff]; exact fun h => hd ((bad_iff ps).1 h)
    refine ⟨globMatch (ps.map globOf) name, ?_, fits_iff hd name⟩
    unfold fnmatch
    simp only [reads_globs h, hb, Bool.false_eq_true, if_false]

/-- Without brackets a pattern fits what `GlobMatch` says, and has no class. -/
theorem reads_plain {p : Str} {ps : List PatternPart} (h : Reads p ps) (hp : '[' ∉ p) :
    ¬ Disordered ps ∧ ∀ s, Fits ps s ↔ GlobMatch p s := by
  have hn : ¬ Disordered ps := by
    induction h with
    | nil => rintro ⟨_, _, h, _⟩; simp at h
    | any p ps h ih | one p ps h ih =>
      rintro ⟨neg, rs, h, r⟩
      refine ih (fun h => hp (List.mem_cons_of_mem _ h)) ⟨neg, rs, ?_, r⟩
      simpa using h
    | char c p ps hc h ih =>
      rintro ⟨neg, rs, h, r⟩
      refine ih (fun h => hp (List.mem_cons_of_mem _ h)) ⟨neg, rs, ?_, r⟩
      simpa using h
    | oneOf => exact absurd (List.mem_cons_self ..) hp
    | bracket => exact absurd (List.mem_cons_self ..) hp
  refine ⟨hn, fun s => ?_⟩
  rw [← fits_iff hn, ← globMatch_plain, ← reads_globs h, globs_plain hp]

theorem goodPattern_plain {p : Str} (hp : '[' ∉ p) : GoodPattern p := fun _ h => (reads_plain h hp).1

theorem shell_plain {p : Str} (hp : '[' ∉ p) (s : Str) : ShellMatch p s ↔ GlobMatch p s := by
  constructor
  · rintro ⟨ps, h1, h2⟩; exact ((reads_plain h1 hp).2 s).1 h2
  · intro h
    obtain ⟨ps, h1⟩ := reads_exists p
    exact ⟨ps, h1, ((reads_plain h1 hp).2 s).2 h⟩

theorem fnmatch_good {p : Str} (hp : GoodPattern p) (s : Str) : ∃ b, fnmatch s p = .ok b ∧ (b = true ↔ ShellMatch p s) := by
  obtain ⟨ps, h1, h2, h3⟩ := fnmatch_full p
  obtain ⟨b, e, hb⟩ := (h3 s).2 (hp ps h1)
  refine ⟨b, e, hb.trans ⟨fun h => ⟨ps, h1, h⟩, ?_⟩⟩
  rintro ⟨ps', g1, g2⟩
  rw [h2 ps' g1] at g2
  exact g2

theorem fnmatch_true (s p : Str) : fnmatch s p = .ok true ↔ GoodPattern p ∧ ShellMatch p s := by
  constructor
  · intro h
    have hg : GoodPattern p := by
      intro ps hr hd
      obtain ⟨ps', h1, h2, h3⟩ := fnmatch_full p
      rw [h2 ps hr] at hd
      rw [(h3 s).1 hd] at h
      cases h
    obtain ⟨b, e, hb⟩ := fnmatch_good hg s
    rw [h] at e
    cases e
    exact ⟨hg, hb.1 rfl⟩
  · rintro ⟨hg, hm⟩
    obtain ⟨b, e, hb⟩ := fnmatch_good hg s
    rw [e, hb.2 hm]

end Txstatsd
