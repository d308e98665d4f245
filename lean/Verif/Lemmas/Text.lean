import Verif.Lemmas.Prelude
import Verif.Model.Text
import Verif.Spec.Text

set_option linter.unusedSectionVars false
set_option linter.unusedSimpArgs false
set_option linter.unusedVariables false

namespace Txstatsd
open Spec

theorem isSpace_iff (c : Char) : isSpace c = true ↔ White c := by
  simp [isSpace, White, or_assoc]

theorem isSpace_false_iff (c : Char) : isSpace c = false ↔ ¬ White c := by
  rw [← isSpace_iff]; simp

theorem isKeyChar_iff (c : Char) : isKeyChar c = true ↔ Legal c := by
  simp only [isKeyChar, isDigit, Legal, Char.isAlphanum, Char.isAlpha, Char.isUpper, Char.isLower,
    Char.isDigit, Char.le_def, Bool.or_eq_true, Bool.and_eq_true, decide_eq_true_eq, beq_iff_eq, ge_iff_le]
  have h1 : ('a' : Char).val = 97 := rfl
  have h2 : ('z' : Char).val = 122 := rfl
  have h3 : ('A' : Char).val = 65 := rfl
  have h4 : ('Z' : Char).val = 90 := rfl
  have h5 : ('0' : Char).val = 48 := rfl
  have h6 : ('9' : Char).val = 57 := rfl
  rw [h1, h2, h3, h4, h5, h6]
  tauto

/-! ## Collapsing runs -/

/-- One-pass form of `subRuns`; `prev` tells whether the previous character was in the class. -/
def collapse (p : Char → Bool) (r : Char) : Bool → Str → Str
  | _, [] => []
  | prev, c :: cs =>
    (if p c then (if prev then [] else [r]) else [c]) ++ collapse p r (p c) cs

theorem collapse_true (p : Char → Bool) (r : Char) (s : Str) :
    collapse p r true s = collapse p r false (s.dropWhile p) := by
  induction s with
  | nil => simp [collapse]
  | cons c cs ih =>
    by_cases h : p c
    · simp [collapse, h, List.dropWhile_cons, ih]
    · simp [collapse, h, List.dropWhile_cons]

theorem subRuns_eq_collapse (p : Char → Bool) (r : Char) (s : Str) :
    subRuns p r s = collapse p r false s := by
  induction s using subRuns.induct p with
  | case1 => simp [subRuns, collapse]
  | case2 c cs h ih => rw [subRuns]; simp [h, ih, collapse, collapse_true]
  | case3 c cs h ih => rw [subRuns]; simp [h, ih, collapse]

/-- The specification in recursive form. -/
def normFrom : Option Char → Str → Str
  | _, [] => []
  | prev, c :: cs => normChar prev c ++ normFrom (some c) cs

theorem normFrom_eq (prev : Option Char) (s : Str) :
    normFrom prev s = ((prev :: s.map some).zip s).flatMap fun p => normChar p.1 p.2 := by
  induction s generalizing prev with
  | nil => simp [normFrom]
  | cons c cs ih => simp [normFrom, ih]

theorem normFrom_none (s : Str) : normFrom none s = Spec.normalize s := normFrom_eq none s

theorem collapse_filter (prev : Option Char) (s : Str) :
    (collapse (· == '/') '-' (decide (prev = some '/'))
      (collapse isSpace '_' (decide (∃ p, prev = some p ∧ White p)) s)).filter isKeyChar
    = normFrom prev s := by
  have key : ∀ c : Char, White c → c ≠ '/' := by
    intro c hc h; subst h; revert hc; decide
  induction s generalizing prev with
  | nil => simp [collapse, normFrom]
  | cons c cs ih =>
    have ih' := ih (some c)
    by_cases hw : White c
    · have hs : isSpace c = true := (isSpace_iff c).2 hw
      have hne : c ≠ '/' := key c hw
      have e1 : decide (∃ p, some c = some p ∧ White p) = true := by simpa using hw
      rw [e1] at ih'
      simp only [Option.some.injEq] at ih'
      simp only [hne, decide_false] at ih'
      by_cases hp : ∃ p, prev = some p ∧ White p
      · have hps : prev ≠ some '/' := by
          rintro rfl; obtain ⟨p, hp1, hp2⟩ := hp
          simp only [Option.some.injEq] at hp1; exact key p hp2 hp1.symm
        simp only [collapse, hs, normFrom, normChar, hw, if_true, hp, decide_true, hps, decide_false,
          List.nil_append]
        exact ih'
      · have hs' : ('_' == '/') = false := by decide
        simp only [collapse, hs, normFrom, normChar, hw, if_true, hp, decide_false, if_false,
          Bool.false_eq_true, List.cons_append, List.nil_append, hs']
        have hk : isKeyChar '_' = true := by decide
        rw [List.filter_cons_of_pos hk, ih']
    · have hs : isSpace c = false := (isSpace_false_iff c).2 hw
      have e1 : decide (∃ p, some c = some p ∧ White p) = false := by simpa using hw
      rw [e1] at ih'
      simp only [Option.some.injEq] at ih'
      simp only [collapse, hs, normFrom, normChar, hw, if_false, Bool.false_eq_true, List.cons_append,
        List.nil_append]
      by_cases hsl : c = '/'
      · subst hsl
        simp only [decide_true] at ih'
        simp only [beq_self_eq_true, if_true]
        by_cases hp : prev = some '/'
        · simp only [hp, decide_true, if_true, List.nil_append]; exact ih'
        · simp only [hp, decide_false, if_false, Bool.false_eq_true, List.cons_append, List.nil_append]
          have hk : isKeyChar '-' = true := by decide
          rw [List.filter_cons_of_pos hk, ih']
      · have hb : (c == '/') = false := by simpa using hsl
        simp only [hsl, decide_false] at ih'
        simp only [hb, hsl, if_false, Bool.false_eq_true, List.cons_append, List.nil_append]
        by_cases hl : Legal c
        · have hk := (isKeyChar_iff c).2 hl
          rw [List.filter_cons_of_pos hk, ih']; simp [hl]
        · have hk : ¬ isKeyChar c = true := fun h => hl ((isKeyChar_iff c).1 h)
          rw [List.filter_cons_of_neg hk, ih']; simp [hl]

theorem normalizeKey_eq (s : Str) : normalizeKey s = Spec.normalize s := by
  have h := collapse_filter none s
  simp only [reduceCtorEq, false_and, exists_false, decide_false] at h
  rw [normFrom_none] at h
  rw [← h, normalizeKey, subRuns_eq_collapse, subRuns_eq_collapse]

theorem legal_of_mem_normalizeKey {s : Str} {c : Char} (h : c ∈ normalizeKey s) : Legal c := by
  rw [normalizeKey] at h
  exact (isKeyChar_iff c).1 (List.mem_filter.1 h).2

theorem not_white_of_legal {c : Char} (h : Legal c) : ¬ White c := by
  intro hw
  simp only [White, List.mem_cons, List.not_mem_nil, or_false] at hw
  rcases hw with rfl | rfl | rfl | rfl | rfl | rfl <;> revert h <;> decide

theorem ne_slash_of_legal {c : Char} (h : Legal c) : c ≠ '/' := by
  rintro rfl; revert h; decide

theorem ne_colon_of_legal {c : Char} (h : Legal c) : c ≠ ':' := by
  rintro rfl; revert h; decide

theorem ne_bar_of_legal {c : Char} (h : Legal c) : c ≠ '|' := by
  rintro rfl; revert h; decide

theorem normFrom_legal (prev : Option Char) (s : Str) (h : ∀ c ∈ s, Legal c) : normFrom prev s = s := by
  induction s generalizing prev with
  | nil => rfl
  | cons c cs ih =>
    have hc := h c (by simp)
    simp [normFrom, normChar, not_white_of_legal hc, ne_slash_of_legal hc, hc,
      ih (some c) (fun d hd => h d (by simp [hd]))]

theorem normalizeKey_legal {s : Str} (h : ∀ c ∈ s, Legal c) : normalizeKey s = s := by
  rw [normalizeKey_eq, ← normFrom_none, normFrom_legal none s h]

/-! ## Strip -/

theorem strip_spec (s : Str) : Stripped s (strip s) := by
  unfold strip rstrip lstrip
  set t := s.dropWhile isSpace with ht
  refine ⟨s.takeWhile isSpace, (t.reverse.takeWhile isSpace).reverse, ?_, ?_, ?_, ?_, ?_⟩
  · rw [List.append_assoc, ← List.reverse_append, List.takeWhile_append_dropWhile, List.reverse_reverse,
      ht, List.takeWhile_append_dropWhile]
  · intro c hc; exact (isSpace_iff c).1 (List.mem_takeWhile_imp hc)
  · intro c hc; exact (isSpace_iff c).1 (List.mem_takeWhile_imp (List.mem_reverse.1 hc))
  · intro c hc
    rw [List.head?_reverse] at hc
    have h1 : t.reverse.dropWhile isSpace ≠ [] := by rintro h; simp [h] at hc
    -- the head of `t` is not a space
    have h2 : ∃ d, t.head? = some d ∧ isSpace d = false := by
      cases hh : t with
      | nil => rw [hh] at h1; simp at h1
      | cons d ds =>
        refine ⟨d, rfl, ?_⟩
        have := List.head?_dropWhile_not isSpace s
        rw [← ht, hh] at this; simpa using this
    obtain ⟨d, hd, hds⟩ := h2
    have h3 : (t.reverse.dropWhile isSpace).getLast? = t.reverse.getLast? := by
      obtain ⟨l, hl⟩ := List.dropWhile_suffix (l := t.reverse) isSpace
      conv_rhs => rw [← hl]
      rw [List.getLast?_append_of_ne_nil _ h1]
    rw [h3, List.getLast?_reverse, hd] at hc
    simp only [Option.some.injEq] at hc
    subst hc; exact (isSpace_false_iff d).1 hds
  · intro c hc
    rw [List.getLast?_reverse] at hc
    have := List.head?_dropWhile_not isSpace t.reverse
    rw [hc] at this
    exact (isSpace_false_iff c).1 (by simpa using this)

theorem dropWhile_append_all {p : Char → Bool} {a t : Str} (ha : ∀ c ∈ a, p c = true)
    (ht : ∀ c, t.head? = some c → p c = false) : (a ++ t).dropWhile p = t := by
  induction a with
  | nil =>
    cases t with
    | nil => rfl
    | cons d ds => simp [List.dropWhile_cons, ht d rfl]
  | cons x xs ih =>
    simp [ha x (by simp), ih (fun c hc => ha c (by simp [hc]))]

theorem strip_of_stripped {msg text : Str} (h : Stripped msg text) : strip msg = text := by
  obtain ⟨a, b, rfl, ha, hb, hh, hl⟩ := h
  have ha' : ∀ c ∈ a, isSpace c = true := fun c hc => (isSpace_iff c).2 (ha c hc)
  have hb' : ∀ c ∈ b, isSpace c = true := fun c hc => (isSpace_iff c).2 (hb c hc)
  unfold strip rstrip lstrip
  by_cases ht : text = []
  · subst ht
    have : (a ++ [] ++ b).dropWhile isSpace = [] := by
      rw [List.dropWhile_eq_nil_iff]; intro c hc; simp at hc; rcases hc with hc | hc
      · exact ha' c hc
      · exact hb' c hc
    rw [this]; rfl
  · rw [List.append_assoc, dropWhile_append_all ha' (t := text ++ b), List.reverse_append,
      dropWhile_append_all (t := text.reverse), List.reverse_reverse]
    · intro c hc; exact hb' c (List.mem_reverse.1 hc)
    · intro c hc; rw [List.head?_reverse] at hc; exact (isSpace_false_iff c).2 (hl c hc)
    · intro c hc
      apply (isSpace_false_iff c).2 (hh c _)
      cases text with
      | nil => exact absurd rfl ht
      | cons x xs => simpa using hc

theorem stripped_self {t : Str} (h1 : ∀ c, t.head? = some c → ¬ White c)
    (h2 : ∀ c, t.getLast? = some c → ¬ White c) : Stripped t t :=
  ⟨[], [], by simp, by simp, by simp, h1, h2⟩

/-! ## Splitting and joining -/

theorem split1_some {c : Char} {s a b : Str} (h : split1 c s = some (a, b)) :
    s = a ++ c :: b ∧ c ∉ a := by
  induction s generalizing a with
  | nil => simp [split1] at h
  | cons x xs ih =>
    rw [split1] at h
    split_ifs at h with hx
    · simp only [Option.some.injEq, Prod.mk.injEq] at h
      obtain ⟨rfl, rfl⟩ := h; simp [hx]
    · cases h' : split1 c xs with
      | none => simp [h'] at h
      | some p =>
        obtain ⟨a', b'⟩ := p
        simp only [h', Option.some.injEq, Prod.mk.injEq] at h
        obtain ⟨rfl, rfl⟩ := h
        obtain ⟨e, hn⟩ := ih h'
        refine ⟨by simp [e], ?_⟩
        simp only [List.mem_cons, not_or]; exact ⟨fun e => hx e.symm, hn⟩

theorem split1_eq {c : Char} {a b : Str} (h : c ∉ a) : split1 c (a ++ c :: b) = some (a, b) := by
  induction a with
  | nil => simp [split1]
  | cons x xs ih =>
    simp only [List.mem_cons, not_or] at h
    simp [split1, Ne.symm h.1, ih h.2]

theorem split1_none {c : Char} {s : Str} : split1 c s = none ↔ c ∉ s := by
  induction s with
  | nil => simp [split1]
  | cons x xs ih =>
    rw [split1]
    split_ifs with hx
    · simp [hx]
    · cases h' : split1 c xs with
      | none => simp only [List.mem_cons, not_or, true_iff]; exact ⟨fun e => hx e.symm, ih.1 h'⟩
      | some p =>
        simp only [reduceCtorEq, List.mem_cons, not_or, false_iff, not_and]
        intro _ hn; rw [ih.2 hn] at h'; simp at h'

theorem splitOn_ne_nil (c : Char) (s : Str) : splitOn c s ≠ [] := by
  cases s with
  | nil => simp [splitOn]
  | cons x xs => rw [splitOn]; split_ifs <;> (try split) <;> simp

theorem splitOn_of_not_mem {c : Char} {s : Str} (h : c ∉ s) : splitOn c s = [s] := by
  induction s with
  | nil => rfl
  | cons x xs ih =>
    simp only [List.mem_cons, not_or] at h
    simp [splitOn, Ne.symm h.1, ih h.2]

theorem splitOn_append {c : Char} {a b : Str} (h : c ∉ a) :
    splitOn c (a ++ c :: b) = a :: splitOn c b := by
  induction a with
  | nil => simp [splitOn]
  | cons x xs ih =>
    simp only [List.mem_cons, not_or] at h
    simp [splitOn, Ne.symm h.1, ih h.2]

theorem splitOn_parts (c : Char) (s : Str) : ∀ f ∈ splitOn c s, c ∉ f := by
  induction s with
  | nil => simp [splitOn]
  | cons x xs ih =>
    rw [splitOn]
    split_ifs with hx
    · intro f hf; rcases List.mem_cons.1 hf with rfl | hf
      · simp
      · exact ih f hf
    · cases h : splitOn c xs with
      | nil => exact absurd h (splitOn_ne_nil c xs)
      | cons y ys =>
        intro f hf
        rw [h] at ih
        rcases List.mem_cons.1 hf with rfl | hf
        · simp only [List.mem_cons, not_or]; exact ⟨fun e => hx e.symm, ih y (by simp)⟩
        · exact ih f (by simp [hf])

theorem join_splitOn (c : Char) (s : Str) : joinWith [c] (splitOn c s) = s := by
  induction s with
  | nil => rfl
  | cons x xs ih =>
    rw [splitOn]
    split_ifs with hx
    · cases h : splitOn c xs with
      | nil => exact absurd h (splitOn_ne_nil c xs)
      | cons y ys => rw [h] at ih; simp [joinWith, hx, ih]
    · cases h : splitOn c xs with
      | nil => exact absurd h (splitOn_ne_nil c xs)
      | cons y ys =>
        rw [h] at ih
        cases ys with
        | nil => simpa [joinWith] using ih
        | cons z zs => simp only [joinWith] at ih ⊢; simp [← ih]

theorem splitOn_join {c : Char} {fs : List Str} (hne : fs ≠ []) (h : ∀ f ∈ fs, c ∉ f) :
    splitOn c (joinWith [c] fs) = fs := by
  induction fs with
  | nil => exact absurd rfl hne
  | cons f fs ih =>
    cases fs with
    | nil => simp [joinWith, splitOn_of_not_mem (h f (by simp))]
    | cons g gs =>
      have := ih (by simp) (fun x hx => h x (by simp [hx]))
      simp only [joinWith]
      rw [List.append_assoc, List.singleton_append, splitOn_append (h f (by simp)), this]

theorem mem_of_splitOn_length {c : Char} {s : Str} (h : 2 ≤ (splitOn c s).length) : c ∈ s := by
  by_contra hn
  rw [splitOn_of_not_mem hn] at h; simp at h

/-! ## parseMessage -/

theorem parseMessage_spec (msg : Str) (m : Metric) :
    parseMessage msg = some m ↔
      ∃ rawKey, Spec.Message msg m.mtype rawKey m.fields ∧ m.key = Spec.normalize rawKey := by
  constructor
  · intro h
    unfold parseMessage at h
    split_ifs at h with h1
    cases h2 : split1 ':' (strip msg) with
    | none => simp [h2] at h
    | some p =>
      obtain ⟨key, data⟩ := p
      simp only [h2] at h
      split_ifs at h with h3 h4
      simp only [Option.some.injEq] at h
      subst h
      obtain ⟨e, hk⟩ := split1_some h2
      refine ⟨key, ⟨strip msg, strip_spec msg, hk, splitOn_parts '|' data, ?_⟩, normalizeKey_eq key⟩
      have hj := join_splitOn '|' data
      simp only [Bool.or_eq_true, decide_eq_true_eq, not_or, not_lt] at h4
      match hf : splitOn '|' data, h4, hj with
      | [], h4, _ => simp at h4
      | [_], h4, _ => simp at h4
      | [f0, t], _, hj =>
        left; refine ⟨f0, by simp, ?_⟩
        rw [e, ← hj]; simp [joinWith]
      | [f0, t, f2], _, hj =>
        right; refine ⟨f0, f2, by simp, ?_⟩
        rw [e, ← hj]; simp [joinWith]
      | _ :: _ :: _ :: _ :: _, h4, _ => simp at h4
  · rintro ⟨rawKey, ⟨text, hst, hk, hfs, hcase⟩, hkey⟩
    have hs := strip_of_stripped hst
    obtain ⟨mt, k, fields⟩ := m
    dsimp only at *
    have main : ∃ data, text = rawKey ++ ':' :: data ∧ '|' ∈ data ∧ splitOn '|' data = fields ∧
        fields.getD 1 [] = mt ∧ 2 ≤ fields.length ∧ fields.length ≤ 3 := by
      rcases hcase with ⟨f0, rfl, rfl⟩ | ⟨f0, f2, rfl, rfl⟩
      · refine ⟨_, rfl, by simp, ?_, by simp, by simp, by simp⟩
        rw [splitOn_append (hfs f0 (by simp)), splitOn_of_not_mem (hfs mt (by simp))]
      · refine ⟨_, rfl, by simp, ?_, by simp, by simp, by simp⟩
        rw [splitOn_append (hfs f0 (by simp)), splitOn_append (hfs mt (by simp)),
          splitOn_of_not_mem (hfs f2 (by simp))]
    obtain ⟨data, rfl, hbar, hsp, hmt, hl1, hl2⟩ := main
    unfold parseMessage
    have hcol : ':' ∈ msg := by
      obtain ⟨a, b, rfl, _⟩ := hst; simp
    rw [if_neg (by simpa using hcol), hs, split1_eq hk]
    simp only [hsp]
    rw [if_neg (by simpa using hbar), if_neg (by simp; omega), hmt, normalizeKey_eq, hkey]

/-! ## Decimal text -/

theorem digitChar_toNat {n : Nat} (h : n < 10) : (digitChar n).toNat = 48 + n := by
  interval_cases n <;> rfl

theorem isDigit_digitChar {n : Nat} (h : n < 10) : isDigit (digitChar n) = true := by
  interval_cases n <;> rfl

theorem natStr_digits (n : Nat) : ∀ c ∈ natStr n, isDigit c = true := by
  induction n using Nat.strongRecOn with
  | ind n ih =>
    rw [natStr]
    split_ifs with h
    · intro c hc; simp at hc; subst hc; exact isDigit_digitChar h
    · intro c hc
      rcases List.mem_append.1 hc with hc | hc
      · exact ih (n / 10) (by omega) c hc
      · simp at hc; subst hc; exact isDigit_digitChar (Nat.mod_lt _ (by omega))

theorem natStr_ne_nil (n : Nat) : natStr n ≠ [] := by
  rw [natStr]; split_ifs <;> simp

theorem digitsVal_natStr (n : Nat) : digitsVal (natStr n) = n := by
  induction n using Nat.strongRecOn with
  | ind n ih =>
    rw [natStr]
    split_ifs with h
    · simp [digitsVal, digitChar_toNat h]
    · have h1 := ih (n / 10) (by omega)
      unfold digitsVal at h1 ⊢
      rw [List.foldl_append, h1]
      simp [digitChar_toNat (Nat.mod_lt n (by omega : 0 < 10))]; omega

theorem takeWhile_all {p : Char → Bool} {s : Str} (h : ∀ c ∈ s, p c = true) : s.takeWhile p = s := by
  rw [List.takeWhile_eq_self_iff]; exact h

theorem dropWhile_all {p : Char → Bool} {s : Str} (h : ∀ c ∈ s, p c = true) : s.dropWhile p = [] := by
  rw [List.dropWhile_eq_nil_iff]; exact h

theorem parseDecimal_digits {s : Str} (hd : ∀ c ∈ s, isDigit c = true) (hne : s ≠ []) :
    parseDecimal s = some (digitsVal s : ℚ) := by
  unfold parseDecimal
  simp only [takeWhile_all hd, dropWhile_all hd]
  have : s.isEmpty = false := by simpa using hne
  simp [this, parseExp]

theorem isSpace_of_isDigit {c : Char} (h : isDigit c = true) : isSpace c = false := by
  rw [isSpace_false_iff]; apply not_white_of_legal
  rw [← isKeyChar_iff]; simp [isKeyChar, h]

theorem strip_noSpace {s : Str} (h : ∀ c ∈ s, isSpace c = false) : strip s = s :=
  strip_of_stripped (stripped_self
    (fun c hc => (isSpace_false_iff c).1 (h c (List.mem_of_mem_head? hc)))
    (fun c hc => (isSpace_false_iff c).1 (h c (List.mem_of_getLast? hc))))

theorem lower_digit {c : Char} (h : isDigit c = true) : lowerChar c = c := by
  simp only [isDigit, Bool.and_eq_true, decide_eq_true_eq, Char.le_def] at h
  unfold lowerChar
  rw [if_neg]
  simp only [Bool.and_eq_true, decide_eq_true_eq, Char.le_def, not_and]
  have h1 : ('0' : Char).val = 48 := rfl
  have h2 : ('9' : Char).val = 57 := rfl
  have h3 : ('A' : Char).val = 65 := rfl
  rw [h1, h2] at h; rw [h3]
  intro h'
  have := UInt32.le_trans h' h.2
  exact absurd this (by decide)

theorem takeSign_digit {c : Char} {s : Str} (h : isDigit c = true) :
    takeSign (c :: s) = (false, c :: s) := by
  unfold takeSign
  split
  · rename_i e; simp at e; rw [e.1] at h; exact absurd h (by decide)
  · rename_i e; simp at e; rw [e.1] at h; exact absurd h (by decide)
  · rfl

variable [Rounding]

/-- `float()` of an optional minus sign and digits. -/
theorem parseFloat_digits {s : Str} (hd : ∀ c ∈ s, isDigit c = true) (hne : s ≠ []) :
    parseFloat s = some (rnd (digitsVal s : ℚ)) ∧
    parseFloat ('-' :: s) = some (rnd (-(digitsVal s : ℚ))) := by
  obtain ⟨c, cs, rfl⟩ := List.exists_cons_of_ne_nil hne
  have hc := hd c (by simp)
  have hmap : (c :: cs).map lowerChar = c :: cs := by
    rw [List.map_congr_left (g := id)]
    · simp
    · intro a ha; exact lower_digit (hd a ha)
  have h1 : ((c :: cs) == c!"inf") = false := by
    rw [beq_eq_false_iff_ne]; rintro e; simp at e; rw [e.1] at hc; revert hc; decide
  have h2 : ((c :: cs) == c!"infinity") = false := by
    rw [beq_eq_false_iff_ne]; rintro e; simp at e; rw [e.1] at hc; revert hc; decide
  have h3 : ((c :: cs) == c!"nan") = false := by
    rw [beq_eq_false_iff_ne]; rintro e; simp at e; rw [e.1] at hc; revert hc; decide
  constructor
  · unfold parseFloat
    rw [strip_noSpace (fun a ha => isSpace_of_isDigit (hd a ha)), takeSign_digit hc]
    simp only [hmap, h1, h2, h3, Bool.or_self, Bool.false_eq_true, if_false,
      parseDecimal_digits hd hne]
  · unfold parseFloat
    rw [strip_noSpace (s := '-' :: c :: cs)]
    · have ht : takeSign ('-' :: c :: cs) = (true, c :: cs) := rfl
      rw [ht]
      simp only [hmap, h1, h2, h3, Bool.or_self, Bool.false_eq_true, if_false,
        parseDecimal_digits hd hne, if_true]
    · intro a ha
      rcases List.mem_cons.1 ha with rfl | ha
      · decide
      · exact isSpace_of_isDigit (hd a ha)

theorem parseFloat_intStr (z : ℤ) : parseFloat (intStr z) = some (rnd (z : ℚ)) := by
  have hd := natStr_digits z.natAbs
  have hn := natStr_ne_nil z.natAbs
  have hv := digitsVal_natStr z.natAbs
  obtain ⟨h1, h2⟩ := parseFloat_digits hd hn
  unfold intStr
  split_ifs with h
  · rw [h2, hv]
    have : (-(z.natAbs : ℚ)) = (z : ℚ) := by
      have : (z : ℤ) = -(z.natAbs : ℤ) := by omega
      rw [this]; push_cast; simp
    rw [this]
  · rw [h1, hv]
    have : ((z.natAbs : ℕ) : ℚ) = (z : ℚ) := by
      have : (z : ℤ) = (z.natAbs : ℤ) := by omega
      conv_rhs => rw [this]
      simp
    rw [this]

omit [Rounding] in
theorem foldl_digits (y : Str) (a : Nat) :
    y.foldl (fun a c => 10 * a + (c.toNat - 48)) a = a * 10 ^ y.length + digitsVal y := by
  induction y generalizing a with
  | nil => simp [digitsVal]
  | cons c cs ih =>
    unfold digitsVal at ih ⊢
    rw [List.foldl_cons, List.foldl_cons, ih, ih (10 * 0 + _)]
    simp [pow_succ]; ring

omit [Rounding] in
theorem digitsVal_append (x y : Str) : digitsVal (x ++ y) = digitsVal x * 10 ^ y.length + digitsVal y := by
  unfold digitsVal; rw [List.foldl_append]; exact foldl_digits y _

omit [Rounding] in
theorem parseDecimal_frac {x y : Str} (hx : ∀ c ∈ x, isDigit c = true) (hxne : x ≠ [])
    (hy : ∀ c ∈ y, isDigit c = true) :
    parseDecimal (x ++ '.' :: y) = some ((digitsVal x : ℚ) + digitsVal y / 10 ^ y.length) := by
  have hdot : isDigit '.' = false := by decide
  have h1 : (x ++ '.' :: y).takeWhile isDigit = x := by
    rw [List.takeWhile_append_of_pos hx]; simp [hdot]
  have h2 : (x ++ '.' :: y).dropWhile isDigit = '.' :: y := by
    rw [List.dropWhile_append_of_pos hx]; simp [hdot]
  have : x.isEmpty = false := by simpa using hxne
  unfold parseDecimal
  simp only [h1, h2, takeWhile_all hy, dropWhile_all hy, this, parseExp, Bool.false_and,
    Bool.false_eq_true, if_false, digitsVal_append, Option.some.injEq]
  rw [zero_sub, zpow_neg, zpow_natCast]
  push_cast
  field_simp

/-- `float()` of a plain decimal fraction. -/
theorem parseFloat_frac {x y : Str} (hx : ∀ c ∈ x, isDigit c = true) (hxne : x ≠ [])
    (hy : ∀ c ∈ y, isDigit c = true) :
    parseFloat (x ++ '.' :: y) = some (rnd ((digitsVal x : ℚ) + digitsVal y / 10 ^ y.length)) := by
  have hp := parseDecimal_frac hx hxne hy
  obtain ⟨c, cs, rfl⟩ := List.exists_cons_of_ne_nil hxne
  have hc := hx c (by simp)
  have hsp : ∀ a ∈ (c :: cs) ++ '.' :: y, isSpace a = false := by
    intro a ha
    rcases List.mem_append.1 ha with ha | ha
    · exact isSpace_of_isDigit (hx a ha)
    · rcases List.mem_cons.1 ha with rfl | ha
      · decide
      · exact isSpace_of_isDigit (hy a ha)
  have hmap : ((c :: cs) ++ '.' :: y).map lowerChar = (c :: cs) ++ '.' :: y := by
    rw [List.map_congr_left (g := id)]
    · simp
    · intro a ha
      rcases List.mem_append.1 ha with ha | ha
      · exact lower_digit (hx a ha)
      · rcases List.mem_cons.1 ha with rfl | ha
        · decide
        · exact lower_digit (hy a ha)
  have h1 : (((c :: cs) ++ '.' :: y) == c!"inf") = false := by
    rw [beq_eq_false_iff_ne]; rintro e; simp at e; rw [e.1] at hc; exact absurd hc (by decide)
  have h2 : (((c :: cs) ++ '.' :: y) == c!"infinity") = false := by
    rw [beq_eq_false_iff_ne]; rintro e; simp at e; rw [e.1] at hc; exact absurd hc (by decide)
  have h3 : (((c :: cs) ++ '.' :: y) == c!"nan") = false := by
    rw [beq_eq_false_iff_ne]; rintro e; simp at e; rw [e.1] at hc; exact absurd hc (by decide)
  unfold parseFloat
  rw [strip_noSpace hsp]
  have ht : takeSign ((c :: cs) ++ '.' :: y) = (false, (c :: cs) ++ '.' :: y) := takeSign_digit hc
  rw [ht]
  simp only [hmap, h1, h2, h3, Bool.or_self, Bool.false_eq_true, if_false, hp]

/-- A rebuilt message parses to the metric it was built from. -/
theorem parse_rebuild {msg : Str} {m : Metric} (h : parseMessage msg = some m) :
    parseMessage (rebuildMessage m.mtype m.key m.fields) = some m := by
  obtain ⟨raw, ⟨text, hst, hk, hfs, hcase⟩, hkey⟩ := (parseMessage_spec msg m).1 h
  rw [parseMessage_spec]
  rw [← normalizeKey_eq] at hkey
  have hleg : ∀ c ∈ m.key, Legal c := by
    intro c hc; rw [hkey] at hc; exact legal_of_mem_normalizeKey hc
  refine ⟨m.key, ⟨rebuildMessage m.mtype m.key m.fields, ?_, ?_, hfs, ?_⟩, ?_⟩
  · have hlast : ∀ c, text.getLast? = some c → ¬ White c := by
      obtain ⟨a, b, _, _, _, _, hl⟩ := hst; exact hl
    apply stripped_self
    · intro c hc
      unfold rebuildMessage at hc
      cases hkk : m.key with
      | nil => rw [hkk] at hc; simp at hc; rw [← hc]; decide
      | cons d ds =>
        rw [hkk] at hc; simp at hc; subst hc
        exact not_white_of_legal (hleg d (by rw [hkk]; simp))
    · intro c hc
      apply hlast c
      rw [← hc]
      rcases hcase with ⟨f0, hf, rfl⟩ | ⟨f0, f2, hf, rfl⟩
      · rw [hf]
        have e1 : rebuildMessage m.mtype m.key [f0, m.mtype] = m.key ++ (':' :: (f0 ++ '|' :: m.mtype)) := by
          simp [rebuildMessage, joinWith]
        rw [e1, List.getLast?_append_of_ne_nil _ (by simp), List.getLast?_append_of_ne_nil _ (by simp)]
      · rw [hf]
        have e1 : rebuildMessage m.mtype m.key [f0, m.mtype, f2]
            = m.key ++ (':' :: (f0 ++ '|' :: (m.mtype ++ '|' :: f2))) := by
          simp [rebuildMessage, joinWith]
        rw [e1, List.getLast?_append_of_ne_nil _ (by simp), List.getLast?_append_of_ne_nil _ (by simp)]
  · intro hc; exact ne_colon_of_legal (hleg _ hc) rfl
  · rcases hcase with ⟨f0, hf, rfl⟩ | ⟨f0, f2, hf, rfl⟩
    · left; refine ⟨f0, hf, ?_⟩; rw [hf]; simp [rebuildMessage, joinWith]
    · right; refine ⟨f0, f2, hf, ?_⟩; rw [hf]; simp [rebuildMessage, joinWith]
  · rw [← normalizeKey_eq, normalizeKey_legal hleg]

omit [Rounding] in
theorem rateMatch_all {r : Str} (hne : r ≠ []) (h : ∀ c ∈ r, isDigit c = true ∨ c = '.') :
    rateMatch ('@' :: r) = some r := by
  have : r.takeWhile (fun c => isDigit c || c == '.') = r := by
    apply takeWhile_all; intro c hc; rcases h c hc with h | h <;> simp [h]
  simp only [rateMatch, this]
  have : r.isEmpty = false := by simpa using hne
  simp [this]

end Txstatsd
