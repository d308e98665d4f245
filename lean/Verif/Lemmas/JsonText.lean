import Verif.Lemmas.Json

set_option linter.unusedSectionVars false
set_option linter.unusedSimpArgs false
set_option linter.unusedVariables false

namespace Txstatsd
open Spec

/-! ## The texts -/

theorem hexDigit_lt {n : ℕ} (h : n < 16) : HexDigit (hexDigit n) n := by
  unfold HexDigit
  left
  interval_cases n <;> rfl

theorem jchars_append {t s t' s' : Str} (h : JChars t s) (h' : JChars t' s') : JChars (t ++ t') (s ++ s') := by
  induction h with
  | nil => exact h'
  | plain c t s h1 h2 h3 _ ih => exact .plain c _ _ h1 h2 h3 ih
  | escape e c t s he _ ih => exact .escape e c _ _ he ih
  | unicode a b c d x y z w t s ha hb hc hd _ ih => exact .unicode a b c d x y z w _ _ ha hb hc hd ih

theorem jsonChar_spec (c : Char) : JChars (jsonChar c) [c] := by
  unfold jsonChar
  split_ifs with h1 h2 h3 h4 h5 h6 h7 h8
  · subst h1; exact .escape _ _ _ _ (by decide) .nil
  · subst h2; exact .escape _ _ _ _ (by decide) .nil
  · subst h3; exact .escape _ _ _ _ (by decide) .nil
  · subst h4; exact .escape _ _ _ _ (by decide) .nil
  · subst h5; exact .escape _ _ _ _ (by decide) .nil
  · subst h6; exact .escape _ _ _ _ (by decide) .nil
  · subst h7; exact .escape _ _ _ _ (by decide) .nil
  · have := JChars.unicode '0' '0' (hexDigit (c.toNat / 16)) (hexDigit (c.toNat % 16)) 0 0 (c.toNat / 16) (c.toNat % 16) [] []
      (by unfold HexDigit; decide) (by unfold HexDigit; decide) (hexDigit_lt (by omega)) (hexDigit_lt (by omega)) .nil
    have e : 4096 * 0 + 256 * 0 + 16 * (c.toNat / 16) + c.toNat % 16 = c.toNat := by omega
    rw [e, Char.ofNat_toNat] at this
    exact this
  · exact .plain c _ _ h2 h1 (by omega) .nil

theorem jsonStr_spec (s : Str) : JString (jsonStr s) s := by
  refine .mk _ _ ?_
  induction s with
  | nil => exact .nil
  | cons c s ih => exact jchars_append (jsonChar_spec c) ih

theorem jws_nil : JWs [] := by intro c hc; cases hc
theorem jws_space : JWs [' '] := by intro c hc; simp at hc; exact Or.inl hc

theorem jsonArr_elems {ts : List Str} {l : List JVal} (h : List.Forall₂ JValue ts l) (hne : ts ≠ []) :
    ∀ a, JWs a → JElems (a ++ joinWith c!", " ts) l := by
  induction h with
  | nil => exact absurd rfl hne
  | @cons t v ts l hv ht ih =>
    intro a ha
    cases ht with
    | nil =>
      have := JElems.one a t [] v ha hv jws_nil
      simpa [joinWith] using this
    | @cons t2 v2 ts l hv2 ht2 =>
      have := ih (by simp) [' '] jws_space
      have := JElems.more a t [] _ v _ ha hv jws_nil this
      simpa [joinWith] using this

theorem jsonArr_spec {ts : List Str} {l : List JVal} (h : List.Forall₂ JValue ts l) : JValue (jsonArr ts) (.arr l) := by
  by_cases hne : ts = []
  · subst hne; cases h; exact .arr0 [] jws_nil
  · have := jsonArr_elems h hne [] jws_nil
    exact .arr _ _ this

theorem jsonObj_members {kts : List (Str × Str)} {l : List (Str × JVal)}
    (h : List.Forall₂ (fun kt kv => kt.1 = kv.1 ∧ JValue kt.2 kv.2) kts l) (hne : kts ≠ []) :
    ∀ a, JWs a → JMembers (a ++ joinWith c!", " (kts.map fun kv => jsonStr kv.1 ++ c!": " ++ kv.2)) l := by
  induction h with
  | nil => exact absurd rfl hne
  | @cons kt kv kts l hv ht ih =>
    intro a ha
    obtain ⟨k, t⟩ := kt
    obtain ⟨k', v⟩ := kv
    obtain ⟨hk, hv⟩ := hv
    simp only at hk hv
    subst hk
    cases ht with
    | nil =>
      have := JMembers.one a (jsonStr k) [] [' '] t [] k v ha (jsonStr_spec k) jws_nil jws_space hv jws_nil
      simpa [joinWith] using this
    | @cons kt2 kv2 kts l hv2 ht2 =>
      have := ih (by simp) [' '] jws_space
      have := JMembers.more a (jsonStr k) [] [' '] t [] _ k v _ ha (jsonStr_spec k) jws_nil jws_space hv jws_nil this
      simpa [joinWith] using this

theorem jsonObj_spec {kts : List (Str × Str)} {l : List (Str × JVal)}
    (h : List.Forall₂ (fun kt kv => kt.1 = kv.1 ∧ JValue kt.2 kv.2) kts l) : JValue (jsonObj kts) (.obj l) := by
  by_cases hne : kts = []
  · subst hne; cases h; exact .obj0 [] jws_nil
  · have := jsonObj_members h hne [] jws_nil
    exact .obj _ _ this

/-- In any order. -/
theorem jsonObj_order {kts kts' : List (Str × Str)} {l : List (Str × JVal)} (hp : kts'.Perm kts)
    (h : List.Forall₂ (fun kt kv => kt.1 = kv.1 ∧ JValue kt.2 kv.2) kts l) : ∃ l', l'.Perm l ∧ JValue (jsonObj kts') (.obj l') := by
  have e := List.perm_comp_forall₂ hp h
  obtain ⟨l', h1, h2⟩ := e
  exact ⟨l', h2, jsonObj_spec h1⟩

/-! ## A text has one meaning -/

/-- The first character, if there is one, is not of this kind. -/
def Off (p : Char → Bool) (u : Str) : Prop := ∀ c s, u = c :: s → p c = false

theorem span_eq {p : Char → Bool} {a a' u u' : Str} (ha : ∀ c ∈ a, p c = true) (ha' : ∀ c ∈ a', p c = true) (hu : Off p u) (hu' : Off p u')
    (h : a ++ u = a' ++ u') : a = a' ∧ u = u' := by
  have key : ∀ (a u : Str), (∀ c ∈ a, p c = true) → Off p u → (a ++ u).takeWhile p = a := by
    intro a u ha hu
    rw [List.takeWhile_append_of_pos ha]
    cases u with
    | nil => simp
    | cons c s => simp [hu c s rfl]
  have e : a = a' := by rw [← key a u ha hu, h, key a' u' ha' hu']
  subst e
  exact ⟨rfl, List.append_cancel_left h⟩

def isWs (c : Char) : Bool := c == ' ' || c == '\t' || c == '\n' || c == '\r'

theorem isWs_of {s : Str} (h : JWs s) : ∀ c ∈ s, isWs c = true := by
  intro c hc
  rcases h c hc with rfl | rfl | rfl | rfl <;> rfl

/-- The characters of a number. -/
def numChar (c : Char) : Bool := c.isDigit || c == '.' || c == 'e' || c == 'E' || c == '+' || c == '-'

theorem off_mono {p p' : Char → Bool} {u : Str} (h : Off p u) (hm : ∀ c, p c = false → p' c = false) : Off p' u :=
  fun c s e => hm c (h c s e)

theorem num_digit : ∀ c, numChar c = false → c.isDigit = false := by
  intro c h; unfold numChar at h; simp only [Bool.or_eq_false_iff] at h; exact h.1.1.1.1.1

theorem expo_det {x x' : Str} {X X' : ℤ} {r r' : Str} (h : Expo x X) (h' : Expo x' X') (hr : Off numChar r) (hr' : Off numChar r')
    (e : x ++ r = x' ++ r') : x = x' ∧ X = X' ∧ r = r' := by
  have d := off_mono hr num_digit
  have d' := off_mono hr' num_digit
  have ex : ∀ c, (c = 'e' ∨ c = 'E') → numChar c = true := by rintro c (rfl | rfl) <;> rfl
  cases h with
  | none =>
    cases h' with
    | none => exact ⟨rfl, rfl, e⟩
    | pos a X he hx => exact absurd (hr a _ e) (by rw [ex a he]; simp)
    | plus a X he hx => exact absurd (hr a _ e) (by rw [ex a he]; simp)
    | minus a X he hx => exact absurd (hr a _ e) (by rw [ex a he]; simp)
  | pos a Y he hY =>
    cases h' with
    | none => exact absurd (hr' a _ e.symm) (by rw [ex a he]; simp)
    | pos b Z hb hZ =>
      simp only [List.cons_append, List.cons.injEq] at e
      obtain ⟨rfl, e⟩ := e
      obtain ⟨rfl, h2⟩ := span_eq hY.2 hZ.2 d d' e
      exact ⟨rfl, rfl, h2⟩
    | plus b Z hb hZ =>
      obtain ⟨c, s, rfl⟩ := List.exists_cons_of_ne_nil hY.1
      simp only [List.cons_append, List.cons.injEq] at e
      have := hY.2 c (by simp)
      rw [e.2.1] at this; exact absurd this (by decide)
    | minus b Z hb hZ =>
      obtain ⟨c, s, rfl⟩ := List.exists_cons_of_ne_nil hY.1
      simp only [List.cons_append, List.cons.injEq] at e
      have := hY.2 c (by simp)
      rw [e.2.1] at this; exact absurd this (by decide)
  | plus a Y he hY =>
    cases h' with
    | none => exact absurd (hr' a _ e.symm) (by rw [ex a he]; simp)
    | pos b Z hb hZ =>
      obtain ⟨c, s, rfl⟩ := List.exists_cons_of_ne_nil hZ.1
      simp only [List.cons_append, List.cons.injEq] at e
      have := hZ.2 c (by simp)
      rw [← e.2.1] at this; exact absurd this (by decide)
    | plus b Z hb hZ =>
      simp only [List.cons_append, List.cons.injEq] at e
      obtain ⟨rfl, _, e⟩ := e
      obtain ⟨rfl, h2⟩ := span_eq hY.2 hZ.2 d d' e
      exact ⟨rfl, rfl, h2⟩
    | minus b Z hb hZ =>
      simp only [List.cons_append, List.cons.injEq] at e
      exact absurd e.2.1 (by decide)
  | minus a Y he hY =>
    cases h' with
    | none => exact absurd (hr' a _ e.symm) (by rw [ex a he]; simp)
    | pos b Z hb hZ =>
      obtain ⟨c, s, rfl⟩ := List.exists_cons_of_ne_nil hZ.1
      simp only [List.cons_append, List.cons.injEq] at e
      have := hZ.2 c (by simp)
      rw [← e.2.1] at this; exact absurd this (by decide)
    | plus b Z hb hZ =>
      simp only [List.cons_append, List.cons.injEq] at e
      exact absurd e.2.1 (by decide)
    | minus b Z hb hZ =>
      simp only [List.cons_append, List.cons.injEq] at e
      obtain ⟨rfl, _, e⟩ := e
      obtain ⟨rfl, h2⟩ := span_eq hY.2 hZ.2 d d' e
      exact ⟨rfl, rfl, h2⟩

/-- What follows the digits. -/
theorem expo_off {x : Str} {X : ℤ} {r : Str} (h : Expo x X) (hr : Off numChar r) : 
    Off Char.isDigit (x ++ r) ∧ Off (· == '.') (x ++ r) := by
  have key : ∀ a u, (a = 'e' ∨ a = 'E') → Off Char.isDigit (a :: u) ∧ Off (· == '.') (a :: u) := by
    rintro a u (rfl | rfl) <;> refine ⟨?_, ?_⟩ <;> intro c s e <;> cases e <;> rfl
  cases h with
  | none =>
    refine ⟨off_mono hr num_digit, off_mono hr fun c hc => ?_⟩
    unfold numChar at hc; simp only [Bool.or_eq_false_iff] at hc; exact hc.1.1.1.1.2
  | pos a X he hx => exact key a _ he
  | plus a X he hx => exact key a _ he
  | minus a X he hx => exact key a _ he

theorem unsigned_det {t t' : Str} {q q' : ℚ} {r r' : Str} (h : Unsigned t q) (h' : Unsigned t' q') (hr : Off numChar r)
    (hr' : Off numChar r') (e : t ++ r = t' ++ r') : t = t' ∧ q = q' ∧ r = r' := by
  obtain ⟨I, f, F, x, X, rfl, hI, _, hf, hx, rfl⟩ := h
  obtain ⟨I', f', F', x', X', rfl, hI', _, hf', hx', rfl⟩ := h'
  obtain ⟨o1, o2⟩ := expo_off hx hr
  obtain ⟨o1', o2'⟩ := expo_off hx' hr'
  have hdot : ∀ u, Off Char.isDigit ('.' :: u) := by intro u c s e; cases e; rfl
  have fo : Off Char.isDigit (f ++ (x ++ r)) := by
    cases hf with
    | none => exact o1
    | some F hF => exact hdot _
  have fo' : Off Char.isDigit (f' ++ (x' ++ r')) := by
    cases hf' with
    | none => exact o1'
    | some F hF => exact hdot _
  simp only [List.append_assoc] at e
  have e' := span_eq hI.2 hI'.2 fo fo' e
  clear e
  obtain ⟨rfl, e⟩ := e'
  have hF : f = f' ∧ F = F' ∧ x ++ r = x' ++ r' := by
    cases hf with
    | none =>
      cases hf' with
      | none => exact ⟨rfl, rfl, e⟩
      | some G hG =>
        have := o2 '.' _ e
        simp at this
    | some G hG =>
      cases hf' with
      | none =>
        have := o2' '.' _ e.symm
        simp at this
      | some G' hG' =>
        simp only [List.cons_append, List.cons.injEq, true_and] at e
        obtain ⟨rfl, h2⟩ := span_eq hG.2 hG'.2 o1 o1' e
        exact ⟨rfl, rfl, h2⟩
  clear e
  obtain ⟨rfl, rfl, e⟩ := hF
  obtain ⟨rfl, rfl, rfl⟩ := expo_det hx hx' hr hr' e
  exact ⟨rfl, rfl, rfl⟩

theorem unsigned_head {t : Str} {q : ℚ} (h : Unsigned t q) : ∃ c s, t = c :: s ∧ c.isDigit = true := by
  obtain ⟨I, f, F, x, X, rfl, hI, _⟩ := h
  obtain ⟨c, s, rfl⟩ := List.exists_cons_of_ne_nil hI.1
  exact ⟨c, s ++ f ++ x, by simp, hI.2 c (by simp)⟩

theorem number_head {t : Str} {q : ℚ} (h : JNumber t q) : ∃ c s, t = c :: s ∧ (c.isDigit = true ∨ c = '-') := by
  cases h with
  | pos t q h => obtain ⟨c, s, rfl, hc⟩ := unsigned_head h; exact ⟨c, s, rfl, Or.inl hc⟩
  | neg t q h => exact ⟨'-', t, rfl, Or.inr rfl⟩

theorem number_det {t t' : Str} {q q' : ℚ} {r r' : Str} (h : JNumber t q) (h' : JNumber t' q') (hr : Off numChar r)
    (hr' : Off numChar r') (e : t ++ r = t' ++ r') : t = t' ∧ q = q' ∧ r = r' := by
  cases h with
  | pos t q h =>
    cases h' with
    | pos t' q' h' => exact unsigned_det h h' hr hr' e
    | neg t' q' h' =>
      obtain ⟨c, s, rfl, hc⟩ := unsigned_head h
      simp only [List.cons_append, List.cons.injEq] at e
      rw [e.1] at hc; exact absurd hc (by decide)
  | neg t q h =>
    cases h' with
    | pos t' q' h' =>
      obtain ⟨c, s, rfl, hc⟩ := unsigned_head h'
      simp only [List.cons_append, List.cons.injEq] at e
      rw [← e.1] at hc; exact absurd hc (by decide)
    | neg t' q' h' =>
      simp only [List.cons_append, List.cons.injEq, true_and] at e
      obtain ⟨rfl, rfl, rfl⟩ := unsigned_det h h' hr hr' e
      exact ⟨rfl, rfl, rfl⟩

theorem hexDigit_det {c : Char} {x y : ℕ} (h : HexDigit c x) (h' : HexDigit c y) : x = y := by
  have key : ∀ (x : ℕ), HexDigit c x → x < 16 := by
    intro x h
    unfold HexDigit at h
    rcases h with h | h <;> exact (List.getElem?_eq_some_iff.1 h).1
  have hx := key x h
  have hy := key y h'
  unfold HexDigit at h h'
  have table : ∀ x < 16, ∀ y < 16, c!"0123456789abcdef"[x]? = c!"0123456789abcdef"[y]? ∨ c!"0123456789abcdef"[x]? = c!"0123456789ABCDEF"[y]? ∨
      c!"0123456789ABCDEF"[x]? = c!"0123456789abcdef"[y]? ∨ c!"0123456789ABCDEF"[x]? = c!"0123456789ABCDEF"[y]? → x = y := by
    decide +kernel
  refine table x hx y hy ?_
  rcases h with h | h <;> rcases h' with h' | h' <;> simp only [h, h', true_or, or_true]

theorem chars_det {t s : Str} (h : JChars t s) : ∀ {t' s' r r' : Str}, JChars t' s' → t ++ '"' :: r = t' ++ '"' :: r' →
    t = t' ∧ s = s' ∧ r = r' := by
  induction h with
  | nil =>
    intro t' s' r r' h' e
    cases h' with
    | nil => simp at e; exact ⟨rfl, rfl, e⟩
    | plain c t s h1 h2 h3 h => simp at e; exact absurd e.1.symm h1
    | escape a c t s he h => simp at e
    | unicode a b c d x y z w t s ha hb hc hd h => simp at e
  | plain c t s h1 h2 h3 h ih =>
    intro t' s' r r' h' e
    cases h' with
    | nil => simp at e; exact absurd e.1 h1
    | plain c' t' s' h1' h2' h3' h' =>
      simp only [List.cons_append, List.cons.injEq] at e
      obtain ⟨rfl, e⟩ := e
      obtain ⟨rfl, rfl, rfl⟩ := ih h' e
      exact ⟨rfl, rfl, rfl⟩
    | escape a c' t s he h => simp at e; exact absurd e.1 h2
    | unicode a b c' d x y z w t s ha hb hc hd h => simp at e; exact absurd e.1 h2
  | escape a c t s he h ih =>
    intro t' s' r r' h' e
    cases h' with
    | nil => simp at e
    | plain c' t' s' h1' h2' h3' h' => simp at e; exact absurd e.1.symm h2'
    | escape a' c' t' s' he' h' =>
      simp only [List.cons_append, List.cons.injEq, true_and] at e
      obtain ⟨rfl, e⟩ := e
      obtain ⟨rfl, rfl, rfl⟩ := ih h' e
      have : c = c' := by
        simp only [List.mem_cons, Prod.mk.injEq, List.not_mem_nil, or_false] at he he'
        rcases he with ⟨rfl, rfl⟩ | ⟨rfl, rfl⟩ | ⟨rfl, rfl⟩ | ⟨rfl, rfl⟩ | ⟨rfl, rfl⟩ | ⟨rfl, rfl⟩ | ⟨rfl, rfl⟩ | ⟨rfl, rfl⟩ <;> simp at he' <;>
          exact he'.symm
      subst this
      exact ⟨rfl, rfl, rfl⟩
    | unicode a' b c' d x y z w t s ha hb hc hd h =>
      simp only [List.cons_append, List.cons.injEq, true_and] at e
      obtain ⟨rfl, e⟩ := e
      exact absurd he (by simp)
  | unicode a b c d x y z w t s ha hb hc hd h ih =>
    intro t' s' r r' h' e
    cases h' with
    | nil => simp at e
    | plain c' t' s' h1' h2' h3' h' => simp at e; exact absurd e.1.symm h2'
    | escape a' c' t' s' he' h' =>
      simp only [List.cons_append, List.cons.injEq, true_and] at e
      obtain ⟨rfl, e⟩ := e
      exact absurd he' (by simp)
    | unicode a' b' c' d' x' y' z' w' t' s' ha' hb' hc' hd' h' =>
      simp only [List.cons_append, List.cons.injEq, true_and] at e
      obtain ⟨rfl, rfl, rfl, rfl, e⟩ := e
      obtain ⟨rfl, rfl, rfl⟩ := ih h' e
      rw [hexDigit_det ha ha', hexDigit_det hb hb', hexDigit_det hc hc', hexDigit_det hd hd']
      exact ⟨rfl, rfl, rfl⟩

theorem string_det {t t' s s' r r' : Str} (h : JString t s) (h' : JString t' s') (e : t ++ r = t' ++ r') :
    t = t' ∧ s = s' ∧ r = r' := by
  obtain ⟨t, s, h⟩ := h
  obtain ⟨t', s', h'⟩ := h'
  simp only [List.cons_append, List.append_assoc, List.cons.injEq, true_and, List.nil_append] at e
  obtain ⟨rfl, rfl, rfl⟩ := chars_det h h' e
  exact ⟨rfl, rfl, rfl⟩

theorem string_head {t s : Str} (h : JString t s) : ∃ u, t = '"' :: u := by
  obtain ⟨t, s, h⟩ := h
  exact ⟨_, rfl⟩

/-- The first characters of values. -/
def valChar (c : Char) : Bool := c.isDigit || c == '-' || c == '"' || c == '[' || c == '{'

theorem value_head {t : Str} {v : JVal} (h : JValue t v) : ∃ c s, t = c :: s ∧ valChar c = true := by
  cases h with
  | num t q h =>
    obtain ⟨c, s, rfl, hc⟩ := number_head h
    refine ⟨c, s, rfl, ?_⟩
    rcases hc with hc | rfl
    · simp [valChar, hc]
    · rfl
  | str t s h => obtain ⟨u, rfl⟩ := string_head h; exact ⟨_, _, rfl, rfl⟩
  | arr0 w h => exact ⟨_, _, rfl, rfl⟩
  | arr t l h => exact ⟨_, _, rfl, rfl⟩
  | obj0 w h => exact ⟨_, _, rfl, rfl⟩
  | obj t l h => exact ⟨_, _, rfl, rfl⟩

theorem val_ws : ∀ c, valChar c = true → isWs c = false := by
  intro c h
  unfold valChar at h
  simp only [Bool.or_eq_true, beq_iff_eq] at h
  rcases h with (((h | rfl) | rfl) | rfl) | rfl
  · cases hw : isWs c with
    | false => rfl
    | true =>
      unfold isWs at hw
      simp only [Bool.or_eq_true, beq_iff_eq] at hw
      rcases hw with ((rfl | rfl) | rfl) | rfl <;> revert h <;> decide
  all_goals rfl

theorem off_cons {p : Char → Bool} {c : Char} {u : Str} (h : p c = false) : Off p (c :: u) := by
  intro d s e; cases e; exact h

theorem ws_num {a u : Str} (ha : JWs a) (hu : Off numChar u) : Off numChar (a ++ u) := by
  cases a with
  | nil => exact hu
  | cons c a =>
    refine off_cons ?_
    rcases ha c (by simp) with rfl | rfl | rfl | rfl <;> rfl

/-- The head of what follows the opening bracket. -/
theorem elems_head {t : Str} {l : List JVal} (h : JElems t l) : ∃ a c s, t = a ++ c :: s ∧ JWs a ∧ valChar c = true := by
  cases h with
  | one a t b v ha h hb => obtain ⟨c, s, rfl, hc⟩ := value_head h; exact ⟨a, c, s ++ b, by simp, ha, hc⟩
  | more a t b r v l ha h hb hr => obtain ⟨c, s, rfl, hc⟩ := value_head h; exact ⟨a, c, s ++ (b ++ ',' :: r), by simp, ha, hc⟩

theorem members_head {t : Str} {l : List (Str × JVal)} (h : JMembers t l) : ∃ a s, t = a ++ '"' :: s ∧ JWs a := by
  cases h with
  | one a k b c t d n v ha hk => obtain ⟨u, rfl⟩ := string_head hk; exact ⟨a, _, by simp; rfl, ha⟩
  | more a k b c t d r n v l ha hk => obtain ⟨u, rfl⟩ := string_head hk; exact ⟨a, _, by simp; rfl, ha⟩

theorem value_det {t : Str} {v : JVal} (h : JValue t v) : ∀ {t' : Str} {v' : JVal} {r r' : Str}, JValue t' v' → Off numChar r →
    Off numChar r' → t ++ r = t' ++ r' → t = t' ∧ v = v' ∧ r = r' := by
  refine JValue.rec
    (motive_1 := fun t v _ => ∀ {t' : Str} {v' : JVal} {r r' : Str}, JValue t' v' → Off numChar r →
      Off numChar r' → t ++ r = t' ++ r' → t = t' ∧ v = v' ∧ r = r')
    (motive_2 := fun t l _ => ∀ {t' : Str} {l' : List JVal} {r r' : Str}, JElems t' l' → t ++ ']' :: r = t' ++ ']' :: r' →
      t = t' ∧ l = l' ∧ r = r')
    (motive_3 := fun t l _ => ∀ {t' : Str} {l' : List (Str × JVal)} {r r' : Str}, JMembers t' l' → t ++ '}' :: r = t' ++ '}' :: r' →
      t = t' ∧ l = l' ∧ r = r') ?_ ?_ ?_ ?_ ?_ ?_ ?_ ?_ ?_ ?_ h
  -- numbers
  · intro t q h t' v' r r' h' hr hr' e
    obtain ⟨c, s, ht, hc⟩ := number_head h
    have nc : ∀ d u, t ++ r = d :: u → c = d := by
      intro d u e'; rw [ht] at e'; simp at e'; exact e'.1
    cases h' with
    | num _ q' h' =>
      obtain ⟨rfl, rfl, rfl⟩ := number_det h h' hr hr' e
      exact ⟨rfl, rfl, rfl⟩
    | str _ s' h' =>
      obtain ⟨u, rfl⟩ := string_head h'
      have := nc _ _ e; subst this; exact absurd hc (by decide)
    | arr0 w h' => have := nc _ _ e; subst this; exact absurd hc (by decide)
    | arr u l h' => have := nc _ _ e; subst this; exact absurd hc (by decide)
    | obj0 w h' => have := nc _ _ e; subst this; exact absurd hc (by decide)
    | obj u l h' => have := nc _ _ e; subst this; exact absurd hc (by decide)
  -- strings
  · intro t s h t' v' r r' h' hr hr' e
    cases h' with
    | num _ q' h' =>
      obtain ⟨c, s2, rfl, hc⟩ := number_head h'
      obtain ⟨u, rfl⟩ := string_head h
      simp only [List.cons_append, List.cons.injEq] at e
      rw [← e.1] at hc; exact absurd hc (by decide)
    | str _ s' h' =>
      obtain ⟨rfl, rfl, rfl⟩ := string_det h h' e
      exact ⟨rfl, rfl, rfl⟩
    | arr0 w h' => obtain ⟨u, rfl⟩ := string_head h; simp at e
    | arr u l h' => obtain ⟨u, rfl⟩ := string_head h; simp at e
    | obj0 w h' => obtain ⟨u, rfl⟩ := string_head h; simp at e
    | obj u l h' => obtain ⟨u, rfl⟩ := string_head h; simp at e
  -- an empty array
  · intro w hw t' v' r r' h' hr hr' e
    cases h' with
    | num _ q' h' =>
      obtain ⟨c, s2, rfl, hc⟩ := number_head h'
      simp only [List.cons_append, List.cons.injEq] at e
      rw [← e.1] at hc; exact absurd hc (by decide)
    | str _ s' h' => obtain ⟨u, rfl⟩ := string_head h'; simp at e
    | arr0 w' hw' =>
      simp only [List.cons_append, List.append_assoc, List.cons.injEq, true_and, List.nil_append] at e
      have e' := span_eq (p := isWs) (isWs_of hw) (isWs_of hw') (off_cons rfl) (off_cons rfl) e
      clear e
      obtain ⟨rfl, e⟩ := e'
      simp at e
      exact ⟨rfl, rfl, e⟩
    | arr u l h' =>
      exfalso
      obtain ⟨a, c, s, rfl, ha, hc⟩ := elems_head h'
      simp only [List.cons_append, List.append_assoc, List.cons.injEq, true_and, List.nil_append] at e
      have e' := span_eq (p := isWs) (isWs_of hw) (isWs_of ha) (off_cons rfl) (off_cons (val_ws c hc)) e
      clear e
      obtain ⟨rfl, e⟩ := e'
      simp at e
      rw [← e.1] at hc; exact absurd hc (by decide)
    | obj0 w h' => simp at e
    | obj u l h' => simp at e
  -- an array
  · intro t l h ih t' v' r r' h' hr hr' e
    cases h' with
    | num _ q' h' =>
      obtain ⟨c, s2, rfl, hc⟩ := number_head h'
      simp only [List.cons_append, List.cons.injEq] at e
      rw [← e.1] at hc; exact absurd hc (by decide)
    | str _ s' h' => obtain ⟨u, rfl⟩ := string_head h'; simp at e
    | arr0 w' hw' =>
      exfalso
      obtain ⟨a, c, s, rfl, ha, hc⟩ := elems_head h
      simp only [List.cons_append, List.append_assoc, List.cons.injEq, true_and, List.nil_append] at e
      have e' := span_eq (p := isWs) (isWs_of ha) (isWs_of hw') (off_cons (val_ws c hc)) (off_cons rfl) e
      clear e
      obtain ⟨rfl, e⟩ := e'
      simp at e
      rw [e.1] at hc; exact absurd hc (by decide)
    | arr u l' h' =>
      simp only [List.cons_append, List.append_assoc, List.cons.injEq, true_and, List.nil_append] at e
      obtain ⟨rfl, rfl, rfl⟩ := ih h' e
      exact ⟨rfl, rfl, rfl⟩
    | obj0 w h' => simp at e
    | obj u l h' => simp at e
  -- an empty object
  · intro w hw t' v' r r' h' hr hr' e
    cases h' with
    | num _ q' h' =>
      obtain ⟨c, s2, rfl, hc⟩ := number_head h'
      simp only [List.cons_append, List.cons.injEq] at e
      rw [← e.1] at hc; exact absurd hc (by decide)
    | str _ s' h' => obtain ⟨u, rfl⟩ := string_head h'; simp at e
    | obj0 w' hw' =>
      simp only [List.cons_append, List.append_assoc, List.cons.injEq, true_and, List.nil_append] at e
      have e' := span_eq (p := isWs) (isWs_of hw) (isWs_of hw') (off_cons rfl) (off_cons rfl) e
      clear e
      obtain ⟨rfl, e⟩ := e'
      simp at e
      exact ⟨rfl, rfl, e⟩
    | obj u l h' =>
      exfalso
      obtain ⟨a, s, rfl, ha⟩ := members_head h'
      simp only [List.cons_append, List.append_assoc, List.cons.injEq, true_and, List.nil_append] at e
      have e' := span_eq (p := isWs) (isWs_of hw) (isWs_of ha) (off_cons rfl) (off_cons rfl) e
      clear e
      obtain ⟨rfl, e⟩ := e'
      simp at e
    | arr0 w h' => simp at e
    | arr u l h' => simp at e
  -- an object
  · intro t l h ih t' v' r r' h' hr hr' e
    cases h' with
    | num _ q' h' =>
      obtain ⟨c, s2, rfl, hc⟩ := number_head h'
      simp only [List.cons_append, List.cons.injEq] at e
      rw [← e.1] at hc; exact absurd hc (by decide)
    | str _ s' h' => obtain ⟨u, rfl⟩ := string_head h'; simp at e
    | obj0 w' hw' =>
      exfalso
      obtain ⟨a, s, rfl, ha⟩ := members_head h
      simp only [List.cons_append, List.append_assoc, List.cons.injEq, true_and, List.nil_append] at e
      have e' := span_eq (p := isWs) (isWs_of ha) (isWs_of hw') (off_cons rfl) (off_cons rfl) e
      clear e
      obtain ⟨rfl, e⟩ := e'
      simp at e
    | obj u l' h' =>
      simp only [List.cons_append, List.append_assoc, List.cons.injEq, true_and, List.nil_append] at e
      obtain ⟨rfl, rfl, rfl⟩ := ih h' e
      exact ⟨rfl, rfl, rfl⟩
    | arr0 w h' => simp at e
    | arr u l h' => simp at e
  -- the last element
  · intro a t b v ha h hb ih t' l' r r' h' e
    obtain ⟨c, s, ht, hc⟩ := value_head h
    cases h' with
    | one a' t' b' v' ha' h' hb' =>
      obtain ⟨c', s', ht', hc'⟩ := value_head h'
      simp only [List.append_assoc] at e
      have e' := span_eq (p := isWs) (isWs_of ha) (isWs_of ha') (by rw [ht]; exact off_cons (val_ws c hc))
        (by rw [ht']; exact off_cons (val_ws c' hc')) e
      clear e
      obtain ⟨rfl, e⟩ := e'
      have e' := ih h' (ws_num hb (off_cons rfl)) (ws_num hb' (off_cons rfl)) e
      clear e
      obtain ⟨rfl, rfl, e⟩ := e'
      have e' := span_eq (p := isWs) (isWs_of hb) (isWs_of hb') (off_cons rfl) (off_cons rfl) e
      clear e
      obtain ⟨rfl, e⟩ := e'
      simp at e
      exact ⟨rfl, rfl, e⟩
    | more a' t' b' r2 v' l2 ha' h' hb' hr2 =>
      exfalso
      obtain ⟨c', s', ht', hc'⟩ := value_head h'
      simp only [List.append_assoc, List.cons_append] at e
      have e' := span_eq (p := isWs) (isWs_of ha) (isWs_of ha') (by rw [ht]; exact off_cons (val_ws c hc))
        (by rw [ht']; exact off_cons (val_ws c' hc')) e
      clear e
      obtain ⟨rfl, e⟩ := e'
      have e' := ih h' (ws_num hb (off_cons rfl)) (ws_num hb' (off_cons rfl)) e
      clear e
      obtain ⟨rfl, rfl, e⟩ := e'
      have e' := span_eq (p := isWs) (isWs_of hb) (isWs_of hb') (off_cons rfl) (off_cons rfl) e
      clear e
      obtain ⟨rfl, e⟩ := e'
      simp at e
  -- more elements
  · intro a t b r1 v l ha h hb hr1 ih ih2 t' l' r r' h' e
    obtain ⟨c, s, ht, hc⟩ := value_head h
    cases h' with
    | one a' t' b' v' ha' h' hb' =>
      exfalso
      obtain ⟨c', s', ht', hc'⟩ := value_head h'
      simp only [List.append_assoc, List.cons_append] at e
      have e' := span_eq (p := isWs) (isWs_of ha) (isWs_of ha') (by rw [ht]; exact off_cons (val_ws c hc))
        (by rw [ht']; exact off_cons (val_ws c' hc')) e
      clear e
      obtain ⟨rfl, e⟩ := e'
      have e' := ih h' (ws_num hb (off_cons rfl)) (ws_num hb' (off_cons rfl)) e
      clear e
      obtain ⟨rfl, rfl, e⟩ := e'
      have e' := span_eq (p := isWs) (isWs_of hb) (isWs_of hb') (off_cons rfl) (off_cons rfl) e
      clear e
      obtain ⟨rfl, e⟩ := e'
      simp at e
    | more a' t' b' r2 v' l2 ha' h' hb' hr2 =>
      obtain ⟨c', s', ht', hc'⟩ := value_head h'
      simp only [List.append_assoc, List.cons_append] at e
      have e' := span_eq (p := isWs) (isWs_of ha) (isWs_of ha') (by rw [ht]; exact off_cons (val_ws c hc))
        (by rw [ht']; exact off_cons (val_ws c' hc')) e
      clear e
      obtain ⟨rfl, e⟩ := e'
      have e' := ih h' (ws_num hb (off_cons rfl)) (ws_num hb' (off_cons rfl)) e
      clear e
      obtain ⟨rfl, rfl, e⟩ := e'
      have e' := span_eq (p := isWs) (isWs_of hb) (isWs_of hb') (off_cons rfl) (off_cons rfl) e
      clear e
      obtain ⟨rfl, e⟩ := e'
      replace e := (List.cons.inj e).2
      obtain ⟨rfl, rfl, rfl⟩ := ih2 hr2 e
      exact ⟨rfl, rfl, rfl⟩
  -- the last member
  · intro a k b c0 t d n v ha hk hb hc0 h hd ih t' l' r r' h' e
    obtain ⟨c, s, ht, hc⟩ := value_head h
    obtain ⟨u, hu⟩ := string_head hk
    cases h' with
    | one a' k' b' c0' t' d' n' v' ha' hk' hb' hc0' h' hd' =>
      obtain ⟨c', s', ht', hc'⟩ := value_head h'
      obtain ⟨u', hu'⟩ := string_head hk'
      simp only [List.append_assoc, List.cons_append] at e
      have e' := span_eq (p := isWs) (isWs_of ha) (isWs_of ha') (by rw [hu]; exact off_cons rfl)
        (by rw [hu']; exact off_cons rfl) e
      clear e
      obtain ⟨rfl, e⟩ := e'
      have e' := string_det hk hk' e
      clear e
      obtain ⟨rfl, rfl, e⟩ := e'
      have e' := span_eq (p := isWs) (isWs_of hb) (isWs_of hb') (off_cons rfl) (off_cons rfl) e
      clear e
      obtain ⟨rfl, e⟩ := e'
      replace e := (List.cons.inj e).2
      have e' := span_eq (p := isWs) (isWs_of hc0) (isWs_of hc0') (by rw [ht]; exact off_cons (val_ws c hc))
        (by rw [ht']; exact off_cons (val_ws c' hc')) e
      clear e
      obtain ⟨rfl, e⟩ := e'
      have e' := ih h' (ws_num hd (off_cons rfl)) (ws_num hd' (off_cons rfl)) e
      clear e
      obtain ⟨rfl, rfl, e⟩ := e'
      have e' := span_eq (p := isWs) (isWs_of hd) (isWs_of hd') (off_cons rfl) (off_cons rfl) e
      clear e
      obtain ⟨rfl, e⟩ := e'
      simp at e
      exact ⟨rfl, rfl, e⟩
    | more a' k' b' c0' t' d' r2 n' v' l2 ha' hk' hb' hc0' h' hd' hr2 =>
      exfalso
      obtain ⟨c', s', ht', hc'⟩ := value_head h'
      obtain ⟨u', hu'⟩ := string_head hk'
      simp only [List.append_assoc, List.cons_append] at e
      have e' := span_eq (p := isWs) (isWs_of ha) (isWs_of ha') (by rw [hu]; exact off_cons rfl)
        (by rw [hu']; exact off_cons rfl) e
      clear e
      obtain ⟨rfl, e⟩ := e'
      have e' := string_det hk hk' e
      clear e
      obtain ⟨rfl, rfl, e⟩ := e'
      have e' := span_eq (p := isWs) (isWs_of hb) (isWs_of hb') (off_cons rfl) (off_cons rfl) e
      clear e
      obtain ⟨rfl, e⟩ := e'
      replace e := (List.cons.inj e).2
      have e' := span_eq (p := isWs) (isWs_of hc0) (isWs_of hc0') (by rw [ht]; exact off_cons (val_ws c hc))
        (by rw [ht']; exact off_cons (val_ws c' hc')) e
      clear e
      obtain ⟨rfl, e⟩ := e'
      have e' := ih h' (ws_num hd (off_cons rfl)) (ws_num hd' (off_cons rfl)) e
      clear e
      obtain ⟨rfl, rfl, e⟩ := e'
      have e' := span_eq (p := isWs) (isWs_of hd) (isWs_of hd') (off_cons rfl) (off_cons rfl) e
      clear e
      obtain ⟨rfl, e⟩ := e'
      simp at e
  -- more members
  · intro a k b c0 t d r1 n v l ha hk hb hc0 h hd hr1 ih ih2 t' l' r r' h' e
    obtain ⟨c, s, ht, hc⟩ := value_head h
    obtain ⟨u, hu⟩ := string_head hk
    cases h' with
    | one a' k' b' c0' t' d' n' v' ha' hk' hb' hc0' h' hd' =>
      exfalso
      obtain ⟨c', s', ht', hc'⟩ := value_head h'
      obtain ⟨u', hu'⟩ := string_head hk'
      simp only [List.append_assoc, List.cons_append] at e
      have e' := span_eq (p := isWs) (isWs_of ha) (isWs_of ha') (by rw [hu]; exact off_cons rfl)
        (by rw [hu']; exact off_cons rfl) e
      clear e
      obtain ⟨rfl, e⟩ := e'
      have e' := string_det hk hk' e
      clear e
      obtain ⟨rfl, rfl, e⟩ := e'
      have e' := span_eq (p := isWs) (isWs_of hb) (isWs_of hb') (off_cons rfl) (off_cons rfl) e
      clear e
      obtain ⟨rfl, e⟩ := e'
      replace e := (List.cons.inj e).2
      have e' := span_eq (p := isWs) (isWs_of hc0) (isWs_of hc0') (by rw [ht]; exact off_cons (val_ws c hc))
        (by rw [ht']; exact off_cons (val_ws c' hc')) e
      clear e
      obtain ⟨rfl, e⟩ := e'
      have e' := ih h' (ws_num hd (off_cons rfl)) (ws_num hd' (off_cons rfl)) e
      clear e
      obtain ⟨rfl, rfl, e⟩ := e'
      have e' := span_eq (p := isWs) (isWs_of hd) (isWs_of hd') (off_cons rfl) (off_cons rfl) e
      clear e
      obtain ⟨rfl, e⟩ := e'
      simp at e
    | more a' k' b' c0' t' d' r2 n' v' l2 ha' hk' hb' hc0' h' hd' hr2 =>
      obtain ⟨c', s', ht', hc'⟩ := value_head h'
      obtain ⟨u', hu'⟩ := string_head hk'
      simp only [List.append_assoc, List.cons_append] at e
      have e' := span_eq (p := isWs) (isWs_of ha) (isWs_of ha') (by rw [hu]; exact off_cons rfl)
        (by rw [hu']; exact off_cons rfl) e
      clear e
      obtain ⟨rfl, e⟩ := e'
      have e' := string_det hk hk' e
      clear e
      obtain ⟨rfl, rfl, e⟩ := e'
      have e' := span_eq (p := isWs) (isWs_of hb) (isWs_of hb') (off_cons rfl) (off_cons rfl) e
      clear e
      obtain ⟨rfl, e⟩ := e'
      replace e := (List.cons.inj e).2
      have e' := span_eq (p := isWs) (isWs_of hc0) (isWs_of hc0') (by rw [ht]; exact off_cons (val_ws c hc))
        (by rw [ht']; exact off_cons (val_ws c' hc')) e
      clear e
      obtain ⟨rfl, e⟩ := e'
      have e' := ih h' (ws_num hd (off_cons rfl)) (ws_num hd' (off_cons rfl)) e
      clear e
      obtain ⟨rfl, rfl, e⟩ := e'
      have e' := span_eq (p := isWs) (isWs_of hd) (isWs_of hd') (off_cons rfl) (off_cons rfl) e
      clear e
      obtain ⟨rfl, e⟩ := e'
      replace e := (List.cons.inj e).2
      obtain ⟨rfl, rfl, rfl⟩ := ih2 hr2 e
      exact ⟨rfl, rfl, rfl⟩

theorem text_det {t : Str} {v v' : JVal} (h : JText t v) (h' : JText t v') : v = v' := by
  obtain ⟨a, b, u, rfl, ha, hb, hu⟩ := h
  obtain ⟨a', b', u', e, ha', hb', hu'⟩ := h'
  obtain ⟨c, s, ht, hc⟩ := value_head hu
  obtain ⟨c', s', ht', hc'⟩ := value_head hu'
  have e' := span_eq (p := isWs) (isWs_of ha) (isWs_of ha') (by rw [ht]; exact off_cons (val_ws c hc))
    (by rw [ht']; exact off_cons (val_ws c' hc')) e
  clear e
  obtain ⟨rfl, e⟩ := e'
  have ob : ∀ b, JWs b → Off numChar b := by
    intro b hb
    have := ws_num hb (u := []) (by intro c s e; cases e)
    rwa [List.append_nil] at this
  exact (value_det hu hu' (ob b hb) (ob b' hb') e).2.1

end Txstatsd
