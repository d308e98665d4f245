import Verif.Spec.PyText
import Verif.Lemmas.Text
import Verif.Lemmas.Metrics

set_option linter.unusedSectionVars false
set_option linter.unusedSimpArgs false
set_option linter.unusedVariables false

/-!
# Lemmas about texts that are not ASCII
-/

namespace Txstatsd
open Spec

/-! ## The encoder -/

theorem ofNat_toNat_byte {n : Nat} (h : n < 256) : (Char.ofNat n).toNat = n := by
  have hv : n.isValidChar := Or.inl (by omega)
  simp only [Char.ofNat, hv, dite_true, Char.toNat, Char.ofNatAux]
  rfl

theorem utf8Char_eq (c : Char) : PyText.utf8Char c = (String.utf8EncodeChar c).map fun b => Char.ofNat b.toNat := by
  have e : c.val.toNat = c.toNat := rfl
  have hc : c.toNat < 0x110000 := by
    rcases c.valid with h | h
    · have : c.toNat < 0xd800 := h
      omega
    · exact h.2
  unfold PyText.utf8Char String.utf8EncodeChar
  simp only [e]
  split_ifs with h1 h2 h2 h3 h3 h4 h4 <;> try omega
  · have : (UInt8.ofNat c.toNat).toNat = c.toNat := by simp; omega
    simp only [List.map_cons, this, List.map_nil, List.cons.injEq, and_true]
    exact (Char.ofNat_toNat c).symm
  · simp only [List.map_cons, List.map_nil, UInt8.toNat_ofNat']
    rw [show (c.toNat / 64 % 32 + 192) % 2 ^ 8 = 0xC0 + c.toNat / 64 by omega,
      show (c.toNat % 64 + 128) % 2 ^ 8 = 0x80 + c.toNat % 64 by omega]
  · simp only [List.map_cons, List.map_nil, UInt8.toNat_ofNat']
    rw [show (c.toNat / 4096 % 16 + 224) % 2 ^ 8 = 0xE0 + c.toNat / 4096 by omega,
      show (c.toNat / 64 % 64 + 128) % 2 ^ 8 = 0x80 + c.toNat / 64 % 64 by omega,
      show (c.toNat % 64 + 128) % 2 ^ 8 = 0x80 + c.toNat % 64 by omega]
  · simp only [List.map_cons, List.map_nil, UInt8.toNat_ofNat']
    rw [show (c.toNat / 262144 % 8 + 240) % 2 ^ 8 = 0xF0 + c.toNat / 262144 by omega,
      show (c.toNat / 4096 % 64 + 128) % 2 ^ 8 = 0x80 + c.toNat / 4096 % 64 by omega,
      show (c.toNat / 64 % 64 + 128) % 2 ^ 8 = 0x80 + c.toNat / 64 % 64 by omega,
      show (c.toNat % 64 + 128) % 2 ^ 8 = 0x80 + c.toNat % 64 by omega]

theorem utf8Char_ascii {c : Char} (h : c.toNat < 128) : PyText.utf8Char c = [c] := by
  unfold PyText.utf8Char; simp [h]

theorem utf8Char_high {c : Char} (h : 128 ≤ c.toNat) : PyText.utf8Char c ≠ [] ∧ ∀ b ∈ PyText.utf8Char c, 128 ≤ b.toNat := by
  have hc : c.toNat < 0x110000 := by
    rcases c.valid with h | h
    · have : c.toNat < 0xd800 := h
      omega
    · exact h.2
  unfold PyText.utf8Char
  dsimp only
  split_ifs with h1 h2 h3
  · omega
  all_goals
    refine ⟨by simp, ?_⟩
    intro b hb
    simp only [List.mem_cons, List.not_mem_nil, or_false] at hb
    rcases hb with rfl | rfl | rfl | rfl | rfl <;> (rw [ofNat_toNat_byte (by omega)]; omega)

/-- The encoder of the model on a text. -/
def enc (s : Str) : Str := s.flatMap PyText.utf8Char

theorem enc_utf8 (s : Str) : enc s = utf8 s := by
  unfold enc utf8; congr 1; funext c; exact utf8Char_eq c

theorem enc_nil : enc [] = [] := rfl
theorem enc_cons (c : Char) (s : Str) : enc (c :: s) = PyText.utf8Char c ++ enc s := rfl
theorem enc_append (a b : Str) : enc (a ++ b) = enc a ++ enc b := by simp [enc]

theorem enc_ascii {s : Str} (h : ∀ c ∈ s, c.toNat < 128) : enc s = s := by
  induction s with
  | nil => rfl
  | cons c s ih => rw [enc_cons, utf8Char_ascii (h c (by simp)), ih (fun d hd => h d (by simp [hd]))]; rfl

theorem mem_utf8Char {x c : Char} (hx : x.toNat < 128) : x ∈ PyText.utf8Char c ↔ x = c := by
  by_cases h : c.toNat < 128
  · rw [utf8Char_ascii h]; simp
  · constructor
    · intro hm; have := (utf8Char_high (by omega)).2 x hm; omega
    · rintro rfl; omega

theorem mem_enc {x : Char} (hx : x.toNat < 128) (s : Str) : x ∈ enc s ↔ x ∈ s := by
  induction s with
  | nil => simp [enc_nil]
  | cons c s ih => rw [enc_cons, List.mem_append, mem_utf8Char hx, ih, List.mem_cons]

theorem white_ascii {c : Char} (h : White c) : c.toNat < 128 := by
  unfold White at h; simp at h; rcases h with rfl | rfl | rfl | rfl | rfl | rfl <;> decide

theorem legal_ascii {c : Char} (h : Legal c) : c.toNat < 128 := by
  rcases h with h | rfl | rfl | rfl
  · simp only [Char.isAlphanum, Char.isAlpha, Char.isUpper, Char.isLower, Char.isDigit, Bool.or_eq_true, Bool.and_eq_true,
      decide_eq_true_eq, ge_iff_le, UInt32.le_iff_toNat_le] at h
    change ((65 ≤ c.toNat ∧ c.toNat ≤ 90 ∨ 97 ≤ c.toNat ∧ c.toNat ≤ 122) ∨ 48 ≤ c.toNat ∧ c.toNat ≤ 57) at h
    omega
  · decide
  · decide
  · decide

/-! ## Parsing commutes with encoding -/

theorem head_enc {t : Str} (h : ∀ c, t.head? = some c → ¬ White c) : ∀ c, (enc t).head? = some c → ¬ White c := by
  intro c hc
  cases t with
  | nil => simp [enc_nil] at hc
  | cons d t =>
    by_cases hd : d.toNat < 128
    · rw [enc_cons, utf8Char_ascii hd] at hc
      simp at hc; subst hc; exact h d rfl
    · obtain ⟨hne, hb⟩ := utf8Char_high (c := d) (by omega)
      intro hw
      have hm : c ∈ PyText.utf8Char d := by
        rw [enc_cons] at hc
        cases hu : PyText.utf8Char d with
        | nil => exact absurd hu hne
        | cons x xs => rw [hu] at hc; simp at hc; simp [hc]
      have := hb c hm
      have := white_ascii hw
      omega

theorem last_enc {t : Str} (h : ∀ c, t.getLast? = some c → ¬ White c) : ∀ c, (enc t).getLast? = some c → ¬ White c := by
  intro c hc
  rcases List.eq_nil_or_concat t with rfl | ⟨u, d, rfl⟩
  · simp [enc_nil] at hc
  · rw [List.concat_eq_append, enc_append] at hc
    have e1 : enc [d] = PyText.utf8Char d := by simp [enc]
    rw [e1] at hc
    by_cases hd : d.toNat < 128
    · rw [utf8Char_ascii hd] at hc
      simp at hc; subst hc; exact h d (by simp)
    · obtain ⟨hne, hb⟩ := utf8Char_high (c := d) (by omega)
      rw [List.getLast?_append_of_ne_nil _ hne] at hc
      have := hb c (List.mem_of_getLast? hc)
      intro hw
      have := white_ascii hw
      omega

theorem strip_enc (s : Str) : strip (enc s) = enc (strip s) := by
  apply strip_of_stripped
  obtain ⟨a, b, e, ha, hb, hh, hl⟩ := strip_spec s
  refine ⟨a, b, ?_, ha, hb, head_enc hh, last_enc hl⟩
  conv_lhs => rw [e]
  rw [enc_append, enc_append, enc_ascii fun c hc => white_ascii (ha c hc), enc_ascii fun c hc => white_ascii (hb c hc)]

theorem split1_enc {x : Char} (hx : x.toNat < 128) (s : Str) :
    split1 x (enc s) = (split1 x s).map fun p => (enc p.1, enc p.2) := by
  cases h : split1 x s with
  | none => rw [split1_none] at h; simpa [split1_none, mem_enc hx] using h
  | some p =>
    obtain ⟨e, hn⟩ := split1_some h
    conv_lhs => rw [e]
    rw [enc_append, enc_cons, utf8Char_ascii hx]
    simp only [Option.map_some, List.cons_append, List.nil_append]
    exact split1_eq (by rw [mem_enc hx]; exact hn)

theorem splitOn_enc {x : Char} (hx : x.toNat < 128) (s : Str) : splitOn x (enc s) = (splitOn x s).map enc := by
  have key : ∀ u rest : Str, x ∉ u → ∀ h t, splitOn x rest = h :: t → splitOn x (u ++ rest) = (u ++ h) :: t := by
    intro u
    induction u with
    | nil => intro rest _ h t e; simpa using e
    | cons c u ih =>
      intro rest hu h t e
      simp only [List.mem_cons, not_or] at hu
      simp [splitOn, Ne.symm hu.1, ih rest hu.2 h t e]
  induction s with
  | nil => rfl
  | cons c s ih =>
    by_cases hc : c = x
    · subst hc
      rw [enc_cons, utf8Char_ascii hx]
      simp [splitOn, ih, enc_nil]
    · rw [enc_cons]
      have hne := splitOn_ne_nil x s
      cases hs : splitOn x s with
      | nil => exact absurd hs hne
      | cons h t =>
        rw [hs] at ih
        rw [key _ _ (by rw [mem_utf8Char hx]; exact fun e => hc e.symm) (enc h) (t.map enc) (by simpa using ih)]
        simp [splitOn, hc, hs, enc_cons]

/-- Characters before a character that have the same effect on it. -/
def SameBefore (a b : Option Char) : Prop :=
  ((∃ p, a = some p ∧ White p) ↔ (∃ p, b = some p ∧ White p)) ∧ (a = some '/' ↔ b = some '/')

theorem normChar_same {a b : Option Char} (h : SameBefore a b) (c : Char) : normChar a c = normChar b c := by
  unfold normChar; simp only [h.1, h.2]

theorem normFrom_same {a b : Option Char} (h : SameBefore a b) (s : Str) : normFrom a s = normFrom b s := by
  cases s with
  | nil => rfl
  | cons c s => simp only [normFrom, normChar_same h]

theorem normChar_high (prev : Option Char) {c : Char} (h : 128 ≤ c.toNat) : normChar prev c = [] := by
  have h1 : ¬ White c := fun hw => by have := white_ascii hw; omega
  have h2 : c ≠ '/' := by rintro rfl; exact absurd h (by decide)
  have h3 : ¬ Legal c := fun hw => by have := legal_ascii hw; omega
  simp [normChar, h1, h2, h3]

theorem same_high {a b : Char} (ha : 128 ≤ a.toNat) (hb : 128 ≤ b.toNat) : SameBefore (some a) (some b) := by
  have w : ∀ c : Char, 128 ≤ c.toNat → ¬ White c := fun c h hw => by have := white_ascii hw; omega
  have s : ∀ c : Char, 128 ≤ c.toNat → c ≠ '/' := by rintro c h rfl; exact absurd h (by decide)
  refine ⟨?_, ?_⟩
  · simp [w a ha, w b hb]
  · simp [s a ha, s b hb]

theorem normFrom_highs (u : Str) (hu : ∀ b ∈ u, 128 ≤ b.toNat) (c : Char) (hc : 128 ≤ c.toNat) (prev : Option Char) (hne : u ≠ [])
    (rest : Str) : normFrom prev (u ++ rest) = normFrom (some c) rest := by
  induction u generalizing prev with
  | nil => exact absurd rfl hne
  | cons b u ih =>
    have hb := hu b (by simp)
    simp only [List.cons_append, normFrom, normChar_high prev hb, List.nil_append]
    cases u with
    | nil => simpa using normFrom_same (same_high hb hc) rest
    | cons b' u => exact ih (fun x hx => hu x (by simp [hx])) (some b) (by simp)

theorem normFrom_enc (prev : Option Char) (s : Str) : normFrom prev (enc s) = normFrom prev s := by
  induction s generalizing prev with
  | nil => rfl
  | cons c s ih =>
    by_cases hc : c.toNat < 128
    · rw [enc_cons, utf8Char_ascii hc]
      simp [normFrom, ih]
    · obtain ⟨hne, hb⟩ := utf8Char_high (c := c) (by omega)
      rw [enc_cons, normFrom_highs _ hb c (by omega) prev hne, ih]
      simp [normFrom, normChar_high prev (c := c) (by omega)]

theorem normalizeKey_enc (s : Str) : normalizeKey (enc s) = normalizeKey s := by
  rw [normalizeKey_eq, normalizeKey_eq, ← normFrom_none, ← normFrom_none, normFrom_enc]

theorem parse_enc (s : Str) :
    parseMessage (enc s) = (parseMessage s).map fun m => ⟨enc m.mtype, m.key, m.fields.map enc⟩ := by
  unfold parseMessage
  have hcol : (enc s).contains ':' = s.contains ':' := by
    rw [Bool.eq_iff_iff]; simp [mem_enc (x := ':') (by decide)]
  rw [hcol, strip_enc, split1_enc (by decide)]
  by_cases h1 : s.contains ':' = true
  · simp only [h1, Bool.not_true, Bool.false_eq_true, if_false]
    cases h2 : split1 ':' (strip s) with
    | none => rfl
    | some p =>
      obtain ⟨key, data⟩ := p
      have hbar : (enc data).contains '|' = data.contains '|' := by
        rw [Bool.eq_iff_iff]; simp [mem_enc (x := '|') (by decide)]
      simp only [Option.map_some, hbar, splitOn_enc (x := '|') (by decide), List.length_map, normalizeKey_enc]
      split_ifs
      · rfl
      · rfl
      · simp only [Option.map_some, Option.some.injEq, Metric.mk.injEq, true_and, and_true]
        rcases splitOn '|' data with _ | ⟨a, _ | ⟨b, l⟩⟩ <;> simp [enc_nil]
  · rw [Bool.not_eq_true] at h1
    simp only [h1]; rfl

/-! ## Sending -/

theorem isAscii_iff (s : Str) : isAscii s = true ↔ ∀ c ∈ s, c.toNat < 128 := by simp [isAscii]

theorem decoded_of {t : PyText} {s : Str} (h : Stands t s) : t.decoded = .ok s := by
  cases h with
  | uni => rfl
  | ascii _ h => simp [PyText.decoded, (isAscii_iff s).2 h]

theorem encode_of {t : PyText} {s : Str} (h : Stands t s) : t.encode = .ok (enc s) := by
  cases h with
  | uni => rfl
  | ascii _ h => simp [PyText.encode, (isAscii_iff s).2 h, enc_ascii h]

theorem raw_of {t : PyText} {s : Str} (h : Stands t s) : t.raw = s := by cases h <;> rfl

theorem add_of {a b : PyText} {x y : Str} (ha : Stands a x) (hb : Stands b y) : ∃ t, a.add b = .ok t ∧ Stands t (x ++ y) := by
  have hx := decoded_of ha
  have hy := decoded_of hb
  cases ha with
  | uni => exact ⟨.uni (x ++ y), by simp [PyText.add, hx, hy]; rfl, .uni _⟩
  | ascii _ h1 =>
    cases hb with
    | uni => exact ⟨.uni (x ++ y), by simp [PyText.add, hx, hy]; rfl, .uni _⟩
    | ascii _ h2 =>
      refine ⟨.bytes (x ++ y), rfl, .ascii _ ?_⟩
      intro c hc; rcases List.mem_append.1 hc with h | h
      · exact h1 c h
      · exact h2 c h

theorem mapM_decoded {ts : List PyText} {ss : List Str} (h : List.Forall₂ Stands ts ss) : ts.mapM PyText.decoded = .ok ss := by
  induction h with
  | nil => rfl
  | cons h _ ih => simp [List.mapM_cons, decoded_of h, ih]; rfl

theorem format_of {ts : List PyText} {ss : List Str} (h : List.Forall₂ Stands ts ss) :
    ∃ t, PyText.format ts = .ok t ∧ Stands t ss.flatten := by
  unfold PyText.format
  split_ifs with hu
  · exact ⟨_, by rw [mapM_decoded h]; rfl, .uni _⟩
  · have hr : ts.map PyText.raw = ss := by
      clear hu
      induction h with
      | nil => rfl
      | cons h _ ih => simp [raw_of h, ih]
    refine ⟨_, rfl, ?_⟩
    rw [hr]
    refine .ascii _ ?_
    simp only [Bool.not_eq_true, List.any_eq_false] at hu
    intro c hc
    obtain ⟨x, hx, hcx⟩ := List.mem_flatten.1 hc
    clear hr hc
    induction h with
    | nil => simp at hx
    | @cons t s ts ss h _ ih =>
      rcases List.mem_cons.1 hx with rfl | hx
      · cases h with
        | uni => exact absurd (hu (.uni x) (by simp)) (by simp [PyText.isUni])
        | ascii _ h => exact h c hcx
      · exact ih (fun y hy => hu y (by simp [hy])) hx

theorem stands_lit (s : Str) (h : s.all (fun c => decide (c.toNat < 128)) = true) : Stands (.bytes s) s :=
  .ascii s (by simpa using h)

theorem qualify_of {ns name : Option PyText} {a b : Option Str} (h1 : StandsOpt ns a) (h2 : StandsOpt name b) :
    ∃ t, PyText.qualify ns name = .ok t ∧ Stands t (qualified a b) := by
  rw [← fullyQualify_eq]
  unfold PyText.qualify fullyQualify
  cases h2 with
  | none =>
    cases h1 with
    | none => exact ⟨_, rfl, stands_lit [] rfl⟩
    | some h => exact ⟨_, rfl, h⟩
  | @some n y hn =>
    cases h1 with
    | none => exact ⟨_, rfl, hn⟩
    | @some t x h =>
      simp only [raw_of h]
      split_ifs
      · obtain ⟨d, e1, hd⟩ := add_of (stands_lit c!"." rfl) hn
        obtain ⟨r, e2, hr⟩ := add_of h hd
        exact ⟨r, by simp [e1]; exact e2, hr⟩
      · exact ⟨_, rfl, hn⟩

theorem send_of {name data : PyText} {x y : Str} (h1 : Stands name x) (h2 : Stands data y) (rate : Option Str)
    (hr : ∀ r, rate = some r → ∀ c ∈ r, c.toNat < 128) :
    PyText.send true name rate data = .ok (some (enc (x ++ c!":" ++ (y ++ (rate.map (c!"|@" ++ ·)).getD [])))) := by
  unfold PyText.send
  obtain ⟨f, e1, hf⟩ := add_of h1 (stands_lit c!":" rfl)
  cases rate with
  | none =>
    obtain ⟨g, e2, hg⟩ := add_of hf h2
    simp only [e1, e2, Option.map_none, Option.getD_none, List.append_nil]
    show (do let all ← f.add data; _) = _
    rw [e2]
    show (do let out ← g.encode; _) = _
    rw [encode_of hg]; rfl
  | some r =>
    obtain ⟨d, e0, hd⟩ := add_of h2 (Stands.ascii (c!"|@" ++ r) (by
      intro c hc; simp only [List.cons_append, List.nil_append, List.mem_cons] at hc
      rcases hc with rfl | rfl | hc
      · decide
      · decide
      · exact hr r rfl c hc))
    obtain ⟨g, e2, hg⟩ := add_of hf hd
    simp only [e0, e1]
    show (do let all ← f.add d; _) = _
    rw [e2]
    show (do let out ← g.encode; _) = _
    rw [encode_of hg]; rfl

theorem says_of {call : TextCall} {y : Str} (h : Says call y) : ∃ t, PyText.format call.parts = .ok t ∧ Stands t y := by
  have g : ∀ (ts : List PyText) (ss : List Str), List.Forall₂ Stands ts ss → ss.flatten = y → call.parts = ts →
      ∃ t, PyText.format call.parts = .ok t ∧ Stands t y := by
    intro ts ss hf e1 e2
    obtain ⟨t, h1, h2⟩ := format_of hf
    exact ⟨t, by rw [e2]; exact h1, by rw [← e1]; exact h2⟩
  cases h with
  | report h1 h2 =>
    exact g _ _ (.cons h1 (.cons (stands_lit c!"|" rfl) (.cons h2 .nil))) (by simp) rfl
  | extra h1 h2 h3 =>
    exact g _ _ (.cons h1 (.cons (stands_lit c!"|" rfl) (.cons h2 (.cons (stands_lit c!"|" rfl) (.cons h3 .nil))))) (by simp) rfl
  | gauge h1 => exact g _ _ (.cons h1 (.cons (stands_lit c!"|g" rfl) .nil)) (by simp) rfl
  | meter h1 => exact g _ _ (.cons h1 (.cons (stands_lit c!"|m" rfl) .nil)) (by simp) rfl
  | increment h1 => exact g _ _ (.cons h1 (.cons (stands_lit c!"|c" rfl) .nil)) (by simp) rfl
  | distinct h1 => exact g _ _ (.cons h1 (.cons (stands_lit c!"|d" rfl) .nil)) (by simp) rfl

theorem run_of {ns name : Option PyText} {a b : Option Str} (h1 : StandsOpt ns a) (h2 : StandsOpt name b) {call : TextCall} {y : Str}
    (h : Says call y) (rate : Option Str) (hr : ∀ r, rate = some r → ∀ c ∈ r, c.toNat < 128) :
    call.run true ns name rate = .ok (some (enc (qualified a b ++ c!":" ++ (y ++ (rate.map (c!"|@" ++ ·)).getD [])))) := by
  obtain ⟨q, e1, hq⟩ := qualify_of h1 h2
  obtain ⟨d, e2, hd⟩ := says_of h
  unfold TextCall.run
  rw [e1]
  show (do let data ← PyText.format call.parts; _) = _
  rw [e2]
  exact send_of hq hd rate hr

/-! ## Byte strings that are not ASCII -/

/-- The computation raised `ValueError` or its result is a byte string with a byte above 127. -/
def Spoilt (r : Except PyErr PyText) : Prop := r = .error .valueError ∨ ∃ t, r = .ok t ∧ RawBytes t

/-- The computation raised nothing but perhaps `ValueError`. -/
def ValueOnly (r : Except PyErr PyText) : Prop := r = .error .valueError ∨ ∃ t, r = .ok t

theorem decoded_raw {t : PyText} (h : RawBytes t) : t.decoded = .error .valueError := by
  obtain ⟨s, rfl, c, hc, hn⟩ := h
  have : isAscii s = false := by
    rw [Bool.eq_false_iff]; intro h; have := (isAscii_iff s).1 h c hc; omega
  simp [PyText.decoded, this]

theorem decoded_cases (t : PyText) : (RawBytes t ∧ t.decoded = .error .valueError) ∨ ∃ s, t.decoded = .ok s := by
  by_cases h : RawBytes t
  · exact Or.inl ⟨h, decoded_raw h⟩
  · refine Or.inr ?_
    cases t with
    | uni s => exact ⟨s, rfl⟩
    | bytes s =>
      refine ⟨s, ?_⟩
      have : isAscii s = true := by
        rw [isAscii_iff]; intro c hc; by_contra hn; exact h ⟨s, rfl, c, hc, by omega⟩
      simp [PyText.decoded, this]

theorem encode_raw {t : PyText} (h : RawBytes t) : t.encode = .error .valueError := by
  have := decoded_raw h
  obtain ⟨s, rfl, _⟩ := h
  exact this

theorem raw_append {a b : Str} : RawBytes (.bytes (a ++ b)) ↔ RawBytes (.bytes a) ∨ RawBytes (.bytes b) := by
  constructor
  · rintro ⟨s, e, c, hc, hn⟩
    cases e
    rcases List.mem_append.1 hc with h | h
    · exact Or.inl ⟨_, rfl, c, h, hn⟩
    · exact Or.inr ⟨_, rfl, c, h, hn⟩
  · rintro (⟨s, e, c, hc, hn⟩ | ⟨s, e, c, hc, hn⟩) <;> cases e
    · exact ⟨_, rfl, c, by simp [hc], hn⟩
    · exact ⟨_, rfl, c, by simp [hc], hn⟩

theorem add_valueOnly (a b : PyText) : ValueOnly (a.add b) := by
  have mixed : ValueOnly (do
      let x ← a.decoded
      let y ← b.decoded
      (.ok (.uni (x ++ y)) : Except PyErr PyText)) := by
    rcases decoded_cases a with ⟨_, ea⟩ | ⟨x, ea⟩
    · left; rw [ea]; rfl
    · rcases decoded_cases b with ⟨_, eb⟩ | ⟨y, eb⟩
      · left; rw [ea, eb]; rfl
      · right; exact ⟨.uni (x ++ y), by rw [ea, eb]; rfl⟩
  cases a with
  | uni x => exact mixed
  | bytes x =>
    cases b with
    | uni y => exact mixed
    | bytes y => exact Or.inr ⟨_, rfl⟩

theorem add_raw {a b : PyText} (h : RawBytes a ∨ RawBytes b) : Spoilt (a.add b) := by
  have mixed : (do
      let x ← a.decoded
      let y ← b.decoded
      (.ok (.uni (x ++ y)) : Except PyErr PyText)) = .error .valueError := by
    rcases h with h | h
    · rw [decoded_raw h]; rfl
    · rcases decoded_cases a with ⟨_, ea⟩ | ⟨x, ea⟩
      · rw [ea]; rfl
      · rw [ea, decoded_raw h]; rfl
  cases a with
  | uni x => exact Or.inl mixed
  | bytes x =>
    cases b with
    | uni y => exact Or.inl mixed
    | bytes y => exact Or.inr ⟨_, rfl, raw_append.2 h⟩

theorem format_valueOnly (ts : List PyText) : ValueOnly (PyText.format ts) := by
  unfold PyText.format
  split_ifs with hu
  · clear hu
    have : ts.mapM PyText.decoded = .error .valueError ∨ ∃ ss, ts.mapM PyText.decoded = .ok ss := by
      induction ts with
      | nil => exact Or.inr ⟨[], rfl⟩
      | cons t ts ih =>
        rw [List.mapM_cons]
        rcases decoded_cases t with ⟨_, e⟩ | ⟨s, e⟩
        · left; rw [e]; rfl
        · rcases ih with h | ⟨ss, h⟩
          · left; rw [e, h]; rfl
          · right; exact ⟨s :: ss, by rw [e, h]; rfl⟩
    rcases this with h | ⟨ss, h⟩
    · left; rw [h]; rfl
    · right; exact ⟨_, by rw [h]; rfl⟩
  · exact Or.inr ⟨_, rfl⟩

theorem format_raw {ts : List PyText} {t : PyText} (ht : t ∈ ts) (h : RawBytes t) : Spoilt (PyText.format ts) := by
  unfold PyText.format
  split_ifs with hu
  · left
    have : ts.mapM PyText.decoded = .error .valueError := by
      clear hu
      induction ts with
      | nil => simp at ht
      | cons u us ih =>
        rw [List.mapM_cons]
        rcases decoded_cases u with ⟨_, e⟩ | ⟨s, e⟩
        · rw [e]; rfl
        · rcases List.mem_cons.1 ht with rfl | ht
          · rw [decoded_raw h] at e; simp at e
          · rw [e, ih ht]; rfl
    rw [this]; rfl
  · right
    refine ⟨_, rfl, ?_⟩
    obtain ⟨s, rfl, c, hc, hn⟩ := h
    exact ⟨_, rfl, c, List.mem_flatten.2 ⟨s, List.mem_map.2 ⟨.bytes s, ht, rfl⟩, hc⟩, hn⟩

theorem qualify_valueOnly (ns name : Option PyText) : ValueOnly (PyText.qualify ns name) := by
  unfold PyText.qualify
  cases name with
  | none => exact Or.inr ⟨_, rfl⟩
  | some n =>
    cases ns with
    | none => exact Or.inr ⟨_, rfl⟩
    | some t =>
      simp only
      split_ifs
      · rcases add_valueOnly (.bytes c!".") n with e | ⟨d, e⟩
        · left; rw [e]; rfl
        · rw [e]; exact add_valueOnly t d
      · exact Or.inr ⟨_, rfl⟩

theorem qualify_raw {ns name : Option PyText} {t : PyText} (ht : t ∈ ns.toList ++ name.toList) (h : RawBytes t) :
    Spoilt (PyText.qualify ns name) := by
  unfold PyText.qualify
  cases name with
  | none =>
    cases ns with
    | none => simp at ht
    | some u => simp at ht; subst ht; exact Or.inr ⟨_, rfl, h⟩
  | some n =>
    cases ns with
    | none => simp at ht; subst ht; exact Or.inr ⟨_, rfl, h⟩
    | some u =>
      simp only [Option.toList_some, List.cons_append, List.nil_append, List.mem_cons, List.not_mem_nil, or_false] at ht
      simp only
      split_ifs with hl
      · rcases ht with rfl | rfl
        · rcases add_valueOnly (.bytes c!".") n with e | ⟨d, e⟩
          · left; rw [e]; rfl
          · rw [e]; exact add_raw (Or.inl h)
        · rcases add_raw (a := .bytes c!".") (Or.inr h) with e | ⟨d, e, hd⟩
          · left; rw [e]; rfl
          · rw [e]; exact add_raw (Or.inr hd)
      · rcases ht with rfl | rfl
        · exfalso
          obtain ⟨s, rfl, c, hc, _⟩ := h
          apply hl; exact List.length_pos_of_mem hc
        · exact Or.inr ⟨_, rfl, h⟩

theorem send_raw {name data : PyText} (h : RawBytes name ∨ RawBytes data) (rate : Option Str) :
    PyText.send true name rate data = .error .valueError := by
  unfold PyText.send
  have tail : ∀ d : PyText, (RawBytes name ∨ RawBytes d) → (do
      let front ← name.add (.bytes c!":")
      let all ← front.add d
      if true then
        let out ← all.encode
        .ok (some out)
      else (.ok none : Except PyErr (Option Str))) = .error .valueError := by
    intro d hd
    rcases add_valueOnly name (.bytes c!":") with e | ⟨f, e⟩
    · rw [e]; rfl
    · have hs : Spoilt (f.add d) := by
        rcases hd with hd | hd
        · rcases add_raw (b := .bytes c!":") (Or.inl hd) with e' | ⟨f', e', hf⟩
          · rw [e] at e'; simp at e'
          · rw [e] at e'; simp only [Except.ok.injEq] at e'; subst e'; exact add_raw (Or.inl hf)
        · exact add_raw (Or.inr hd)
      rw [e]
      show (do let all ← f.add d; _) = _
      rcases hs with e2 | ⟨g, e2, hg⟩
      · rw [e2]; rfl
      · rw [e2]
        show (do let out ← g.encode; _) = _
        rw [encode_raw hg]; rfl
  cases rate with
  | none => exact tail data h
  | some r =>
    rcases add_valueOnly data (.bytes (c!"|@" ++ r)) with e | ⟨d, e⟩
    · simp only [e]; rfl
    · simp only [e]
      refine tail d ?_
      rcases h with h | h
      · exact Or.inl h
      · rcases add_raw (b := .bytes (c!"|@" ++ r)) (Or.inl h) with e' | ⟨f', e', hf⟩
        · rw [e] at e'; simp at e'
        · rw [e] at e'; simp only [Except.ok.injEq] at e'; subst e'; exact Or.inr hf

theorem run_raw {ns name : Option PyText} {call : TextCall} {t : PyText} (ht : t ∈ textsOf ns name call) (h : RawBytes t)
    (rate : Option Str) : call.run true ns name rate = .error .valueError := by
  have hsplit : t ∈ ns.toList ++ name.toList ∨ t ∈ call.parts := by
    cases call with
    | report v m e =>
      cases e <;> simp only [textsOf, TextCall.parts, List.mem_append, List.mem_cons, List.not_mem_nil, or_false, Option.toList_some,
        Option.toList_none] at ht ⊢ <;> tauto
    | _ => simp only [textsOf, TextCall.parts, List.mem_append, List.mem_cons, List.not_mem_nil, or_false] at ht ⊢; tauto
  unfold TextCall.run
  rcases hsplit with hq | hp
  · rcases qualify_raw hq h with e | ⟨q, e, hq⟩
    · rw [e]; rfl
    · rw [e]
      show (do let data ← PyText.format call.parts; _) = _
      rcases format_valueOnly call.parts with e2 | ⟨d, e2⟩
      · rw [e2]; rfl
      · rw [e2]; exact send_raw (Or.inl hq) rate
  · rcases qualify_valueOnly ns name with e | ⟨q, e⟩
    · rw [e]; rfl
    · rw [e]
      show (do let data ← PyText.format call.parts; _) = _
      rcases format_raw hp h with e2 | ⟨d, e2, hd⟩
      · rw [e2]; rfl
      · rw [e2]; exact send_raw (Or.inr hd) rate

end Txstatsd
