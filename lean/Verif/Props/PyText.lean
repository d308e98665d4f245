import Verif.Lemmas.PyText

/-!
# C135: texts that are not ASCII
-/

namespace Txstatsd
open Spec

/-- C135: if the namespace, the name and the other texts of a call are unicode strings or ASCII byte strings, in any mixture, the connection gets
the UTF-8 bytes of the qualified name, a colon, the data of the call and the sampling annotation. -/
theorem C135_sends_partial (ns name : Option PyText) (a b : Option Str) (h1 : StandsOpt ns a) (h2 : StandsOpt name b) (call : TextCall) (data : Str)
    (h : Says call data) (rate : Option Str) (hr : ∀ r, rate = some r → ∀ c ∈ r, c.toNat < 128) :
    call.run true ns name rate
      = .ok (some (utf8 (qualified a b ++ c!":" ++ data ++ (rate.map (c!"|@" ++ ·)).getD []))) := by
  rw [run_of h1 h2 h rate hr, enc_utf8, List.append_assoc (qualified a b ++ c!":")]

example : (TextCall.increment (.bytes c!"3")).run true (some (.bytes c!"app")) (some (.uni c!"größe")) none
    = .ok (some c!"app.gr\xc3\xb6\xc3\x9fe:3|c") := by decide +kernel

example : StandsOpt (some (.bytes c!"app")) (some c!"app") ∧ StandsOpt (some (.uni c!"größe")) (some c!"größe") ∧
    Says (.increment (.bytes c!"3")) (c!"3" ++ c!"|c") :=
  ⟨.some (.ascii _ (by decide)), .some (.uni _), .increment (.ascii _ (by decide))⟩

/-- C135: one byte string with a byte above 127 among the texts makes the call raise `ValueError` (`UnicodeDecodeError`), and nothing is sent. -/
theorem C135_raises (ns name : Option PyText) (call : TextCall) (t : PyText) (ht : t ∈ textsOf ns name call) (h : RawBytes t)
    (rate : Option Str) : call.run true ns name rate = .error .valueError := run_raw ht h rate

example : RawBytes (.bytes c!"gr\xc3\xb6") ∧
    PyText.bytes c!"gr\xc3\xb6" ∈ textsOf none (some (.bytes c!"gr\xc3\xb6")) (.gauge (.bytes c!"1")) :=
  ⟨⟨_, rfl, '\xc3', by decide, by decide⟩, by decide⟩

/-- C135 fails: a name given as a byte string in UTF-8 cannot be reported. -/
theorem C135_refuted : ¬ ∀ (name : Str) (value : Str), (∀ c ∈ name, c.toNat < 256) →
    ∃ out, (TextCall.increment (.bytes value)).run true none (some (.bytes name)) none = .ok (some out) := by
  intro h
  obtain ⟨out, h⟩ := h c!"gr\xc3\xb6" c!"1" (by decide)
  have e : (TextCall.increment (.bytes c!"1")).run true none (some (.bytes c!"gr\xc3\xb6")) none = .error .valueError := by decide +kernel
  rw [e] at h
  simp at h

/-- C135: the server takes the bytes apart as if they were the characters. A text that follows the grammar is accepted with its type and
fields encoded. Its key is the normalised name, in which no character outside ASCII is left. -/
theorem C135_server (text mtype rawKey : Str) (fields : List Str) (h : Message text mtype rawKey fields) :
    parseMessage (utf8 text) = some ⟨utf8 mtype, normalize rawKey, fields.map utf8⟩ := by
  rw [← enc_utf8, parse_enc, (parseMessage_spec text ⟨mtype, normalize rawKey, fields⟩).2 ⟨rawKey, h, rfl⟩]
  simp only [Option.map_some, Option.some.injEq, Metric.mk.injEq, true_and, enc_utf8]
  simp [enc_utf8]

/-- C135: the bytes of any other text are refused. -/
theorem C135_refused (text : Str) (h : ∀ mtype rawKey fields, ¬ Message text mtype rawKey fields) :
    parseMessage (utf8 text) = none := by
  rw [← enc_utf8, parse_enc]
  cases hp : parseMessage text with
  | none => rfl
  | some m =>
    obtain ⟨raw, hm, _⟩ := (parseMessage_spec text m).1 hp
    exact absurd hm (h _ _ _)

/-- C135: without a connection nothing is sent, whatever the texts. -/
theorem C135_unconnected (ns name : Option PyText) (call : TextCall) (rate : Option Str) (out : Str) :
    call.run false ns name rate ≠ .ok (some out) := by
  unfold TextCall.run
  intro h
  cases hq : PyText.qualify ns name with
  | error e => rw [hq] at h; cases h
  | ok q =>
    cases hf : PyText.format call.parts with
    | error e => rw [hq, hf] at h; cases h
    | ok d =>
      rw [hq, hf] at h
      change PyText.send false q rate d = _ at h
      have key : ∀ d' : PyText, ((q.add (.bytes c!":")).bind fun front => (front.add d').bind fun _ =>
          (Except.ok none : Except PyErr (Option Str))) ≠ .ok (some out) := by
        intro d' h
        cases ha : q.add (.bytes c!":") with
        | error e => rw [ha] at h; cases h
        | ok front =>
          rw [ha] at h
          change ((front.add d').bind _) = _ at h
          cases hb : front.add d' with
          | error e => rw [hb] at h; cases h
          | ok all => rw [hb] at h; cases h
      cases rate with
      | none => exact key d h
      | some r =>
        unfold PyText.send at h
        change ((d.add (.bytes (c!"|@" ++ r))).bind fun d' => _) = _ at h
        cases hd : d.add (.bytes (c!"|@" ++ r)) with
        | error e => rw [hd] at h; cases h
        | ok d' => rw [hd] at h; exact key d' h

example : (TextCall.increment (.bytes c!"1")).run false none (some (.uni c!"é")) none = .ok none := by decide +kernel

/-- C135: from the call to the key: incrementing a counter under a name without a colon, not beginning with white space, is counted under the
name's normal form. -/
theorem C135_counted (ns name : Option PyText) (a b : Option Str) (h1 : StandsOpt ns a) (h2 : StandsOpt name b)
    (hc : ':' ∉ qualified a b) (hw : ∀ c, (qualified a b ++ c!":").head? = some c → ¬ White c) (z : ℤ) :
    ∃ out, (TextCall.increment (.bytes (intStr z))).run true ns name none = .ok (some out) ∧
      parseMessage out = some ⟨c!"c", normalize (qualified a b), [intStr z, c!"c"]⟩ := by
  have hz : ∀ c ∈ intStr z, c.toNat < 128 ∧ c ≠ '|' := by
    have hd : ∀ n, ∀ c ∈ natStr n, c.toNat < 128 ∧ c ≠ '|' := by
      intro n c hc
      have := natStr_digits n c hc
      simp only [isDigit, Bool.and_eq_true, decide_eq_true_eq, Char.le_def, UInt32.le_iff_toNat_le] at this
      have h9 : c.toNat ≤ 57 := this.2
      refine ⟨by omega, ?_⟩
      rintro rfl; exact absurd h9 (by decide)
    intro c hc
    unfold intStr at hc
    split_ifs at hc
    · rcases List.mem_cons.1 hc with rfl | hc
      · decide
      · exact hd _ c hc
    · exact hd _ c hc
  have hs := C135_sends_partial ns name a b h1 h2 (.increment (.bytes (intStr z))) _
    (.increment (.ascii _ fun c hc => (hz c hc).1)) none (by simp)
  refine ⟨_, hs, ?_⟩
  have hm : Message (qualified a b ++ c!":" ++ (intStr z ++ c!"|c") ++ ((none : Option Str).map (c!"|@" ++ ·)).getD []) c!"c" (qualified a b)
      [intStr z, c!"c"] := by
    have e : qualified a b ++ c!":" ++ (intStr z ++ c!"|c") ++ ((none : Option Str).map (c!"|@" ++ ·)).getD []
        = qualified a b ++ ':' :: (intStr z ++ '|' :: c!"c") := by simp
    rw [e]
    refine ⟨_, stripped_self ?_ ?_, hc, ?_, Or.inl ⟨intStr z, rfl, rfl⟩⟩
    · intro c hh
      apply hw c
      cases hq : qualified a b with
      | nil => rw [hq] at hh; simpa using hh
      | cons x xs => rw [hq] at hh; simpa using hh
    · intro c hh
      have e2 : qualified a b ++ ':' :: (intStr z ++ '|' :: c!"c") = (qualified a b ++ ':' :: (intStr z ++ c!"|")) ++ c!"c" := by simp
      rw [e2, List.getLast?_append_of_ne_nil _ (by simp)] at hh
      simp at hh; subst hh; decide
    · intro f hf
      simp only [List.mem_cons, List.not_mem_nil, or_false] at hf
      rcases hf with rfl | rfl
      · intro hb; exact (hz _ hb).2 rfl
      · decide
  have := C135_server _ _ _ _ hm
  rw [this]
  have ea : ∀ s : Str, (∀ c ∈ s, c.toNat < 128) → utf8 s = s := fun s h => by rw [← enc_utf8, enc_ascii h]
  simp only [List.map_cons, List.map_nil]
  rw [ea c!"c" (by decide), ea (intStr z) fun c hc => (hz c hc).1]

example : ':' ∉ qualified (some c!"app") (some c!"größe") ∧
    (∀ c, (qualified (some c!"app") (some c!"größe") ++ c!":").head? = some c → ¬ White c) ∧
    normalize (qualified (some c!"app") (some c!"größe")) = c!"app.gre" := by
  refine ⟨by decide, ?_, by decide +kernel⟩
  intro c hc
  have : c = 'a' := by simpa [qualified, joinWith, Option.filter] using hc.symm
  subst this; decide

end Txstatsd
