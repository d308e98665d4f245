import Verif.Lemmas.Text
import Verif.Model.Processor

/-!
# C01-C06: the message text
-/

namespace Txstatsd
open Spec

/-- C01: `normalize_key` is the one-pass description: each white-space run becomes one `_`, each `/`
run one `-`, legal characters stay, everything else disappears. -/
theorem C01_normalize_eq_spec (key : Str) : normalizeKey key = Spec.normalize key :=
  normalizeKey_eq key

/-- C01: a normalised key contains only characters that graphite accepts. -/
theorem C01_alphabet (key : Str) : ∀ c ∈ normalizeKey key, Legal c :=
  fun _ hc => legal_of_mem_normalizeKey hc

example : normalizeKey c!"a  b//c d!" = c!"a_b-c_d" := by decide +kernel

/-- C02: normalising twice is normalising once. -/
theorem C02_idempotent (key : Str) : normalizeKey (normalizeKey key) = normalizeKey key :=
  normalizeKey_legal (C01_alphabet key)

/-- C02: a key made only of legal characters is returned unchanged. -/
theorem C02_fixes_legal (key : Str) (h : ∀ c ∈ key, Legal c) : normalizeKey key = key :=
  normalizeKey_legal h

example : ∀ c ∈ c!"a.b-c_0", Legal c := by decide

section
variable [Rounding] {C T G PF PM : Type}

/-- C03: a message is handed to `process_message` exactly when it follows the grammar, with the type,
the normalised key and the fields of its (unique) decomposition. -/
theorem C03_parse_iff (msg : Str) (m : Metric) :
    parseMessage msg = some m ↔
      ∃ rawKey, Spec.Message msg m.mtype rawKey m.fields ∧ m.key = Spec.normalize rawKey :=
  parseMessage_spec msg m

/-- C03: a grammatical message is dispatched, on every processor class and in every state. -/
theorem C03_dispatch (I : Impl C T G PF PM) (w : World) (s : PS C T G PF PM) (msg mtype rawKey : Str)
    (fields : List Str) (h : Spec.Message msg mtype rawKey fields) :
    process I w s msg = processMessage I w s msg ⟨mtype, Spec.normalize rawKey, fields⟩ := by
  have := (parseMessage_spec msg ⟨mtype, Spec.normalize rawKey, fields⟩).2 ⟨rawKey, h, rfl⟩
  simp [process, this]

/-- C03: every other message is logged as bad once, changes nothing and raises nothing. -/
theorem C03_reject (I : Impl C T G PF PM) (w : World) (s : PS C T G PF PM) (msg : Str)
    (h : ∀ mtype rawKey fields, ¬ Spec.Message msg mtype rawKey fields) :
    process I w s msg = (s, { bad := [msg], exc := none }) := by
  have : parseMessage msg = none := by
    cases hp : parseMessage msg with
    | none => rfl
    | some m =>
      obtain ⟨raw, hm, _⟩ := (parseMessage_spec msg m).1 hp
      exact absurd hm (h _ _ _)
  simp [process, this]

example : Spec.Message c!" a b:1|c|@0.1\n" c!"c" c!"a b" [c!"1", c!"c", c!"@0.1"] := by
  refine ⟨c!"a b:1|c|@0.1", ⟨c!" ", c!"\n", by decide, by decide, by decide, ?_, ?_⟩, by decide, by decide, ?_⟩
  · intro c hc; simp at hc; subst hc; decide
  · intro c hc; simp at hc; subst hc; decide
  · right; exact ⟨c!"1", c!"@0.1", rfl, by decide⟩

example : ∀ mtype rawKey fields, ¬ Spec.Message c!"a:1" mtype rawKey fields := by
  intro t k fs h
  have h2 := (parseMessage_spec c!"a:1" ⟨t, Spec.normalize k, fs⟩).2 ⟨k, h, rfl⟩
  have : parseMessage c!"a:1" = none := by decide +kernel
  rw [this] at h2; simp at h2

/-- C04: rebuilding the message of an accepted metric gives a text that is accepted as the same metric:
redirecting to another server loses nothing. -/
theorem C04_rebuild_roundtrip (msg : Str) (m : Metric) (h : parseMessage msg = some m) :
    parseMessage (rebuildMessage m.mtype m.key m.fields) = some m :=
  parse_rebuild h

/-- C04: the rebuilt text is the stripped message with its key normalised. -/
theorem C04_rebuild_text (msg mtype rawKey : Str) (fields : List Str) (m : Metric)
    (h : Spec.Message msg mtype rawKey fields) (hm : parseMessage msg = some m) :
    ∃ rest, Stripped msg (rawKey ++ ':' :: rest) ∧
      rebuildMessage m.mtype m.key m.fields = Spec.normalize rawKey ++ ':' :: rest := by
  have h2 := (parseMessage_spec msg ⟨mtype, Spec.normalize rawKey, fields⟩).2 ⟨rawKey, h, rfl⟩
  rw [h2] at hm; simp only [Option.some.injEq] at hm; subst hm
  obtain ⟨text, hst, hk, hfs, ⟨f0, rfl, rfl⟩ | ⟨f0, f2, rfl, rfl⟩⟩ := h
  · exact ⟨_, hst, by simp [rebuildMessage, joinWith]⟩
  · exact ⟨_, hst, by simp [rebuildMessage, joinWith]⟩

example : (parseMessage c!" a b:1|c|@0.1\n").isSome = true := by decide +kernel

/-- C05: a metric of unknown type is logged as bad and changes nothing but the number of clock
readings (`process_message` reads the clock before dispatching). -/
theorem C05_unknown_type (I : Impl C T G PF PM) (w : World) (s : PS C T G PF PM) (msg : Str) (m : Metric)
    (hb : m.mtype ∉ [c!"c", c!"ms", c!"g", c!"m"]) (hp : ∀ f, (m.mtype, f) ∉ s.plugins) :
    processMessage I w s msg m = ({ s with ticks := s.ticks + 1 }, { bad := [msg], exc := none }) := by
  simp only [List.mem_cons, List.not_mem_nil, or_false, not_or] at hb
  obtain ⟨h1, h2, h3, h4⟩ := hb
  have h5 : s.plugins.find m.mtype = none := by
    clear h1 h2 h3 h4
    generalize s.plugins = d at hp
    induction d with
    | nil => rfl
    | cons p ps ih =>
      obtain ⟨k, v⟩ := p
      simp only [List.mem_cons, not_or] at hp
      have : k ≠ m.mtype := fun e => (hp v).1 (by rw [e])
      simp [Dict.find, this, ih (fun f => (hp f).2)]
  simp [processMessage, dispatch, h1, h2, h3, h4, h5]

/-- C05: a built-in type is never handed to a plugin, even to one registered under that type. -/
theorem C05_builtin_before_plugin (ops : PluginOps PF PM) (w : World) (s : MPState PF PM) (msg : Str)
    (m : Metric) (hb : m.mtype ∈ [c!"c", c!"ms", c!"g", c!"m"]) :
    (processMessage (messageProcessor ops) w s msg m).1.pluginMetrics = s.pluginMetrics := by
  have key : ∀ (r : MPState PF PM × Outcome) (st : ℚ), r.1.pluginMetrics = s.pluginMetrics →
      (finish w m.mtype st r).1.pluginMetrics = s.pluginMetrics := by
    intro r st hr; unfold finish; split <;> simp [account, hr]
  simp only [List.mem_cons, List.not_mem_nil, or_false] at hb
  unfold processMessage dispatch
  rcases hb with h | h | h | h
  · simp only [h, if_true]; rw [← h]; apply key
    simp only [messageProcessor, processCounter, composeCounter]
    split
    · rfl
    · split_ifs <;> (try split) <;> (try split) <;> (try split) <;> rfl
  · have e1 : c!"ms" ≠ c!"c" := by decide
    simp only [h, e1, if_true, if_false]; rw [← h]; apply key
    simp only [processTimer]; split <;> rfl
  · have e1 : c!"g" ≠ c!"c" := by decide
    have e2 : c!"g" ≠ c!"ms" := by decide
    simp only [h, e1, e2, if_true, if_false]; rw [← h]; apply key
    simp only [processGauge]; split
    · rfl
    · split <;> rfl
  · have e1 : c!"m" ≠ c!"c" := by decide
    have e2 : c!"m" ≠ c!"ms" := by decide
    have e3 : c!"m" ≠ c!"g" := by decide
    simp only [h, e1, e2, e3, if_true, if_false]; rw [← h]; apply key
    simp only [processMeter, composeMeter]; split
    · rfl
    · split
      · rfl
      · split <;> rfl

example : (c!"zz" : Str) ∉ [c!"c", c!"ms", c!"g", c!"m"] := by decide

/-- C06: the decimal text of every integer is read back by `float()` as that integer (then rounded to a
float). -/
theorem C06_integers (n : ℤ) : parseFloat (intStr n) = some (rnd (n : ℚ)) := parseFloat_intStr n

/-- C06: a decimal fraction `a.b` is read as `a + b / 10^(number of digits of b)`. -/
theorem C06_fractions (a b zeros : Nat) :
    parseFloat (natStr a ++ '.' :: (List.replicate zeros '0' ++ natStr b))
      = some (rnd ((a : ℚ) + (b : ℚ) / 10 ^ (zeros + (natStr b).length))) := by
  have hz : ∀ n, digitsVal (List.replicate n '0') = 0 := by
    intro n
    induction n with
    | zero => rfl
    | succ n ih => rw [List.replicate_succ', digitsVal_append, ih]; rfl
  rw [parseFloat_frac (natStr_digits a) (natStr_ne_nil a), digitsVal_append, hz, digitsVal_natStr,
    digitsVal_natStr]
  · simp
  · intro c hc
    rcases List.mem_append.1 hc with hc | hc
    · rw [List.eq_of_mem_replicate hc]; decide
    · exact natStr_digits b c hc

omit [Rounding] in
/-- C06: the rate expression reads back every text of digits and dots after the `@`. -/
theorem C06_rate_text (r : Str) (hne : r ≠ []) (h : ∀ c ∈ r, c.isDigit = true ∨ c = '.') :
    rateMatch ('@' :: r) = some r := by
  apply rateMatch_all hne
  intro c hc
  rcases h c hc with h | h
  · left
    simpa [isDigit, Char.isDigit, Char.le_def] using h
  · exact Or.inr h

example : rateMatch c!"@0.25" = some c!"0.25" := by decide
example : intStr (-120) = c!"-120" := by decide +kernel

end

end Txstatsd
