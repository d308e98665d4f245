import Verif.Lemmas.MetricsSend

set_option linter.unusedSectionVars false
set_option linter.unusedSimpArgs false
set_option linter.unusedVariables false

namespace Txstatsd
open Spec

theorem intStr_chars (z : ℤ) : ∀ c ∈ intStr z, isDigit c = true ∨ c = '-' := by
  intro c hc
  unfold intStr at hc
  split_ifs at hc
  · rcases List.mem_cons.1 hc with h | h
    · exact Or.inr h
    · exact Or.inl (natStr_digits _ c h)
  · exact Or.inl (natStr_digits _ c hc)

theorem intStr_clean (z : ℤ) : ':' ∉ intStr z ∧ '|' ∉ intStr z := by
  constructor <;> (intro h; rcases intStr_chars z _ h with h | h <;> revert h <;> decide)

section
variable [Rounding]

/-- The text of a number is a number and contains no separators. -/
theorem render_number {fmt : PyFloat → Str} (hf : NumberTexts fmt) (n : Num) :
    (∃ y, parseFloat (n.render fmt) = some y) ∧ ':' ∉ n.render fmt ∧ '|' ∉ n.render fmt := by
  cases n with
  | int z => exact ⟨⟨_, parseFloat_intStr z⟩, intStr_clean z⟩
  | flt x => exact ⟨(hf x).1, fun h => ((hf x).2 _ h).1 rfl, fun h => ((hf x).2 _ h).2.1 rfl⟩

/-- A well-formed unsampled message. -/
structure Plain (n text t : Str) : Prop where
  legal : ∀ c ∈ n, Legal c
  colon : ':' ∉ text
  bar : '|' ∉ text
  number : ∃ y, parseFloat text = some y
  type : t ∈ [c!"c", c!"ms", c!"g", c!"m"]

theorem Plain.parse {n text t : Str} (h : Plain n text t) :
    parseMessage (n ++ c!":" ++ (text ++ c!"|" ++ t)) = some ⟨t, n, [text, t]⟩ := by
  have ht := h.type
  simp only [List.mem_cons, List.not_mem_nil, or_false] at ht
  apply parse_two h.legal h.bar
  · rcases ht with rfl | rfl | rfl | rfl <;> decide
  · rcases ht with rfl | rfl | rfl | rfl <;> (intro c hc; simp at hc; subst hc; decide)
  · rcases ht with rfl | rfl | rfl | rfl <;> decide

theorem splitOn_noSep {c : Char} {s : Str} (h : c ∉ s) : splitOn c s = [s] := by
  induction s with
  | nil => rfl
  | cons x xs ih =>
    simp only [List.mem_cons, not_or] at h
    rw [splitOn, if_neg (fun e => h.1 e.symm), ih h.2]

theorem one_ne_zero_rnd [IntExact] : rnd (1 : ℚ) ≠ .fin 0 := by
  have := IntExact.rnd_int 1 (by norm_num)
  intro h
  simp only [Int.cast_one] at this
  rw [this] at h
  simp at h

theorem Plain.accepted [IntExact] {PF PM : Type} (ops : PluginOps PF PM) (w : World) (s : MPState PF PM) {n text t : Str}
    (h : Plain n text t) :
    (process (messageProcessor ops) w s (n ++ c!":" ++ (text ++ c!"|" ++ t))).2 = {} := by
  obtain ⟨y, hy⟩ := h.number
  have hs := splitOn_noSep h.colon
  have ht := h.type
  simp only [List.mem_cons, List.not_mem_nil, or_false] at ht
  simp only [process, h.parse, processMessage]
  rcases ht with rfl | rfl | rfl | rfl
  · obtain ⟨x, hx⟩ := div_ok (a := rnd 1) one_ne_zero_rnd
    simp [dispatch, messageProcessor, processCounter, hy, composeCounter, hx, finish]
  · simp [dispatch, messageProcessor, processTimer, hy, finish]
  · simp [dispatch, messageProcessor, processGauge, hy, hs, finish]
  · simp [dispatch, messageProcessor, processMeter, hy, hs, finish]

theorem Plain.increment [IntExact] {n : Str} {z : ℤ} (h : Plain n (intStr z) c!"c") :
    Increment (n ++ c!":" ++ (intStr z ++ c!"|" ++ c!"c")) n (rnd z) (rnd 1) :=
  increment_iff.2 ⟨intStr z, [], h.parse, parseFloat_intStr z, Or.inl ⟨rfl, rfl⟩, one_ne_zero_rnd⟩

theorem Plain.not_increment {n text t key : Str} (h : Plain n text t) (hk : n ≠ key ∨ t ≠ c!"c") (v r : PyFloat) :
    ¬ Increment (n ++ c!":" ++ (text ++ c!"|" ++ t)) key v r := by
  intro hi
  obtain ⟨f0, extra, hp, _⟩ := increment_iff.1 hi
  rw [h.parse] at hp
  simp only [Option.some.injEq, Metric.mk.injEq] at hp
  rcases hk with hk | hk
  · exact hk hp.2.1
  · exact hk hp.1

/-! ## The client of ordinary calls -/

/-- The invariant of a base client used with ordinary calls only. -/
structure OrdInv (ns : Option Str) (c : Client) : Prop where
  conn : c.conn = true
  ext : c.ext = false
  ns : c.namespc = ns
  wf : c.Wf
  objs : ∀ key m, c.metrics.find key = some m → Unsampled m.rate ∧ (m.kind = .plain ∨ m.kind = .gauge ∨ m.kind = .meter)

/-- What an ordinary call may write. -/
def OrdOut (ns : Option Str) (call : Call) (e : CallEffect) : Prop :=
  (e.out = none ∧ ∀ key, delta ns key call = none) ∨
  ∃ n text t, Plain n text t ∧ e.out = some (n ++ c!":" ++ (text ++ c!"|" ++ t)) ∧
    ((t ≠ c!"c" ∧ ∀ key, delta ns key call = none) ∨
      ∃ z, t = c!"c" ∧ text = intStr z ∧ ∀ key, delta ns key call = if n = key then some z else none)

namespace Client

theorem ord_obj {ns : Option Str} {c : Client} (h : OrdInv ns c) (key : Str) {k : Kind} {r : Num}
    (hk : k = .plain ∨ k = .gauge ∨ k = .meter) (hr : Unsampled r) :
    Unsampled (c.obtain key k r).2.rate ∧ (c.obtain key k r).2.name = key ∧
      ((c.obtain key k r).2.kind = .plain ∨ (c.obtain key k r).2.kind = .gauge ∨ (c.obtain key k r).2.kind = .meter) := by
  refine ⟨?_, obtain_name h.wf key k r, ?_⟩
  · rw [obtain_obj]
    cases hf : c.metrics.find key with
    | none => exact hr
    | some m => exact (h.objs key m hf).1
  · rw [obtain_obj]
    cases hf : c.metrics.find key with
    | none => exact hk
    | some m => exact (h.objs key m hf).2

theorem ord_obtain {ns : Option Str} {c : Client} (h : OrdInv ns c) (key : Str) {k : Kind} {r : Num}
    (hk : k = .plain ∨ k = .gauge ∨ k = .meter) (hr : Unsampled r) : OrdInv ns (c.obtain key k r).1 := by
  have hs := obtain_same c key k r
  refine ⟨hs.1.trans h.conn, hs.2.2.trans h.ext, hs.2.1.trans h.ns, obtain_wf h.wf _ _ _, ?_⟩
  intro key' m hm
  rw [obtain_find] at hm
  split_ifs at hm
  · simp only [Option.some.injEq] at hm
    subst hm
    have := ord_obj h key hk hr
    exact ⟨this.1, this.2.2⟩
  · exact h.objs key' m hm

theorem ord_write {ns : Option Str} {c : Client} (h : OrdInv ns c) (fmt : PyFloat → Str) (draw : ℚ) {m : MetricObj}
    (hu : Unsampled m.rate) (data : Str) : (c.write fmt draw m data).2.out = some (m.name ++ c!":" ++ data) := by
  simp only [write, h.conn, if_true]
  exact send_unsampled fmt draw hu data

theorem ord_mark {ns : Option Str} {c : Client} (h : OrdInv ns c) {fmt : PyFloat → Str} (hf : NumberTexts fmt) (draw : ℚ) {m : MetricObj}
    (hu : Unsampled m.rate) (hk : m.kind = .plain ∨ m.kind = .gauge ∨ m.kind = .meter) (hl : ∀ c ∈ m.name, Legal c) (v : Num) {call : Call}
    (hd : ∀ key, delta ns key call = none) : OrdOut ns call (c.writeResult fmt draw m (m.mark fmt (.num v))).2 := by
  obtain ⟨hy, h1, h2⟩ := render_number hf v
  rcases hk with hk | hk | hk
  · simp only [MetricObj.mark, hk]
    exact Or.inl ⟨rfl, hd⟩
  · simp only [MetricObj.mark, hk]
    refine Or.inr ⟨m.name, v.render fmt, c!"g", ⟨hl, h1, h2, hy, by decide⟩, ?_, Or.inl ⟨by decide, hd⟩⟩
    simp only [writeResult, ord_write h fmt draw hu, Arg.render]
    simp
  · simp only [MetricObj.mark, hk]
    refine Or.inr ⟨m.name, v.render fmt, c!"m", ⟨hl, h1, h2, hy, by decide⟩, ?_, Or.inl ⟨by decide, hd⟩⟩
    simp only [writeResult, ord_write h fmt draw hu, Arg.render]
    simp

theorem ord_call {ns : Option Str} (hns : ∀ s, ns = some s → ∀ c ∈ s, Legal c) {c : Client} (h : OrdInv ns c)
    {fmt : PyFloat → Str} (hf : NumberTexts fmt) (now : PyFloat) (draw : ℚ) {call : Call} (ho : Ordinary call) :
    OrdInv ns (c.call fmt now draw call).1 ∧ OrdOut ns call (c.call fmt now draw call).2 := by
  have hq : ∀ n : Str, (∀ c ∈ n, Legal c) → ∀ x ∈ qualified c.namespc (some n), Legal x := by
    rw [h.ns]; exact fun n hn => qualified_legal hns hn
  cases ho with
  | @gauge n v r hn hu =>
    simp only [Client.call, fullyQualify_eq, writeResult_client]
    obtain ⟨h1, h2, h3⟩ := ord_obj h (qualified c.namespc (some n)) (Or.inr (Or.inl rfl)) hu
    have hi := ord_obtain h (qualified c.namespc (some n)) (Or.inr (Or.inl rfl)) hu
    exact ⟨hi, ord_mark hi hf draw h1 h3 (by rw [h2]; exact hq n hn) v (fun _ => rfl)⟩
  | @meter n v r hn hu =>
    simp only [Client.call, fullyQualify_eq, writeResult_client]
    obtain ⟨h1, h2, h3⟩ := ord_obj h (qualified c.namespc (some n)) (Or.inr (Or.inr rfl)) hu
    have hi := ord_obtain h (qualified c.namespc (some n)) (Or.inr (Or.inr rfl)) hu
    exact ⟨hi, ord_mark hi hf draw h1 h3 (by rw [h2]; exact hq n hn) v (fun _ => rfl)⟩
  | @increment n z r hn hu =>
    simp only [Client.call, fullyQualify_eq, h.ext, Bool.false_eq_true, if_false]
    obtain ⟨h1, h2, h3⟩ := ord_obj h (qualified c.namespc (some n)) (Or.inl rfl) hu
    have hi := ord_obtain h (qualified c.namespc (some n)) (Or.inl rfl) hu
    refine ⟨hi, Or.inr ⟨_, intStr z, c!"c", ⟨hq n hn, (intStr_clean z).1, (intStr_clean z).2, ⟨_, parseFloat_intStr z⟩, by decide⟩, ?_,
      Or.inr ⟨z, rfl, rfl, ?_⟩⟩⟩
    · rw [ord_write hi fmt draw h1, h2]; simp [Arg.render, Num.render]
    · intro key; simp only [delta, h.ns]
  | @decrement n z r hn hu =>
    simp only [Client.call, fullyQualify_eq, h.ext, Bool.false_eq_true, if_false, writeResult_client]
    obtain ⟨h1, h2, h3⟩ := ord_obj h (qualified c.namespc (some n)) (Or.inl rfl) hu
    have hi := ord_obtain h (qualified c.namespc (some n)) (Or.inl rfl) hu
    refine ⟨hi, Or.inr ⟨_, intStr (-z), c!"c", ⟨hq n hn, (intStr_clean _).1, (intStr_clean _).2, ⟨_, parseFloat_intStr _⟩, by decide⟩, ?_,
      Or.inr ⟨-z, rfl, rfl, ?_⟩⟩⟩
    · simp only [Arg.neg, Except.map, writeResult]
      rw [ord_write hi fmt draw h1, h2]; simp [Arg.render, Num.render, Num.neg]
    · intro key; simp only [delta, h.ns]
  | @timing n d r hn hu =>
    simp only [Client.call, fullyQualify_eq, h.ext, Bool.false_eq_true, if_false]
    obtain ⟨h1, h2, h3⟩ := ord_obj h (qualified c.namespc (some n)) (Or.inl rfl) hu
    have hi := ord_obtain h (qualified c.namespc (some n)) (Or.inl rfl) hu
    obtain ⟨hy, e1, e2⟩ := render_number hf (d.mul (.int 1000))
    refine ⟨hi, Or.inr ⟨_, (d.mul (.int 1000)).render fmt, c!"ms", ⟨hq n hn, e1, e2, hy, by decide⟩, ?_, Or.inl ⟨by decide, fun _ => rfl⟩⟩⟩
    rw [ord_write hi fmt draw h1, h2]; simp [Arg.render, Arg.times1000]
  | @elapsed n r hn hu =>
    have h' : OrdInv ns (c.calculateDuration now).1 := ⟨h.conn, h.ext, h.ns, h.wf, h.objs⟩
    have hns' : (c.calculateDuration now).1.namespc = c.namespc := rfl
    simp only [Client.call, fullyQualify_eq, h'.ext, Bool.false_eq_true, if_false]
    obtain ⟨h1, h2, h3⟩ := ord_obj h' (qualified c.namespc (some n)) (Or.inl rfl) hu
    have hi := ord_obtain h' (qualified c.namespc (some n)) (Or.inl rfl) hu
    obtain ⟨hy, e1, e2⟩ := render_number hf ((c.calculateDuration now).2.mul (.int 1000))
    refine ⟨hi, Or.inr ⟨_, ((c.calculateDuration now).2.mul (.int 1000)).render fmt, c!"ms", ⟨hq n hn, e1, e2, hy, by decide⟩, ?_,
      Or.inl ⟨by decide, fun _ => rfl⟩⟩⟩
    rw [hns', ord_write hi fmt draw h1, h2]; simp [Arg.render, Arg.times1000]
  | reset =>
    exact ⟨⟨h.conn, h.ext, h.ns, h.wf, h.objs⟩, Or.inl ⟨rfl, fun _ => rfl⟩⟩

end Client

theorem processAll_cons {C T G PF PM : Type} (I : Impl C T G PF PM) (w : World) (s : PS C T G PF PM) (m : Str) (ms : List Str) :
    processAll I w s (m :: ms) = processAll I w (process I w s m).1 ms := rfl

/-- Writing through the internal client is processing the written texts in order. -/
theorem runInternal_eq {C T G PF PM : Type} (I : Impl C T G PF PM) (w : World) (fmt : PyFloat → Str) (c : Client) (s : PS C T G PF PM)
    (sts : List Client.Step) :
    (runInternal I w fmt c s sts).1 = processAll I w s (written (c.run fmt sts).2) ∧
    (runInternal I w fmt c s sts).2.map Prod.fst = (c.run fmt sts).2 := by
  induction sts generalizing c s with
  | nil => exact ⟨rfl, rfl⟩
  | cons st sts ih =>
    rw [Client.run_cons]
    cases ho : (c.call fmt st.now st.draw st.call).2.out with
    | none =>
      obtain ⟨h1, h2⟩ := ih (c.call fmt st.now st.draw st.call).1 s
      constructor
      · simp only [runInternal, ho, written, List.filterMap_cons]; exact h1
      · simp only [runInternal, ho, List.map_cons, h2]
    | some text =>
      obtain ⟨h1, h2⟩ := ih (c.call fmt st.now st.draw st.call).1 (process I w s text).1
      constructor
      · simp only [runInternal, ho, written, List.filterMap_cons, processAll_cons]; exact h1
      · simp only [runInternal, ho, List.map_cons, h2]

section
variable [IntExact] {PF PM : Type}

theorem ord_run_increments {ns : Option Str} (hns : ∀ s, ns = some s → ∀ c ∈ s, Legal c) {c : Client} (h : OrdInv ns c)
    {fmt : PyFloat → Str} (hf : NumberTexts fmt) (key : Str) (sts : List Client.Step) (ho : ∀ st ∈ sts, Ordinary st.call) :
    Increments key (written (c.run fmt sts).2) ((deltas ns key (sts.map Client.Step.call)).map fun z : ℤ => (rnd (z : ℚ), rnd 1)) := by
  induction sts generalizing c with
  | nil => exact .nil
  | cons st sts ih =>
    rw [Client.run_cons]
    obtain ⟨hi, hout⟩ := Client.ord_call hns h hf st.now st.draw (ho st (by simp))
    have ih' := ih hi (fun st' h' => ho st' (by simp [h']))
    simp only [written, List.filterMap_cons, deltas, List.map_cons] at ih' ⊢
    rcases hout with ⟨h1, h2⟩ | ⟨n, text, t, hp, h1, h2 | ⟨z, rfl, rfl, h2⟩⟩
    · simp only [h1, h2 key]; exact ih'
    · simp only [h1, h2.2 key]
      exact .skip (hp.not_increment (Or.inr h2.1)) ih'
    · simp only [h1, h2 key]
      by_cases e : n = key
      · subst e
        simp only [if_true, List.map_cons]
        exact .hit hp.increment ih'
      · simp only [if_neg e]
        exact .skip (hp.not_increment (Or.inl e)) ih'

theorem ord_run_accepted (ops : PluginOps PF PM) (w : World) {ns : Option Str} (hns : ∀ s, ns = some s → ∀ c ∈ s, Legal c) {c : Client}
    (h : OrdInv ns c) {fmt : PyFloat → Str} (hf : NumberTexts fmt) (s : MPState PF PM) (sts : List Client.Step)
    (ho : ∀ st ∈ sts, Ordinary st.call) :
    ∀ p ∈ (runInternal (messageProcessor ops) w fmt c s sts).2, ∀ o, p.2 = some o → o = {} := by
  induction sts generalizing c s with
  | nil => simp [runInternal]
  | cons st sts ih =>
    obtain ⟨hi, hout⟩ := Client.ord_call hns h hf st.now st.draw (ho st (by simp))
    have ih' := fun s => ih hi s (fun st' h' => ho st' (by simp [h']))
    cases hs : (c.call fmt st.now st.draw st.call).2.out with
    | none =>
      simp only [runInternal, hs, List.mem_cons]
      rintro p (rfl | hp) o e
      · cases e
      · exact ih' s p hp o e
    | some text =>
      simp only [runInternal, hs, List.mem_cons]
      rintro p (rfl | hp) o e
      · rcases hout with ⟨h1, _⟩ | ⟨n, tx, t, hp, h1, _⟩
        · rw [hs] at h1; cases h1
        · rw [hs] at h1
          simp only [Option.some.injEq] at h1 e
          subst h1 e
          exact hp.accepted ops w s
      · exact ih' _ p hp o e

end
end
end Txstatsd
