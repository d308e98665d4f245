import Verif.Lemmas.Metrics

set_option linter.unusedSectionVars false
set_option linter.unusedSimpArgs false
set_option linter.unusedVariables false

namespace Txstatsd
open Spec

/-- The class of a kind: the count of a counter is forgotten. -/
def Kind.cls : Kind → Kind
  | .counter _ => .counter (.int 0)
  | k => k

namespace Client

/-- Every object is stored under its name. -/
def Wf (c : Client) : Prop := ∀ n m, c.metrics.find n = some m → m.name = n

/-- Two clients with the same settings. -/
def Same (c c' : Client) : Prop := c'.conn = c.conn ∧ c'.namespc = c.namespc ∧ c'.ext = c.ext

theorem obtain_obj (c : Client) (n : Str) (k : Kind) (r : Num) :
    (c.obtain n k r).2 = (c.metrics.find n).getD ⟨k, n, r⟩ := by
  unfold obtain; split <;> simp [*]

theorem obtain_find (c : Client) (n : Str) (k : Kind) (r : Num) (n' : Str) :
    (c.obtain n k r).1.metrics.find n' = if n' = n then some (c.obtain n k r).2 else c.metrics.find n' := by
  unfold obtain; split
  · rename_i m hm
    split_ifs with h
    · rw [h]; exact hm
    · rfl
  · simp only [Dict.find_put]

theorem obtain_same (c : Client) (n : Str) (k : Kind) (r : Num) : Same c (c.obtain n k r).1 := by
  unfold obtain; split <;> exact ⟨rfl, rfl, rfl⟩

theorem obtain_lastTime (c : Client) (n : Str) (k : Kind) (r : Num) : (c.obtain n k r).1.lastTime = c.lastTime := by
  unfold obtain; split <;> rfl

theorem obtain_name {c : Client} (hw : c.Wf) (n : Str) (k : Kind) (r : Num) : (c.obtain n k r).2.name = n := by
  rw [obtain_obj]
  cases h : c.metrics.find n with
  | none => rfl
  | some m => exact hw n m h

theorem writeResult_client (c : Client) (fmt : PyFloat → Str) (draw : ℚ) (m : MetricObj) (r : Except PyErr Str) :
    (c.writeResult fmt draw m r).1 = c := by
  cases r <;> rfl

theorem writeCount_same (c : Client) (fmt : PyFloat → Str) (draw : ℚ) (m : MetricObj) (r : Except PyErr Num) :
    Same c (c.writeCount fmt draw m r).1 := by
  cases r <;> exact ⟨rfl, rfl, rfl⟩

theorem writeCount_lastTime (c : Client) (fmt : PyFloat → Str) (draw : ℚ) (m : MetricObj) (r : Except PyErr Num) :
    (c.writeCount fmt draw m r).1.lastTime = c.lastTime := by
  cases r <;> rfl

theorem writeCount_find (c : Client) (fmt : PyFloat → Str) (draw : ℚ) (m : MetricObj) (r : Except PyErr Num) (n' : Str) :
    (c.writeCount fmt draw m r).1.metrics.find n' =
      match r with
      | .ok n => if n' = m.name then some { m with kind := .counter n } else c.metrics.find n'
      | .error _ => c.metrics.find n' := by
  cases r with
  | error e => rfl
  | ok n => simp only [writeCount, write, Dict.find_put]

theorem Same.trans {a b c : Client} (h : Same a b) (h' : Same b c) : Same a c :=
  ⟨h'.1.trans h.1, h'.2.1.trans h.2.1, h'.2.2.trans h.2.2⟩

variable [Rounding]

theorem call_same (fmt : PyFloat → Str) (c : Client) (now : PyFloat) (draw : ℚ) (call : Call) :
    Same c (c.call fmt now draw call).1 := by
  cases call with
  | report n v t e => simp only [Client.call, writeResult_client]; exact obtain_same ..
  | gauge n v r => simp only [Client.call, writeResult_client]; exact obtain_same ..
  | meter n v r => simp only [Client.call, writeResult_client]; exact obtain_same ..
  | increment n v r =>
    simp only [Client.call]; split_ifs
    · exact (obtain_same ..).trans (writeCount_same ..)
    · exact obtain_same ..
  | decrement n v r =>
    simp only [Client.call]; split_ifs
    · exact (obtain_same ..).trans (writeCount_same ..)
    · simp only [writeResult_client]; exact obtain_same ..
  | resetTiming => exact ⟨rfl, rfl, rfl⟩
  | timing n d r =>
    cases d with
    | some d =>
      simp only [Client.call]; split_ifs
      · simp only [writeResult_client]; exact obtain_same ..
      · exact obtain_same ..
    | none =>
      simp only [Client.call]; split_ifs
      · simp only [writeResult_client]; exact Same.trans ⟨rfl, rfl, rfl⟩ (obtain_same ..)
      · exact Same.trans ⟨rfl, rfl, rfl⟩ (obtain_same ..)
  | distinct n v => simp only [Client.call, writeResult_client]; exact obtain_same ..
  | clear n =>
    simp only [Client.call]
    split
    · exact ⟨rfl, rfl, rfl⟩
    · split
      · exact writeCount_same ..
      · exact ⟨rfl, rfl, rfl⟩

/-- How the object stored for `key` evolves in one call. -/
def Evolves (key : Str) (call : Call) (ext : Bool) (ns : Option Str) (o o' : Option MetricObj) : Prop :=
  (¬ On ns key call → o' = o) ∧
  (∀ m, o = some m → ∃ m', o' = some m' ∧ m'.rate = m.rate ∧ m'.kind.cls = m.kind.cls) ∧
  (On ns key call → o = none →
    match kindOf ext call, rateOf call with
    | some k, some r => ∃ m', o' = some m' ∧ m'.rate = r ∧ m'.kind.cls = k
    | _, _ => o' = none)

theorem cls_counter {m : MetricObj} {v : Arg} {b : Bool} {n : Num} (h : m.bump b v = .ok n) :
    (Kind.counter n).cls = m.kind.cls := by
  unfold MetricObj.bump at h
  split at h
  · rename_i c hk; rw [hk]; rfl
  · simp at h

theorem evolves_obtain {c : Client} {key : Str} {call : Call} {ns : Option Str} {n : Option Str} {k : Kind} {r : Num} {ext : Bool}
    (hn : nameOf call = some n) (hk : kindOf ext call = some k) (hr : rateOf call = some r) (hkc : k.cls = k) :
    Evolves key call ext ns (c.metrics.find key) ((c.obtain (qualified ns n) k r).1.metrics.find key) := by
  have hon : On ns key call ↔ key = qualified ns n := by
    unfold On; rw [hn]; simp [eq_comm]
  refine ⟨?_, ?_, ?_⟩
  · intro h; rw [obtain_find, if_neg (fun e => h (hon.2 e))]
  · intro m hm
    rw [obtain_find]; split_ifs with e
    · rw [obtain_obj, ← e, hm]; exact ⟨m, rfl, rfl, rfl⟩
    · exact ⟨m, hm, rfl, rfl⟩
  · intro h hnone
    have e := hon.1 h
    rw [hk, hr]
    simp only
    rw [obtain_find, if_pos e, obtain_obj, ← e, hnone]
    exact ⟨_, rfl, rfl, hkc⟩

theorem evolves_count {c : Client} {key : Str} {call : Call} {ns : Option Str} {ext : Bool} {o : Option MetricObj}
    {n : Str} {k : Kind} {r : Num} (fmt : PyFloat → Str) (draw : ℚ) {b : Bool} {v : Arg} (hw : c.Wf)
    (h : Evolves key call ext ns o ((c.obtain n k r).1.metrics.find key)) (hon : On ns key call ↔ key = n) :
    Evolves key call ext ns o (((c.obtain n k r).1.writeCount fmt draw (c.obtain n k r).2
      ((c.obtain n k r).2.bump b v)).1.metrics.find key) := by
  rw [writeCount_find]
  split
  · rename_i x y hb
    rw [obtain_name hw]
    have hcls := cls_counter hb
    by_cases e : key = n
    · rw [if_pos e]
      obtain ⟨h1, h2, h3⟩ := h
      refine ⟨fun hno => absurd (hon.2 e) hno, ?_, ?_⟩
      · intro m hm
        obtain ⟨m', hm', hr', hk'⟩ := h2 m hm
        rw [obtain_find, if_pos e] at hm'
        simp only [Option.some.injEq] at hm'
        subst hm'
        exact ⟨_, rfl, hr', by rw [← hk']; exact hcls⟩
      · intro ho hnone
        have := h3 ho hnone
        revert this
        split
        · rintro ⟨m', hm', hr', hk'⟩
          rw [obtain_find, if_pos e] at hm'
          simp only [Option.some.injEq] at hm'
          subst hm'
          exact ⟨_, rfl, hr', by rw [← hk']; exact hcls⟩
        · intro hm'
          rw [obtain_find, if_pos e] at hm'
          simp at hm'
    · rw [if_neg e]; exact h
  · exact h

theorem call_evolves (fmt : PyFloat → Str) {c : Client} (hw : c.Wf) (now : PyFloat) (draw : ℚ) (call : Call) (key : Str) :
    Evolves key call c.ext c.namespc (c.metrics.find key) ((c.call fmt now draw call).1.metrics.find key) := by
  have onEq : ∀ {n : Option Str}, nameOf call = some n → (On c.namespc key call ↔ key = qualified c.namespc n) := by
    intro n hn; unfold On; rw [hn]; simp [eq_comm]
  cases call with
  | report n v t e =>
    simp only [Client.call, writeResult_client, fullyQualify_eq]
    exact evolves_obtain rfl rfl rfl rfl
  | gauge n v r =>
    simp only [Client.call, writeResult_client, fullyQualify_eq]
    exact evolves_obtain rfl rfl rfl rfl
  | meter n v r =>
    simp only [Client.call, writeResult_client, fullyQualify_eq]
    exact evolves_obtain rfl rfl rfl rfl
  | increment n v r =>
    simp only [Client.call, fullyQualify_eq]; split_ifs with he
    · exact evolves_count fmt draw hw (evolves_obtain rfl (by simp [kindOf, he]) rfl rfl) (onEq rfl)
    · exact evolves_obtain rfl (by simp [kindOf, he]) rfl rfl
  | decrement n v r =>
    simp only [Client.call, fullyQualify_eq]; split_ifs with he
    · exact evolves_count fmt draw hw (evolves_obtain rfl (by simp [kindOf, he]) rfl rfl) (onEq rfl)
    · simp only [writeResult_client]; exact evolves_obtain rfl (by simp [kindOf, he]) rfl rfl
  | resetTiming =>
    refine ⟨fun _ => rfl, fun m hm => ⟨m, hm, rfl, rfl⟩, fun h => ?_⟩
    simp [On, nameOf] at h
  | timing n d r =>
    cases d with
    | some d =>
      simp only [Client.call, fullyQualify_eq]; split_ifs with he
      · simp only [writeResult_client]; exact evolves_obtain rfl (by simp [kindOf, he]) rfl rfl
      · exact evolves_obtain rfl (by simp [kindOf, he]) rfl rfl
    | none =>
      simp only [Client.call, fullyQualify_eq]; split_ifs with he
      · simp only [writeResult_client]
        have := @evolves_obtain _ (c.calculateDuration now).1 key (.timing n none r) c.namespc n .timer r c.ext rfl
          (by simp [kindOf]; exact he) rfl rfl
        exact this
      · have := @evolves_obtain _ (c.calculateDuration now).1 key (.timing n none r) c.namespc n .plain r c.ext rfl
          (congrArg some (if_neg he)) rfl rfl
        exact this
  | distinct n v =>
    simp only [Client.call, writeResult_client, fullyQualify_eq]
    exact evolves_obtain rfl rfl rfl rfl
  | clear n =>
    simp only [Client.call, fullyQualify_eq]
    split
    · rename_i hnone
      exact ⟨fun _ => rfl, fun m hm => ⟨m, hm, rfl, rfl⟩, fun h hn => hn⟩
    · rename_i m hm
      split
      · rename_i cnt hk
        rw [writeCount_find]
        simp only [hw _ _ hm]
        have hon := onEq (n := n) rfl
        refine ⟨fun h => if_neg (fun e => h (hon.2 e)), ?_, ?_⟩
        · intro m' hm'
          split_ifs with e
          · rw [e, hm] at hm'
            simp only [Option.some.injEq] at hm'
            subst hm'
            exact ⟨_, rfl, rfl, by rw [hk]; rfl⟩
          · exact ⟨m', hm', rfl, rfl⟩
        · intro ho hnone
          rw [hon.1 ho, hm] at hnone
          cases hnone
      · exact ⟨fun _ => rfl, fun m hm => ⟨m, hm, rfl, rfl⟩, fun h hn => hn⟩

theorem obtain_wf {c : Client} (hw : c.Wf) (n : Str) (k : Kind) (r : Num) : (c.obtain n k r).1.Wf := by
  intro n' m h
  rw [obtain_find] at h
  split_ifs at h with e
  · simp only [Option.some.injEq] at h; rw [← h, e]; exact obtain_name hw ..
  · exact hw n' m h

theorem writeCount_wf {c : Client} (hw : c.Wf) (fmt : PyFloat → Str) (draw : ℚ) (m : MetricObj) (r : Except PyErr Num) :
    (c.writeCount fmt draw m r).1.Wf := by
  intro n' m' h
  rw [writeCount_find] at h
  split at h
  · split_ifs at h with e
    · simp only [Option.some.injEq] at h; rw [← h, e]
    · exact hw n' m' h
  · exact hw n' m' h

theorem call_wf (fmt : PyFloat → Str) {c : Client} (hw : c.Wf) (now : PyFloat) (draw : ℚ) (call : Call) :
    (c.call fmt now draw call).1.Wf := by
  cases call with
  | report n v t e => simp only [Client.call, writeResult_client]; exact obtain_wf hw _ _ _
  | gauge n v r => simp only [Client.call, writeResult_client]; exact obtain_wf hw _ _ _
  | meter n v r => simp only [Client.call, writeResult_client]; exact obtain_wf hw _ _ _
  | increment n v r =>
    simp only [Client.call]; split_ifs
    · exact writeCount_wf (obtain_wf hw _ _ _) _ _ _ _
    · exact obtain_wf hw _ _ _
  | decrement n v r =>
    simp only [Client.call]; split_ifs
    · exact writeCount_wf (obtain_wf hw _ _ _) _ _ _ _
    · simp only [writeResult_client]; exact obtain_wf hw _ _ _
  | resetTiming => exact hw
  | timing n d r =>
    cases d with
    | some d =>
      simp only [Client.call]; split_ifs
      · simp only [writeResult_client]; exact obtain_wf hw _ _ _
      · exact obtain_wf hw _ _ _
    | none =>
      have hw' : (c.calculateDuration now).1.Wf := hw
      simp only [Client.call]; split_ifs
      · simp only [writeResult_client]; exact obtain_wf hw' _ _ _
      · exact obtain_wf hw' _ _ _
  | distinct n v => simp only [Client.call, writeResult_client]; exact obtain_wf hw _ _ _
  | clear n =>
    simp only [Client.call]
    split
    · exact hw
    · split
      · exact writeCount_wf hw _ _ _ _
      · exact hw

/-! ## Sequences of calls -/

theorem run_cons (fmt : PyFloat → Str) (c : Client) (st : Step) (sts : List Step) :
    c.run fmt (st :: sts) =
      (((c.call fmt st.now st.draw st.call).1.run fmt sts).1,
       (c.call fmt st.now st.draw st.call).2 :: ((c.call fmt st.now st.draw st.call).1.run fmt sts).2) := rfl

theorem run_append (fmt : PyFloat → Str) (c : Client) (a b : List Step) :
    c.run fmt (a ++ b) = (((c.run fmt a).1.run fmt b).1, (c.run fmt a).2 ++ ((c.run fmt a).1.run fmt b).2) := by
  induction a generalizing c with
  | nil => rfl
  | cons st sts ih => rw [List.cons_append, run_cons, ih, run_cons]; rfl

theorem run_length (fmt : PyFloat → Str) (c : Client) (a : List Step) : (c.run fmt a).2.length = a.length := by
  induction a generalizing c with
  | nil => rfl
  | cons st sts ih => rw [run_cons]; simp [ih]

theorem run_same (fmt : PyFloat → Str) (c : Client) (a : List Step) : Same c (c.run fmt a).1 := by
  induction a generalizing c with
  | nil => exact ⟨rfl, rfl, rfl⟩
  | cons st sts ih => rw [run_cons]; exact (call_same ..).trans (ih _)

theorem run_wf (fmt : PyFloat → Str) {c : Client} (hw : c.Wf) (a : List Step) : (c.run fmt a).1.Wf := by
  induction a generalizing c with
  | nil => exact hw
  | cons st sts ih => rw [run_cons]; exact ih (call_wf fmt hw _ _ _)

theorem wf_empty {c : Client} (h : c.metrics = []) : c.Wf := by
  intro n m hm; rw [h] at hm; cases hm

end Client
end Txstatsd
