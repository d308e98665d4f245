import Verif.Lemmas.MetricsServer

set_option linter.unusedSectionVars false
set_option linter.unusedSimpArgs false
set_option linter.unusedVariables false

namespace Txstatsd
open Spec
section
variable [Rounding]

namespace Client

/-! ## The name in a written text -/

theorem send_name {m : MetricObj} {fmt : PyFloat → Str} {draw : ℚ} {data out : Str} (h : m.send fmt draw data = some out) :
    ∃ rest, out = m.name ++ c!":" ++ rest := by
  unfold MetricObj.send at h
  split_ifs at h <;> simp only [Option.some.injEq] at h
  · exact ⟨_, h.symm⟩
  · exact ⟨_, h.symm⟩

theorem write_name {c : Client} {m : MetricObj} {fmt : PyFloat → Str} {draw : ℚ} {data out : Str}
    (h : (c.write fmt draw m data).2.out = some out) : ∃ rest, out = m.name ++ c!":" ++ rest := by
  unfold write at h
  simp only at h
  split_ifs at h
  exact send_name h

theorem writeResult_name {c : Client} {m : MetricObj} {fmt : PyFloat → Str} {draw : ℚ} {r : Except PyErr Str} {out : Str}
    (h : (c.writeResult fmt draw m r).2.out = some out) : ∃ rest, out = m.name ++ c!":" ++ rest := by
  cases r with
  | ok d => exact write_name h
  | error e => simp [writeResult] at h

theorem writeCount_name {c : Client} {m : MetricObj} {fmt : PyFloat → Str} {draw : ℚ} {r : Except PyErr Num} {out : Str}
    (h : (c.writeCount fmt draw m r).2.out = some out) : ∃ rest, out = m.name ++ c!":" ++ rest := by
  cases r with
  | ok d => exact write_name (m := { m with kind := .counter d }) h
  | error e => simp [writeCount] at h

theorem call_name {c : Client} (hw : c.Wf) {fmt : PyFloat → Str} {now : PyFloat} {draw : ℚ} {call : Call} {out : Str}
    (h : (c.call fmt now draw call).2.out = some out) :
    ∃ n rest, nameOf call = some n ∧ out = qualified c.namespc n ++ c!":" ++ rest := by
  cases call with
  | report n v t e =>
    simp only [Client.call, fullyQualify_eq] at h
    obtain ⟨r, hr⟩ := writeResult_name h; rw [obtain_name hw] at hr; exact ⟨n, r, rfl, hr⟩
  | gauge n v r =>
    simp only [Client.call, fullyQualify_eq] at h
    obtain ⟨r, hr⟩ := writeResult_name h; rw [obtain_name hw] at hr; exact ⟨n, r, rfl, hr⟩
  | meter n v r =>
    simp only [Client.call, fullyQualify_eq] at h
    obtain ⟨r, hr⟩ := writeResult_name h; rw [obtain_name hw] at hr; exact ⟨n, r, rfl, hr⟩
  | increment n v r =>
    simp only [Client.call, fullyQualify_eq] at h
    split_ifs at h
    · obtain ⟨r, hr⟩ := writeCount_name h; rw [obtain_name hw] at hr; exact ⟨n, r, rfl, hr⟩
    · obtain ⟨r, hr⟩ := write_name h; rw [obtain_name hw] at hr; exact ⟨n, r, rfl, hr⟩
  | decrement n v r =>
    simp only [Client.call, fullyQualify_eq] at h
    split_ifs at h
    · obtain ⟨r, hr⟩ := writeCount_name h; rw [obtain_name hw] at hr; exact ⟨n, r, rfl, hr⟩
    · obtain ⟨r, hr⟩ := writeResult_name h; rw [obtain_name hw] at hr; exact ⟨n, r, rfl, hr⟩
  | resetTiming => simp [Client.call] at h
  | timing n d r =>
    cases d with
    | some d =>
      simp only [Client.call, fullyQualify_eq] at h
      split_ifs at h
      · obtain ⟨r, hr⟩ := writeResult_name h; rw [obtain_name hw] at hr; exact ⟨n, r, rfl, hr⟩
      · obtain ⟨r, hr⟩ := write_name h; rw [obtain_name hw] at hr; exact ⟨n, r, rfl, hr⟩
    | none =>
      have hw' : (c.calculateDuration now).1.Wf := hw
      simp only [Client.call, fullyQualify_eq] at h
      split_ifs at h
      · obtain ⟨r, hr⟩ := writeResult_name h; rw [obtain_name hw'] at hr; exact ⟨n, r, rfl, hr⟩
      · obtain ⟨r, hr⟩ := write_name h; rw [obtain_name hw'] at hr; exact ⟨n, r, rfl, hr⟩
  | distinct n v =>
    simp only [Client.call, fullyQualify_eq] at h
    obtain ⟨r, hr⟩ := writeResult_name h; rw [obtain_name hw] at hr; exact ⟨n, r, rfl, hr⟩
  | clear n =>
    simp only [Client.call, fullyQualify_eq] at h
    split at h
    · simp at h
    · rename_i m hm
      split at h
      · obtain ⟨r, hr⟩ := writeCount_name h; rw [hw _ _ hm] at hr; exact ⟨n, r, rfl, hr⟩
      · simp at h

/-! ## Extended counters -/

/-- The counter object of `key` holds `total`. -/
def Holds (c : Client) (key : Str) (total : ℤ) : Prop :=
  (c.metrics.find key = none ∧ total = 0) ∨ ∃ r, c.metrics.find key = some ⟨.counter (.int total), key, r⟩

/-- The text of a count. -/
def CountText (fmt : PyFloat → Str) (key : Str) (total : ℤ) (out : Str) : Prop :=
  out = key ++ c!":" ++ (intStr total ++ c!"|c") ∨
  ∃ r : Num, out = key ++ c!":" ++ (intStr total ++ c!"|c" ++ c!"|@" ++ r.render fmt)

theorem write_countText {c : Client} {fmt : PyFloat → Str} {draw : ℚ} {k : Kind} {key : Str} {r : Num} {total : ℤ} {out : Str}
    (h : (c.write fmt draw ⟨k, key, r⟩ (intStr total ++ c!"|c")).2.out = some out) : CountText fmt key total out := by
  unfold write at h
  simp only at h
  split_ifs at h
  unfold MetricObj.send at h
  split_ifs at h <;> simp only [Option.some.injEq] at h
  · exact Or.inr ⟨r, h.symm⟩
  · exact Or.inl h.symm

theorem writeCount_holds {c : Client} {fmt : PyFloat → Str} {draw : ℚ} {k : Kind} {key : Str} {r : Num} {total : ℤ} :
    (c.writeCount fmt draw ⟨k, key, r⟩ (.ok (.int total))).1.Holds key total ∧
    ∀ out, (c.writeCount fmt draw ⟨k, key, r⟩ (.ok (.int total))).2.out = some out → CountText fmt key total out := by
  constructor
  · right
    refine ⟨r, ?_⟩
    rw [writeCount_find]
    simp
  · intro out h
    exact write_countText h

theorem obtain_holds {c : Client} {key : Str} {total : ℤ} (h : c.Holds key total) (r : Num) :
    ∃ r', (c.obtain key (.counter (.int 0)) r).2 = ⟨.counter (.int total), key, r'⟩ := by
  rw [obtain_obj]
  rcases h with ⟨h, rfl⟩ | ⟨r', h⟩
  · rw [h]; exact ⟨r, rfl⟩
  · rw [h]; exact ⟨r', rfl⟩

/-- The effect of a call on the running total. -/
def nextTotal (ns : Option Str) (key : Str) (n : ℤ) (call : Call) : ℤ :=
  match call with
  | .clear k => if qualified ns k = key then 0 else n
  | call => n + (delta ns key call).getD 0

theorem holds_call {c : Client} (hext : c.ext = true) {fmt : PyFloat → Str} {now : PyFloat} {draw : ℚ} {call : Call}
    {key : Str} {total : ℤ} (h : c.Holds key total) (hon : On c.namespc key call) (hc : Counts call) :
    (c.call fmt now draw call).1.Holds key (nextTotal c.namespc key total call) ∧
    ∀ out, (c.call fmt now draw call).2.out = some out → CountText fmt key (nextTotal c.namespc key total call) out := by
  cases call with
  | increment n v r =>
    simp only [On, nameOf, Option.map_some, Option.some.injEq] at hon
    rcases v with (z | x) | s
    · simp only [Client.call, hext, if_true, fullyQualify_eq, hon, nextTotal, delta, Option.getD_some]
      obtain ⟨r', hr'⟩ := obtain_holds h r
      rw [hr']
      exact writeCount_holds
    · exact hc.elim
    · exact hc.elim
  | decrement n v r =>
    simp only [On, nameOf, Option.map_some, Option.some.injEq] at hon
    rcases v with (z | x) | s
    · simp only [Client.call, hext, if_true, fullyQualify_eq, hon, nextTotal, delta, Option.getD_some]
      obtain ⟨r', hr'⟩ := obtain_holds h r
      rw [hr', ← sub_eq_add_neg]
      exact writeCount_holds
    · exact hc.elim
    · exact hc.elim
  | clear n =>
    simp only [On, nameOf, Option.map_some, Option.some.injEq] at hon
    simp only [Client.call, fullyQualify_eq, hon, nextTotal, if_true]
    rcases h with ⟨h, rfl⟩ | ⟨r', h⟩
    · rw [h]
      exact ⟨Or.inl ⟨h, rfl⟩, by simp⟩
    · rw [h]
      exact writeCount_holds
  | report _ _ _ _ => exact hc.elim
  | gauge _ _ _ => exact hc.elim
  | meter _ _ _ => exact hc.elim
  | resetTiming => exact hc.elim
  | timing _ _ _ => exact hc.elim
  | distinct _ _ => exact hc.elim

theorem nextTotal_off {ns : Option Str} {key : Str} {n : ℤ} {call : Call} (h : ¬ On ns key call) : nextTotal ns key n call = n := by
  unfold On at h
  cases call with
  | increment m v r =>
    simp only [nameOf, Option.map_some, Option.some.injEq] at h
    rcases v with (z | x) | s <;> simp [nextTotal, delta, h]
  | decrement m v r =>
    simp only [nameOf, Option.map_some, Option.some.injEq] at h
    rcases v with (z | x) | s <;> simp [nextTotal, delta, h]
  | clear m =>
    simp only [nameOf, Option.map_some, Option.some.injEq] at h
    simp [nextTotal, h]
  | _ => simp [nextTotal, delta]

theorem holds_run {c : Client} (hw : c.Wf) (hext : c.ext = true) {fmt : PyFloat → Str} {key : Str} {total : ℤ} (h : c.Holds key total)
    (sts : List Step) (hc : ∀ st ∈ sts, On c.namespc key st.call → Counts st.call) :
    (c.run fmt sts).1.Holds key ((sts.map Step.call).foldl (nextTotal c.namespc key) total) := by
  induction sts generalizing c total with
  | nil => exact h
  | cons st sts ih =>
    rw [run_cons]
    have hs := call_same fmt c st.now st.draw st.call
    have h1 : (c.call fmt st.now st.draw st.call).1.Holds key (nextTotal c.namespc key total st.call) := by
      by_cases hon : On c.namespc key st.call
      · exact (holds_call hext h hon (hc st (by simp) hon)).1
      · rw [nextTotal_off hon]
        unfold Holds
        rw [(call_evolves fmt hw st.now st.draw st.call key).1 hon]
        exact h
    have := ih (call_wf fmt hw _ _ _) (hs.2.2.trans hext) h1 (by rw [hs.2.1]; exact fun st' h' => hc st' (by simp [h']))
    rw [hs.2.1] at this
    simpa using this

theorem sinceClear_eq (ns : Option Str) (key : Str) (calls : List Call) : sinceClear ns key calls = calls.foldl (nextTotal ns key) 0 := rfl

/-- A text written by a call on another legal name is no reading of `key`. -/
theorem other_not_reading {c : Client} (hw : c.Wf) {fmt : PyFloat → Str} {now : PyFloat} {draw : ℚ} {call : Call} {out key t : Str}
    (h : (c.call fmt now draw call).2.out = some out) (hon : ¬ On c.namespc key call)
    (hl : ∀ n, nameOf call = some n → ∀ x ∈ qualified c.namespc n, Legal x) (v : PyFloat) : ¬ Reading t key out v := by
  obtain ⟨n, rest, h1, rfl⟩ := call_name hw h
  intro hr
  obtain ⟨m, hp, _, hk, _⟩ := reading_iff.1 hr
  have := parse_key (hl n h1) hp
  apply hon
  unfold On
  rw [h1, Option.map_some, ← this, hk]

theorem run_other_not_reading {c : Client} (hw : c.Wf) {fmt : PyFloat → Str} {key t : Str} (sts : List Step)
    (hon : ∀ st ∈ sts, ¬ On c.namespc key st.call)
    (hl : ∀ st ∈ sts, ∀ n, nameOf st.call = some n → ∀ x ∈ qualified c.namespc n, Legal x) :
    ∀ out ∈ written (c.run fmt sts).2, ∀ v, ¬ Reading t key out v := by
  induction sts generalizing c with
  | nil => simp [run, written]
  | cons st sts ih =>
    rw [run_cons]
    have hs := call_same fmt c st.now st.draw st.call
    intro out ho v
    simp only [written, List.mem_filterMap, List.mem_cons] at ho
    obtain ⟨e, rfl | he, heo⟩ := ho
    · exact other_not_reading hw heo (hon st (by simp)) (hl st (by simp)) v
    · refine ih (call_wf fmt hw _ _ _) ?_ ?_ out (List.mem_filterMap.2 ⟨e, he, heo⟩) v
      · rw [hs.2.1]; exact fun st' h' => hon st' (by simp [h'])
      · rw [hs.2.1]; exact fun st' h' => hl st' (by simp [h'])

end Client

theorem countText_reading {fmt : PyFloat → Str} (hf : NumberTexts fmt) {key : Str} (hk : ∀ c ∈ key, Legal c) {total : ℤ} {out : Str}
    (h : Client.CountText fmt key total out) : Reading c!"c" key out (rnd total) := by
  have hbar := (intStr_clean total).2
  rcases h with rfl | ⟨r, rfl⟩
  · refine ⟨intStr total, [c!"c"], parsed_iff.2 ?_, parseFloat_intStr total⟩
    have := parse_two (n := key) (text := intStr total) (t := c!"c") hk hbar (by decide)
      (by intro c hc; simp at hc; subst hc; decide) (by decide)
    simpa using this
  · have hr : '|' ∉ r.render fmt := (render_number hf r).2.2
    have hw : ∀ c ∈ r.render fmt, ¬ White c := by
      cases r with
      | int z =>
        intro c hc
        rcases intStr_chars z c hc with h | rfl
        · apply legal_not_white; left
          have : c.isDigit = true := by simpa [isDigit, Char.isDigit, Char.le_def] using h
          unfold Char.isAlphanum; simp [this]
        · decide
      | flt x => exact fun c hc => ((hf x).2 c hc).2.2
    refine ⟨intStr total, [c!"c", c!"@" ++ r.render fmt], parsed_iff.2 ?_, parseFloat_intStr total⟩
    have := parse_three (n := key) (text := intStr total) (t := c!"c") (x := c!"@" ++ r.render fmt) hk hbar (by decide) (by simp [hr])
      (by
        intro c hc
        have hm := List.mem_of_getLast? hc
        simp only [List.cons_append, List.nil_append, List.mem_cons] at hm
        rcases hm with rfl | hm
        · decide
        · exact hw c hm) (by simp)
    simpa using this

/-! ## Measured durations -/

/-- The invariant of a client whose calls are all unsampled. -/
structure TInv (c : Client) : Prop where
  conn : c.conn = true
  ext : c.ext = false
  wf : c.Wf
  objs : ∀ key m, c.metrics.find key = some m → Unsampled m.rate

theorem TInv.call {c : Client} (h : TInv c) (fmt : PyFloat → Str) (now : PyFloat) (draw : ℚ) {call : Call}
    (hr : ∀ r, rateOf call = some r → Unsampled r) : TInv (c.call fmt now draw call).1 := by
  have hs := Client.call_same fmt c now draw call
  refine ⟨hs.1.trans h.conn, hs.2.2.trans h.ext, Client.call_wf fmt h.wf _ _ _, ?_⟩
  intro key m hm
  obtain ⟨h1, h2, h3⟩ := Client.call_evolves fmt h.wf now draw call key
  by_cases hon : On c.namespc key call
  · cases hf : c.metrics.find key with
    | some m0 =>
      obtain ⟨m', h4, h5, _⟩ := h2 m0 hf
      rw [hm] at h4; simp only [Option.some.injEq] at h4; subst h4
      rw [h5]; exact h.objs key m0 hf
    | none =>
      have := h3 hon hf
      revert this
      split
      · rename_i k r hk hr'
        rintro ⟨m', h4, h5, _⟩
        rw [hm] at h4; simp only [Option.some.injEq] at h4; subst h4
        rw [h5]; exact hr r hr'
      · rw [hm]; intro h; cases h
  · rw [h1 hon] at hm; exact h.objs key m hm

theorem lastTime_call (fmt : PyFloat → Str) (c : Client) (now : PyFloat) (draw : ℚ) {call : Call} (h : measures call = false)
    (hr : call ≠ .resetTiming) : (c.call fmt now draw call).1.lastTime = c.lastTime := by
  have hwr : ∀ (c : Client) m r, (c.writeResult fmt draw m r).1.lastTime = c.lastTime := by
    intro c m r; rw [Client.writeResult_client]
  have hw : ∀ (c : Client) m r, (c.write fmt draw m r).1.lastTime = c.lastTime := fun _ _ _ => rfl
  cases call with
  | timing n d r =>
    cases d with
    | none => simp [measures] at h
    | some d =>
      simp only [Client.call]
      split_ifs <;> simp only [hwr, hw, Client.obtain_lastTime]
  | resetTiming => exact absurd rfl hr
  | increment n v r =>
    simp only [Client.call]; split_ifs <;> simp only [hwr, hw, Client.writeCount_lastTime, Client.obtain_lastTime]
  | decrement n v r =>
    simp only [Client.call]; split_ifs <;> simp only [hwr, hw, Client.writeCount_lastTime, Client.obtain_lastTime]
  | clear n =>
    simp only [Client.call]
    split
    · rfl
    · split
      · exact Client.writeCount_lastTime ..
      · rfl
  | _ => simp only [Client.call, hwr, hw, Client.obtain_lastTime]

theorem measure_call [Exact] {c : Client} (h : TInv c) (fmt : PyFloat → Str) (t t' : ℚ) (draw : ℚ) (n : Option Str) (r : Num)
    (hr : Unsampled r) (hl : c.lastTime = .flt (.fin t)) :
    (c.call fmt (.fin t') draw (.timing n none r)).2 =
      { out := some (qualified c.namespc n ++ c!":" ++ (fmt (.fin ((t' - t) * 1000)) ++ c!"|ms")) } ∧
    (c.call fmt (.fin t') draw (.timing n none r)).1.lastTime = .flt (.fin t') := by
  have hext : (c.calculateDuration (.fin t')).1.ext = false := h.ext
  have hd : (c.calculateDuration (.fin t')).2 = .flt (.fin (t' - t)) := by
    simp [Client.calculateDuration, hl, Num.sub, Num.toFloat, PyFloat.sub, Exact.rnd_eq]
  have h' : TInv (c.calculateDuration (.fin t')).1 := ⟨h.conn, h.ext, h.wf, h.objs⟩
  have hns : (c.calculateDuration (.fin t')).1.namespc = c.namespc := rfl
  simp only [Client.call, fullyQualify_eq, hext, Bool.false_eq_true, if_false, hd, hns]
  have hobj : Unsampled ((c.calculateDuration (.fin t')).1.obtain (qualified c.namespc n) .plain r).2.rate := by
    rw [Client.obtain_obj]
    cases hf : (c.calculateDuration (.fin t')).1.metrics.find (qualified c.namespc n) with
    | none => exact hr
    | some m => exact h'.objs _ m hf
  constructor
  · simp only [Client.write, (Client.obtain_same _ _ _ _).1, h'.conn, if_true]
    rw [send_unsampled fmt draw hobj, Client.obtain_name h'.wf]
    simp [Arg.times1000, Num.mul, Num.toFloat, PyFloat.mul, Exact.rnd_eq, Arg.render, Num.render]
  · simp only [Client.write, Client.obtain_lastTime]
    rfl

/-- The measuring calls of a run report consecutive differences of the clock. -/
theorem measure_run [Exact] (fmt : PyFloat → Str) (l : List Timed) {c : Client} (h : TInv c) (t0 : ℚ)
    (hl : c.lastTime = .flt (.fin t0)) (hr : ∀ p ∈ l, ∀ r, rateOf p.1 = some r → Unsampled r) (hn : ∀ p ∈ l, p.1 ≠ .resetTiming) :
    ∃ ds : List ℚ,
      List.Forall₂ (fun (p : Timed × CallEffect) d => ∃ n r, p.1.1 = .timing n none r ∧
        p.2 = { out := some (qualified c.namespc n ++ c!":" ++ (fmt (.fin (d * 1000)) ++ c!"|ms")) })
        ((l.zip (c.run fmt (l.map Timed.step)).2).filter fun p => measures p.1.1) ds ∧
      ds.sum = lastMeasure t0 l - t0 := by
  induction l generalizing c t0 with
  | nil => exact ⟨[], .nil, by simp [lastMeasure]⟩
  | cons p l ih =>
    have hs := Client.call_same fmt c (.fin p.2.1) p.2.2 p.1
    have hi := h.call fmt (.fin p.2.1) p.2.2 (call := p.1) (hr p (by simp))
    have hr' : ∀ p ∈ l, ∀ r, rateOf p.1 = some r → Unsampled r := fun q hq => hr q (by simp [hq])
    have hn' : ∀ p ∈ l, p.1 ≠ .resetTiming := fun q hq => hn q (by simp [hq])
    simp only [List.map_cons, Client.run_cons, List.zip_cons_cons]
    have e : (c.call fmt p.step.now p.step.draw p.step.call) = c.call fmt (.fin p.2.1) p.2.2 p.1 := rfl
    rw [e]
    by_cases hm : measures p.1
    · obtain ⟨n, r, hc⟩ : ∃ n r, p.1 = .timing n none r := by
        revert hm
        cases p.1 with
        | timing n d r => cases d <;> simp [measures]
        | _ => simp [measures]
      obtain ⟨h1, h2⟩ := measure_call h fmt t0 p.2.1 p.2.2 n r (hr p (by simp) r (by rw [hc]; rfl)) hl
      rw [← hc] at h1 h2
      obtain ⟨ds, h3, h4⟩ := ih hi p.2.1 h2 hr' hn'
      rw [hs.2.1] at h3
      refine ⟨(p.2.1 - t0) :: ds, ?_, ?_⟩
      · rw [List.filter_cons_of_pos (by simpa using hm)]
        exact .cons ⟨n, r, hc, h1⟩ h3
      · rw [List.sum_cons, h4]
        simp only [lastMeasure, List.foldl_cons, hm, if_true]; ring
    · have hm' : measures p.1 = false := by simpa using hm
      have h2 := lastTime_call fmt c (.fin p.2.1) p.2.2 hm' (hn p (by simp))
      obtain ⟨ds, h3, h4⟩ := ih hi t0 (h2.trans hl) hr' hn'
      rw [hs.2.1] at h3
      refine ⟨ds, ?_, ?_⟩
      · rw [List.filter_cons_of_neg (by simpa using hm)]
        exact h3
      · rw [h4]
        simp only [lastMeasure, List.foldl_cons, hm', Bool.false_eq_true, if_false]

theorem TInv.run {c : Client} (h : TInv c) (fmt : PyFloat → Str) (sts : List Client.Step)
    (hr : ∀ st ∈ sts, ∀ r, rateOf st.call = some r → Unsampled r) : TInv (c.run fmt sts).1 := by
  induction sts generalizing c with
  | nil => exact h
  | cons st sts ih =>
    rw [Client.run_cons]
    exact ih (h.call fmt st.now st.draw (hr st (by simp))) (fun st' h' => hr st' (by simp [h']))

end
end Txstatsd
