import Verif.Lemmas.MetricsCall

set_option linter.unusedSectionVars false
set_option linter.unusedSimpArgs false
set_option linter.unusedVariables false

namespace Txstatsd
open Spec

/-! ## Sampling -/

theorem send_sampled (fmt : PyFloat → Str) (draw r : ℚ) (k : Kind) (key : Str) (rate : Num) (data : Str) (hr : rate.exact = .fin r) :
    (⟨k, key, rate⟩ : MetricObj).send fmt draw data = sampled r draw (rate.render fmt) (key ++ c!":" ++ data) := by
  have e1 : rate.lt (.int 1) = decide (r < 1) := by
    unfold Num.lt; rw [hr]; simp [Num.exact, PyFloat.lt]
  have e2 : rate.lt (.flt (.fin draw)) = decide (r < draw) := by
    unfold Num.lt; rw [hr]; rfl
  unfold MetricObj.send sampled
  simp only [e1, e2]
  by_cases h : (1 : ℚ) ≤ r
  · have : ¬ r < 1 := not_lt.2 h
    simp [h, this]
  · have h' : r < 1 := not_le.1 h
    by_cases hd : draw ≤ r
    · have : ¬ r < draw := not_lt.2 hd
      simp [h, h', hd, this]
    · have : r < draw := not_le.1 hd
      simp [h, h', hd, this]

theorem send_unsampled {m : MetricObj} (fmt : PyFloat → Str) (draw : ℚ) (h : Unsampled m.rate) (data : Str) :
    m.send fmt draw data = some (m.name ++ c!":" ++ data) := by
  unfold MetricObj.send Num.lt
  unfold Unsampled at h
  simp [Num.exact] at h ⊢
  simp [h]

namespace Client
variable [Rounding]

/-- What a call on a metric made by a call of the same kind and rate (or not yet made) writes. -/
theorem call_payload (fmt : PyFloat → Str) {c : Client} (now : PyFloat) (draw : ℚ) {call : Call} {key : Str} {k : Kind}
    {rate : Num} {p : Str} (hon : On c.namespc key call) (hk : kindOf c.ext call = some k) (hr : rateOf call = some rate)
    (hp : payload fmt call = some p) (hc : ∀ n, k ≠ .counter n)
    (hobj : (c.metrics.find key).getD ⟨k, key, rate⟩ = ⟨k, key, rate⟩) :
    (c.call fmt now draw call).2 = { out := if c.conn then (⟨k, key, rate⟩ : MetricObj).send fmt draw p else none } := by
  have hconn : ∀ n k' r', (c.obtain n k' r').1.conn = c.conn := fun n k' r' => (obtain_same c n k' r').1
  cases call with
  | report n v t e =>
    simp only [On, nameOf, Option.map_some, Option.some.injEq] at hon
    simp only [kindOf, rateOf, Option.some.injEq] at hk hr
    subst hk hr hon
    simp only [Client.call, fullyQualify_eq, obtain_obj, hobj, MetricObj.mark2]
    cases e <;> (simp only [payload, Option.some.injEq] at hp; subst hp; simp only [writeResult, write, hconn])
  | gauge n v r =>
    simp only [On, nameOf, Option.map_some, Option.some.injEq] at hon
    simp only [kindOf, rateOf, payload, Option.some.injEq] at hk hr hp
    subst hk hr hon hp
    simp only [Client.call, fullyQualify_eq, obtain_obj, hobj, MetricObj.mark, writeResult, write, hconn]
  | meter n v r =>
    simp only [On, nameOf, Option.map_some, Option.some.injEq] at hon
    simp only [kindOf, rateOf, payload, Option.some.injEq] at hk hr hp
    subst hk hr hon hp
    simp only [Client.call, fullyQualify_eq, obtain_obj, hobj, MetricObj.mark, writeResult, write, hconn]
  | increment n v r =>
    simp only [On, nameOf, Option.map_some, Option.some.injEq] at hon
    simp only [kindOf, rateOf, payload, Option.some.injEq] at hk hr hp
    by_cases he : c.ext
    · rw [if_pos he] at hk; exact absurd hk.symm (hc _)
    rw [if_neg he] at hk
    subst hk hr hon hp
    simp only [Client.call, fullyQualify_eq, if_neg he, obtain_obj, hobj, write, hconn]
  | decrement n v r =>
    simp only [On, nameOf, Option.map_some, Option.some.injEq] at hon
    simp only [kindOf, rateOf, Option.some.injEq] at hk hr
    by_cases he : c.ext
    · rw [if_pos he] at hk; exact absurd hk.symm (hc _)
    rw [if_neg he] at hk
    subst hk hr hon
    rcases v with (z | x) | s
    · simp only [payload, Option.some.injEq] at hp; subst hp
      simp only [Client.call, fullyQualify_eq, if_neg he, obtain_obj, hobj, Arg.neg, Except.map, writeResult, write, hconn]
      rfl
    · simp only [payload, Option.some.injEq] at hp; subst hp
      simp only [Client.call, fullyQualify_eq, if_neg he, obtain_obj, hobj, Arg.neg, Except.map, writeResult, write, hconn]
      rfl
    · simp [payload] at hp
  | resetTiming => simp [rateOf] at hr
  | timing n d r =>
    simp only [On, nameOf, Option.map_some, Option.some.injEq] at hon
    simp only [kindOf, rateOf, Option.some.injEq] at hk hr
    rcases d with _ | ⟨v | s⟩
    · simp [payload] at hp
    · simp only [payload, Option.some.injEq] at hp
      by_cases he : c.ext
      · rw [if_pos he] at hk
        subst hk hr hon hp
        simp only [Client.call, fullyQualify_eq, if_pos he, obtain_obj, hobj, MetricObj.mark, writeResult, write, hconn]
        rfl
      · rw [if_neg he] at hk
        subst hk hr hon hp
        simp only [Client.call, fullyQualify_eq, if_neg he, obtain_obj, hobj, MetricObj.mark, writeResult, write, hconn]
        rfl
    · simp [payload] at hp
  | distinct n v =>
    simp only [On, nameOf, Option.map_some, Option.some.injEq] at hon
    simp only [kindOf, rateOf, payload, Option.some.injEq] at hk hr hp
    subst hk hr hon hp
    simp only [Client.call, fullyQualify_eq, obtain_obj, hobj, MetricObj.mark, writeResult, write, hconn]
  | clear n => simp [rateOf] at hr

/-! ## The object of a name after a history -/

theorem run_kept (fmt : PyFloat → Str) {c : Client} (hw : c.Wf) (sts : List Step) (key : Str) (m : MetricObj)
    (h : c.metrics.find key = some m) :
    ∃ m', (c.run fmt sts).1.metrics.find key = some m' ∧ m'.rate = m.rate ∧ m'.kind.cls = m.kind.cls := by
  induction sts generalizing c m with
  | nil => exact ⟨m, h, rfl, rfl⟩
  | cons st sts ih =>
    rw [run_cons]
    obtain ⟨m1, h1, h2, h3⟩ := (call_evolves fmt hw st.now st.draw st.call key).2.1 m h
    obtain ⟨m2, h4, h5, h6⟩ := ih (call_wf fmt hw _ _ _) m1 h1
    exact ⟨m2, h4, h5.trans h2, h6.trans h3⟩

theorem rate_none_iff (ext : Bool) (call : Call) : rateOf call = none ↔ kindOf ext call = none := by
  cases call <;> simp [rateOf, kindOf]

theorem run_none (fmt : PyFloat → Str) {c : Client} (hw : c.Wf) (sts : List Step) (key : Str)
    (h : c.metrics.find key = none) (ho : ∀ st ∈ sts, On c.namespc key st.call → rateOf st.call = none) :
    (c.run fmt sts).1.metrics.find key = none := by
  induction sts generalizing c with
  | nil => exact h
  | cons st sts ih =>
    rw [run_cons]
    have hs := call_same fmt c st.now st.draw st.call
    apply ih (call_wf fmt hw _ _ _)
    · have he := call_evolves fmt hw st.now st.draw st.call key
      by_cases hon : On c.namespc key st.call
      · have := he.2.2 hon h
        rw [ho st (by simp) hon] at this
        revert this
        split
        · rename_i h1 h2; cases h2
        · exact id
      · rw [he.1 hon, h]
    · rw [hs.2.1]
      intro st' hst'
      exact ho st' (by simp [hst'])

theorem run_first (fmt : PyFloat → Str) {c : Client} (hw : c.Wf) (sts : List Step) (key : Str) {call : Call}
    (h : c.metrics.find key = none) (hf : FirstOn c.namespc key (sts.map Step.call) call) :
    ∃ m, (c.run fmt sts).1.metrics.find key = some m ∧ some m.rate = rateOf call ∧ some m.kind.cls = kindOf c.ext call := by
  obtain ⟨before, after, he, hon, hr, hb⟩ := hf
  obtain ⟨a, b, rfl, rfl, hb2⟩ := List.map_eq_append_iff.1 he
  obtain ⟨st, b, rfl, rfl, rfl⟩ := List.map_eq_cons_iff.1 hb2
  rw [run_append, run_cons]
  have hnone := run_none fmt hw a key h (fun st hst => hb st.call (List.mem_map_of_mem hst))
  have hs := run_same fmt c a
  have hw1 := run_wf fmt hw a
  have hev := (call_evolves fmt hw1 st.now st.draw st.call key).2.2 (by rw [hs.2.1]; exact hon) hnone
  have hk : kindOf c.ext st.call ≠ none := fun e => hr ((rate_none_iff _ _).2 e)
  obtain ⟨r, hr'⟩ := Option.ne_none_iff_exists'.1 hr
  obtain ⟨k, hk'⟩ := Option.ne_none_iff_exists'.1 hk
  rw [hs.2.2, hk', hr'] at hev
  obtain ⟨m1, h1, h2, h3⟩ := hev
  obtain ⟨m2, h4, h5, h6⟩ := run_kept fmt (call_wf fmt hw1 st.now st.draw st.call) b key m1 h1
  exact ⟨m2, h4, by rw [hr', h5, h2], by rw [hk', h6, h3]⟩

/-- Either no call made an object for the key, or there is a first one. -/
theorem first_or_none (ns : Option Str) (key : Str) (calls : List Call) :
    (∀ x ∈ calls, On ns key x → rateOf x = none) ∨ ∃ call, FirstOn ns key calls call := by
  induction calls with
  | nil => left; simp
  | cons x xs ih =>
    by_cases hx : On ns key x ∧ rateOf x ≠ none
    · exact Or.inr ⟨x, [], xs, rfl, hx.1, hx.2, by simp⟩
    · have hx' : On ns key x → rateOf x = none := fun h => by by_contra h'; exact hx ⟨h, h'⟩
      rcases ih with h | ⟨call, a, b, rfl, h1, h2, h3⟩
      · left
        intro y hy
        rcases List.mem_cons.1 hy with rfl | hy
        · exact hx'
        · exact h y hy
      · refine Or.inr ⟨call, x :: a, b, rfl, h1, h2, ?_⟩
        intro y hy
        rcases List.mem_cons.1 hy with rfl | hy
        · exact hx'
        · exact h3 y hy

theorem cls_eq {k k' : Kind} (h : k.cls = k') (hc : ∀ n, k' ≠ .counter n) : k = k' := by
  cases k <;> simp_all [Kind.cls]
  exact absurd h.symm (hc _)

/-- If all calls on the key agree in kind and rate, the object at hand is as a new one would be. -/
theorem run_fits (fmt : PyFloat → Str) {c : Client} (h0 : c.metrics = []) (sts : List Step) (key : Str) (k : Kind) (rate : Num)
    (hc : ∀ n, k ≠ .counter n)
    (hall : ∀ st ∈ sts, On c.namespc key st.call → rateOf st.call ≠ none → rateOf st.call = some rate ∧ kindOf c.ext st.call = some k) :
    ((c.run fmt sts).1.metrics.find key).getD ⟨k, key, rate⟩ = ⟨k, key, rate⟩ := by
  have hw := wf_empty h0
  have hn : c.metrics.find key = none := by rw [h0]; rfl
  rcases first_or_none c.namespc key (sts.map Step.call) with h | ⟨call, hf⟩
  · rw [run_none fmt hw sts key hn (fun st hst => h st.call (List.mem_map_of_mem hst))]; rfl
  · obtain ⟨m, h1, h2, h3⟩ := run_first fmt hw sts key hn hf
    obtain ⟨a, b, he, hon, hr, _⟩ := hf
    obtain ⟨st, hst, rfl⟩ : ∃ st ∈ sts, st.call = call := by
      have : call ∈ sts.map Step.call := by rw [he]; simp
      simpa using this
    obtain ⟨e1, e2⟩ := hall st hst hon hr
    rw [e1] at h2; rw [e2] at h3
    simp only [Option.some.injEq] at h2 h3
    rw [h1]
    have hname := run_wf fmt hw sts key m h1
    have hk := cls_eq h3 hc
    cases m; simp_all

end Client
end Txstatsd
