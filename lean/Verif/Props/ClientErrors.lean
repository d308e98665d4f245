import Verif.Spec.ClientErrors
import Verif.Lemmas.MetricsSend
import Verif.Props.Metrics

/-!
# C146: which calls of the client metrics raise
-/

set_option linter.unusedVariables false
set_option linter.unusedSectionVars false
set_option linter.unusedSimpArgs false

namespace Txstatsd
open Spec
section
variable [Rounding]

set_option maxHeartbeats 2000000 in
/-- The class of the object a call finds or makes decides whether it raises. -/
theorem call_refusal (fmt : PyFloat → Str) (c : Client) (now : PyFloat) (draw : ℚ) (call : Call) (key : Str) (k : Kind)
    (hon : On c.namespc key call)
    (hobj : ∀ k0 r0, kindOf c.ext call = some k0 → ∃ m : MetricObj, (c.metrics.find key).getD ⟨k0, key, r0⟩ = m ∧ m.kind.cls = k.cls) :
    (c.call fmt now draw call).2.exc = refusal c.ext k call ∧
      ((c.call fmt now draw call).2.exc ≠ none → (c.call fmt now draw call).2.out = none) := by
  cases call with
  | report n v t e =>
    simp only [On, nameOf, Option.map_some, Option.some.injEq] at hon
    obtain ⟨m, h1, h2⟩ := hobj (.generic t) (.int 1) rfl
    simp only [Client.call, fullyQualify_eq, hon, Client.obtain_obj, h1]
    cases hk : k <;> cases hm : m.kind <;> simp_all [Kind.cls] <;> cases e <;>
      simp [MetricObj.mark2, hm, Client.writeResult, Client.write, refusal]
  | gauge n v r =>
    simp only [On, nameOf, Option.map_some, Option.some.injEq] at hon
    obtain ⟨m, h1, h2⟩ := hobj .gauge r rfl
    simp only [Client.call, fullyQualify_eq, hon, Client.obtain_obj, h1]
    cases hk : k <;> cases hm : m.kind <;> simp_all [Kind.cls] <;>
      simp [MetricObj.mark, hm, Client.writeResult, Client.write, refusal, refusal.marked]
  | meter n v r =>
    simp only [On, nameOf, Option.map_some, Option.some.injEq] at hon
    obtain ⟨m, h1, h2⟩ := hobj .meter r rfl
    simp only [Client.call, fullyQualify_eq, hon, Client.obtain_obj, h1]
    cases hk : k <;> cases hm : m.kind <;> simp_all [Kind.cls] <;>
      simp [MetricObj.mark, hm, Client.writeResult, Client.write, refusal, refusal.marked]
  | distinct n v =>
    simp only [On, nameOf, Option.map_some, Option.some.injEq] at hon
    obtain ⟨m, h1, h2⟩ := hobj .distinct (.int 1) rfl
    simp only [Client.call, fullyQualify_eq, hon, Client.obtain_obj, h1]
    cases hk : k <;> cases hm : m.kind <;> simp_all [Kind.cls] <;>
      simp [MetricObj.mark, hm, Client.writeResult, Client.write, refusal, refusal.marked]
  | increment n v r =>
    simp only [On, nameOf, Option.map_some, Option.some.injEq] at hon
    cases hx : c.ext with
    | false => simp [Client.call, hx, Client.write, refusal]
    | true =>
      obtain ⟨m, h1, h2⟩ := hobj (.counter (.int 0)) r (by simp [kindOf, hx])
      simp only [Client.call, fullyQualify_eq, hon, Client.obtain_obj, h1, hx, if_true]
      cases hk : k <;> cases hm : m.kind <;> simp_all [Kind.cls] <;> cases v <;>
        simp [MetricObj.bump, hm, Client.writeCount, Client.write, refusal, refusal.counted]
  | decrement n v r =>
    simp only [On, nameOf, Option.map_some, Option.some.injEq] at hon
    cases hx : c.ext with
    | false => cases v <;> simp [Client.call, hx, Client.writeResult, Client.write, refusal, Arg.neg, Except.map]
    | true =>
      obtain ⟨m, h1, h2⟩ := hobj (.counter (.int 0)) r (by simp [kindOf, hx])
      simp only [Client.call, fullyQualify_eq, hon, Client.obtain_obj, h1, hx, if_true]
      cases hk : k <;> cases hm : m.kind <;> simp_all [Kind.cls] <;> cases v <;>
        simp [MetricObj.bump, hm, Client.writeCount, Client.write, refusal, refusal.counted]
  | timing n d r =>
    simp only [On, nameOf, Option.map_some, Option.some.injEq] at hon
    cases hx : c.ext with
    | false => cases d <;> simp [Client.call, hx, Client.write, refusal, Client.calculateDuration]
    | true =>
      obtain ⟨m, h1, h2⟩ := hobj .timer r (by simp [kindOf, hx])
      cases d with
      | none =>
        have h1' : (Client.obtain (c.calculateDuration now).1 key .timer r).2 = m := by rw [Client.obtain_obj]; exact h1
        have hx' : (c.calculateDuration now).1.ext = true := hx
        simp only [Client.call, fullyQualify_eq, hx', if_true]
        rw [show qualified (c.calculateDuration now).1.namespc n = key from hon, h1']
        cases hk : k <;> cases hm : m.kind <;> simp_all [Kind.cls] <;>
          simp [MetricObj.mark, hm, Client.writeResult, Client.write, refusal, refusal.marked]
      | some d =>
        simp only [Client.call, fullyQualify_eq, hon, Client.obtain_obj, h1, hx, if_true]
        cases hk : k <;> cases hm : m.kind <;> simp_all [Kind.cls] <;>
          simp [MetricObj.mark, hm, Client.writeResult, Client.write, refusal, refusal.marked]
  | resetTiming => simp [On, nameOf] at hon
  | clear n =>
    simp only [Client.call, refusal]
    split
    · simp
    · split <;> simp [Client.writeCount, Client.write]

/-- C146: in any history of calls, the first call for a name decides what the later ones may be: whether a call raises, and what,
depends on the first call for its name and on its own arguments alone; a call that raises sends nothing. -/
theorem C146_first_decides (fmt : PyFloat → Str) (c : Client) (h0 : c.metrics = []) (sts : List Client.Step) (now : PyFloat) (draw : ℚ)
    (call first : Call) (key : Str) (k : Kind) (hon : On c.namespc key call)
    (hf : FirstOn c.namespc key (sts.map Client.Step.call ++ [call]) first) (hk : kindOf c.ext first = some k) :
    let e := ((c.run fmt sts).1.call fmt now draw call).2
    e.exc = refusal c.ext k call ∧ (e.exc ≠ none → e.out = none) := by
  have hs := Client.run_same fmt c sts
  have hw := Client.wf_empty h0
  have hn : c.metrics.find key = none := by rw [h0]; rfl
  have := call_refusal fmt (c.run fmt sts).1 now draw call key k (by rw [hs.2.1]; exact hon) ?_
  · rw [hs.2.2] at this; exact this
  · intro k0 r0 hk0
    rw [hs.2.2] at hk0
    rcases Client.first_or_none c.namespc key (sts.map Client.Step.call) with h | ⟨f, hff⟩
    · rw [Client.run_none fmt hw sts key hn (fun st hst => h st.call (List.mem_map_of_mem hst))]
      refine ⟨_, rfl, ?_⟩
      -- the call itself is the first
      obtain ⟨before, after, he, h1, h2, h3⟩ := hf
      have hfc : first = call := by
        have : first ∈ sts.map Client.Step.call ++ [call] := by rw [he]; simp
        rcases List.mem_append.1 this with hm | hm
        · exact absurd (h first hm h1) h2
        · simpa using hm
      rw [hfc, hk0] at hk
      simp only [Option.some.injEq] at hk
      rw [hk]; rfl
    · obtain ⟨m, g1, g2, g3⟩ := Client.run_first fmt hw sts key hn hff
      rw [g1]
      refine ⟨m, rfl, ?_⟩
      have hfe : first = f := by
        obtain ⟨b1, a1, e1, o1, r1, n1⟩ := hf
        obtain ⟨b2, a2, e2, o2, r2, n2⟩ := hff
        rw [e2, List.append_assoc, List.cons_append] at e1
        rcases List.append_eq_append_iff.1 e1 with ⟨x, hx1, hx2⟩ | ⟨x, hx1, hx2⟩
        · rcases x with _ | ⟨y, x⟩
          · simp at hx2; exact hx2.1.symm
          · simp only [List.cons_append, List.cons.injEq] at hx2
            exact absurd (n1 f (by rw [hx1]; simp [hx2.1]) o2) r2
        · rcases x with _ | ⟨y, x⟩
          · simp at hx2; exact hx2.1
          · simp only [List.cons_append, List.cons.injEq] at hx2
            exact absurd (n2 first (by rw [hx1]; simp [hx2.1]) o1) r1
      rw [hfe] at hk
      rw [hk] at g3
      simp only [Option.some.injEq] at g3
      rw [← g3]
      cases m.kind <;> rfl

/-- C146: `reset_timing` and `clear` never raise. -/
theorem C146_never (fmt : PyFloat → Str) (c : Client) (now : PyFloat) (draw : ℚ) (call : Call) (h : rateOf call = none) :
    (c.call fmt now draw call).2.exc = none := by
  cases call <;> simp [rateOf] at h
  · rfl
  · simp only [Client.call]
    split
    · rfl
    · split <;> simp [Client.writeCount, Client.write]

theorem refusal_own (ext : Bool) (call : Call) (k : Kind) (hk : kindOf ext call = some k) (hn : NumericCounts call) :
    refusal ext k call = none := by
  cases call <;> cases ext <;> simp [kindOf] at hk <;> subst hk <;> simp [refusal, refusal.marked, refusal.counted]
  all_goals (rename_i v _; cases v <;> simp_all [NumericCounts, refusal.counted])

/-- C146: if each name is used with calls of one class only and only numbers are counted, no call raises. -/
theorem C146_consistent (fmt : PyFloat → Str) (c : Client) (h0 : c.metrics = []) (sts : List Client.Step)
    (hn : ∀ st ∈ sts, NumericCounts st.call)
    (hk : ∀ a ∈ sts, ∀ b ∈ sts, ∀ key, On c.namespc key a.call → On c.namespc key b.call → rateOf a.call ≠ none → rateOf b.call ≠ none →
      kindOf c.ext a.call = kindOf c.ext b.call) :
    ∀ e ∈ (c.run fmt sts).2, e.exc = none := by
  have key : ∀ (a b : List Client.Step), sts = a ++ b → ∀ e ∈ ((c.run fmt a).1.run fmt b).2, e.exc = none := by
    intro a b
    induction b generalizing a with
    | nil => intro _ e he; cases he
    | cons st b ih =>
      intro hab e he
      rw [Client.run_cons] at he
      rcases List.mem_cons.1 he with rfl | he
      · by_cases hr : rateOf st.call = none
        · exact C146_never fmt _ _ _ _ hr
        · have hkn : kindOf c.ext st.call ≠ none := fun h => hr ((Client.rate_none_iff _ _).2 h)
          obtain ⟨k, hkk⟩ := Option.ne_none_iff_exists'.1 hkn
          have hname : ∃ n, nameOf st.call = some n := by
            cases hc : st.call <;> simp [nameOf, hc, rateOf] at hr ⊢
          obtain ⟨n, hname⟩ := hname
          have hon : On c.namespc (qualified c.namespc n) st.call := by simp [On, hname]
          rcases Client.first_or_none c.namespc (qualified c.namespc n) (a.map Client.Step.call ++ [st.call]) with h | ⟨f, hf⟩
          · exact absurd (h st.call (by simp) hon) hr
          · have hf' := hf
            obtain ⟨b1, a1, e1, o1, r1, n1⟩ := hf'
            have hmem : f ∈ a.map Client.Step.call ++ [st.call] := by rw [e1]; simp
            have hfk : kindOf c.ext f = some k := by
              rw [← hkk]
              rcases List.mem_append.1 hmem with hm | hm
              · obtain ⟨x, hx, rfl⟩ := List.mem_map.1 hm
                exact hk x (by rw [hab]; simp [hx]) st (by rw [hab]; simp) _ o1 hon r1 hr
              · simp only [List.mem_singleton] at hm; rw [hm]
            have := (C146_first_decides fmt c h0 a st.now st.draw st.call f _ k hon hf hfk).1
            rw [this]
            exact refusal_own _ _ _ hkk (hn st (by rw [hab]; simp))
      · have := ih (a ++ [st]) (by rw [hab]; simp) e
        rw [Client.run_append] at this
        exact this he
  exact key [] sts rfl

/-- C146: what `sli` and `sli_error` send, for a name not used otherwise before. -/
theorem C146_sli (fmt : PyFloat → Str) (c : Client) (hconn : c.conn = true) (h0 : c.metrics = []) (sts : List Client.Step) (now : PyFloat)
    (draw : ℚ) (name : Option Str) (d : Arg) (size : Option Arg)
    (hall : ∀ st ∈ sts, On c.namespc (qualified c.namespc name) st.call → rateOf st.call ≠ none → kindOf c.ext st.call = some (.generic c!"sli")) :
    let c' := (c.run fmt sts).1
    (c'.call fmt now draw (Call.sli name d size)).2 =
      { out := some (qualified c.namespc name ++ c!":" ++ d.render fmt ++ c!"|sli" ++
          match size with | none => [] | some s => c!"|" ++ s.render fmt) } ∧
    (c'.call fmt now draw (Call.sliError name)).2 = { out := some (qualified c.namespc name ++ c!":error|sli") } := by
  intro c'
  have hs := Client.run_same fmt c sts
  have hfit : (c'.metrics.find (qualified c.namespc name)).getD ⟨.generic c!"sli", qualified c.namespc name, .int 1⟩ =
      ⟨.generic c!"sli", qualified c.namespc name, .int 1⟩ := by
    refine Client.run_fits fmt h0 sts _ _ _ (by intro n h; cases h) fun st hst hon hr => ?_
    have h := hall st hst hon hr
    refine ⟨?_, h⟩
    cases hc : st.call <;> rw [hc] at h <;> simp [kindOf, rateOf] at h ⊢ <;> split at h <;> simp at h
  have send : ∀ data : Str, (⟨.generic c!"sli", qualified c.namespc name, .int 1⟩ : MetricObj).send fmt draw data =
      some (qualified c.namespc name ++ c!":" ++ data) := by
    intro data
    simp [MetricObj.send, Num.lt, Num.exact, PyFloat.lt]
  have hp : ∀ call : Call, On c.namespc (qualified c.namespc name) call → kindOf c.ext call = some (.generic c!"sli") →
      rateOf call = some (.int 1) → ∀ p, payload fmt call = some p →
      (c'.call fmt now draw call).2 = { out := some (qualified c.namespc name ++ c!":" ++ p) } := by
    intro call hon hk hr p hp
    have := Client.call_payload fmt (c := c') now draw (by rw [hs.2.1]; exact hon) (by rw [hs.2.2]; exact hk) hr hp
      (by intro n h; cases h) hfit
    rw [this, hs.1, hconn, if_pos rfl, send]
  constructor
  · cases size with
    | none =>
      rw [Call.sli, hp _ (by simp [On, nameOf]) rfl rfl _ rfl]
      simp
    | some s =>
      rw [Call.sli, hp _ (by simp [On, nameOf]) rfl rfl _ rfl]
      simp
  · rw [Call.sliError, hp _ (by simp [On, nameOf]) rfl rfl _ rfl]
    simp [Arg.render]

end

section
attribute [local instance] ratRounding

/-- C146: the mixtures that raise. -/
example : let c : Client := { conn := true, namespc := some c!"app", ext := false }
    (c.run exFmt [⟨.increment (some c!"a") (.num (.int 1)) (.int 1), .fin 0, 0⟩, ⟨.gauge (some c!"a") (.num (.int 1)) (.int 1), .fin 0, 0⟩,
      ⟨.gauge (some c!"b") (.num (.int 1)) (.int 1), .fin 0, 0⟩, ⟨Call.sli (some c!"b") (.num (.int 1)) none, .fin 0, 0⟩,
      ⟨.decrement (some c!"b") (.text c!"x") (.int 1), .fin 0, 0⟩, ⟨Call.sliError (some c!"s"), .fin 0, 0⟩]).2.map CallEffect.exc
    = [none, some .attributeError, none, some .typeError, some .typeError, none] := by decide +kernel

example : let c : Client := { conn := true, namespc := none, ext := true }
    (c.run exFmt [⟨.gauge (some c!"a") (.num (.int 1)) (.int 1), .fin 0, 0⟩, ⟨.increment (some c!"a") (.num (.int 1)) (.int 1), .fin 0, 0⟩,
      ⟨.timing (some c!"t") (some (.num (.int 1))) (.int 1), .fin 0, 0⟩, ⟨.gauge (some c!"t") (.num (.int 1)) (.int 1), .fin 0, 0⟩]).2.map
        CallEffect.exc
    = [none, some .attributeError, none, none] := by decide +kernel

example : FirstOn none c!"a" ([Call.gauge (some c!"a") (.num (.int 1)) (.int 1)] ++ [.increment (some c!"a") (.num (.int 1)) (.int 1)])
    (.gauge (some c!"a") (.num (.int 1)) (.int 1)) := ⟨[], _, rfl, rfl, by simp [rateOf], by simp⟩

end
end Txstatsd
