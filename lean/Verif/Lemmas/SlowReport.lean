import Verif.Spec.SlowReport
import Verif.Lemmas.FlushTask
import Mathlib.Data.List.Induction

/-! Lemmas about slow reports. -/

set_option linter.unusedSectionVars false
set_option linter.unusedSimpArgs false
set_option linter.unusedVariables false

namespace Txstatsd
open Spec
variable [Rounding]

/-- What holds while the service is never started with a result awaited. -/
inductive SlowInv (t : SlowTask) : Prop
  | waits (h : t.waiting = 1) (hp : t.planned = []) (hk : t.known = none)
  | idle (h : t.waiting = 0) (hr : t.running = false) (hp : t.planned = []) (hk : t.known = none)
  | runs (h : t.waiting = 0) (hr : t.running = true) (n : ℕ) (d : ℚ) (hp : t.planned = [(n, d)]) (hk : t.known = some n)

theorem finish_inv (p : ℤ) (t : SlowTask) (now : ℚ) (res : Except PyErr (Dict Num)) (h : t.waiting = 0) (hp : t.planned = [])
    (hk : t.known = none) : SlowInv (t.finish p now res) := by
  unfold SlowTask.finish
  by_cases hr : t.running = true
  · cases res <;> simp only [hr, if_true] <;>
      exact .runs (by simp [SlowTask.plan, h]) (by simp [SlowTask.plan, hr]) t.count (nextCall t.startTime p now)
        (by simp [SlowTask.plan, hp]) (by simp [SlowTask.plan])
  · cases res <;> simp only [hr, if_false] <;> exact .idle h (by simpa using hr) hp hk

theorem call_inv (p : ℤ) (f : ℕ → Option (Except PyErr (Dict Num))) (t : SlowTask) (now : ℚ) (h : t.waiting = 0) (hp : t.planned = []) :
    SlowInv (t.call p f now) := by
  simp only [SlowTask.call]
  cases f t.made.length with
  | some res => exact finish_inv p _ now res h hp rfl
  | none => exact .waits (by simp [h]) hp rfl

theorem step_inv (p : ℤ) (f : ℕ → Option (Except PyErr (Dict Num))) (t : SlowTask) (now : ℚ) (e : SlowEvent) (hi : SlowInv t)
    (hs : e = .start → t.waiting = 0) : SlowInv (t.step p f now e).1 := by
  cases e with
  | start =>
    have hw := hs rfl
    unfold SlowTask.step
    by_cases hr : t.running = true
    · rw [if_pos hr]; exact hi
    · rw [if_neg hr]
      by_cases hneg : p < 0
      · rw [if_pos hneg]; exact hi
      · rw [if_neg hneg]
        have hp : t.planned = [] := by
          cases hi with
          | waits h => omega
          | idle _ _ hp => exact hp
          | runs _ hr' => exact absurd hr' hr
        exact .runs (by simp [SlowTask.plan, hw]) (by simp [SlowTask.plan]) t.count (nextCall now p now) (by simp [SlowTask.plan, hp])
          (by simp [SlowTask.plan])
  | stop =>
    unfold SlowTask.step
    by_cases hr : t.running = true
    · simp only [hr, if_true]
      cases hi with
      | waits h hp hk => simp only [hk]; exact .waits h hp rfl
      | idle h hr' => rw [hr] at hr'; cases hr'
      | runs h _ n d hp hk => simp only [hk]; exact .idle h rfl (by simp [hp]) rfl
    · simp only [hr, if_false]; exact hi
  | clock =>
    simp only [SlowTask.step]
    cases hi with
    | waits h hp hk => rw [hp]; exact .waits h hp hk
    | idle h hr hp hk => rw [hp]; exact .idle h hr hp hk
    | runs h hr n d hp hk =>
      rw [hp]
      by_cases hd : d ≤ now
      · simp only [List.filter_cons, hd, decide_true, if_true, List.filter_nil, List.foldl_cons, List.foldl_nil]
        exact call_inv p f _ now h (by simp [hp])
      · simp only [List.filter_cons, hd, decide_false, List.filter_nil, List.foldl_nil]
        exact .runs h hr n d hp hk
  | arrive res =>
    simp only [SlowTask.step]
    by_cases hw : t.waiting = 0
    · rw [if_pos hw]; exact hi
    · rw [if_neg hw]
      cases hi with
      | waits h hp hk => exact finish_inv p _ now res (by simp [h]) hp hk
      | idle h => exact absurd h hw
      | runs h => exact absurd h hw

theorem slowRun_append (p : ℤ) (f : ℕ → Option (Except PyErr (Dict Num))) (t : SlowTask) (a b : List (ℚ × SlowEvent)) :
    t.run p f (a ++ b) = (t.run p f a).run p f b := by
  simp [SlowTask.run, List.foldl_append]

theorem noRestart_left {p : ℤ} {f : ℕ → Option (Except PyErr (Dict Num))} {a b : List (ℚ × SlowEvent)} (h : NoRestart p f (a ++ b)) :
    NoRestart p f a := by
  rintro x t y rfl
  exact h x t (y ++ b) (by simp)

theorem run_inv (p : ℤ) (f : ℕ → Option (Except PyErr (Dict Num))) (es : List (ℚ × SlowEvent)) (h : NoRestart p f es) :
    SlowInv (SlowTask.run p f {} es) := by
  induction es using List.reverseRecOn with
  | nil => exact .idle rfl rfl rfl rfl
  | append_singleton es e ih =>
    rw [slowRun_append]
    obtain ⟨t, e⟩ := e
    refine step_inv p f _ t e (ih (noRestart_left h)) ?_
    rintro rfl
    exact h es t [] rfl

/-- Every call has one outcome. -/
def Accounted (t : SlowTask) : Prop := t.reported.length + t.logged + t.waiting = t.made.length

theorem plan_accounted {p : ℤ} {t : SlowTask} {now : ℚ} (h : Accounted t) : Accounted (t.plan p now) := h

theorem finish_accounted {p : ℤ} {t : SlowTask} {now : ℚ} {res : Except PyErr (Dict Num)}
    (h : t.reported.length + t.logged + 1 + t.waiting = t.made.length) : Accounted (t.finish p now res) := by
  unfold SlowTask.finish
  have key : ∀ t' : SlowTask, Accounted t' → Accounted (if t'.running then t'.plan p now else t') := by
    intro t' h'
    split
    · exact plan_accounted h'
    · exact h'
  cases res with
  | ok d => exact key _ (by simp only [Accounted, List.length_append, List.length_singleton]; omega)
  | error e => exact key _ (by simp only [Accounted]; omega)

theorem call_accounted {p : ℤ} {f : ℕ → Option (Except PyErr (Dict Num))} {t : SlowTask} {now : ℚ} (h : Accounted t) :
    Accounted (t.call p f now) := by
  unfold Accounted at h
  simp only [SlowTask.call]
  cases f t.made.length with
  | some res => exact finish_accounted (by simp; omega)
  | none => simp only [Accounted, List.length_append, List.length_singleton]; omega

theorem step_accounted {p : ℤ} {f : ℕ → Option (Except PyErr (Dict Num))} {t : SlowTask} {now : ℚ} {e : SlowEvent} (h : Accounted t) :
    Accounted (t.step p f now e).1 := by
  cases e with
  | start =>
    simp only [SlowTask.step]
    split
    · exact h
    · split
      · exact h
      · exact h
  | stop =>
    simp only [SlowTask.step]
    split
    · split <;> exact h
    · exact h
  | clock =>
    simp only [SlowTask.step]
    generalize t.planned.filter (fun e => decide (e.2 ≤ now)) = due
    induction due generalizing t with
    | nil => exact h
    | cons e due ih => exact ih (call_accounted h)
  | arrive res =>
    simp only [SlowTask.step]
    split
    · exact h
    · exact finish_accounted (by unfold Accounted at h; simp only; omega)

theorem run_accounted (p : ℤ) (f : ℕ → Option (Except PyErr (Dict Num))) (es : List (ℚ × SlowEvent)) (t : SlowTask) (h : Accounted t) :
    Accounted (t.run p f es) := by
  induction es generalizing t with
  | nil => exact h
  | cons e es ih => exact ih _ (step_accounted h)

/-- From a start to the next stop: the loop runs since `s`, and its next call is due in period `k` or later. -/
def SlowFrom (p : ℤ) (s : ℚ) (k : ℤ) (t : SlowTask) : Prop :=
  t.running = true ∧ t.startTime = s ∧ SlowInv t ∧ ∀ e ∈ t.planned, s + p * k ≤ e.2

theorem finish_from {p : ℤ} (hp : 0 < p) {s now : ℚ} {t : SlowTask} {res : Except PyErr (Dict Num)} (hr : t.running = true) (hst : t.startTime = s)
    (hw : t.waiting = 0) (hpl : t.planned = []) (hk : t.known = none) : SlowFrom p s (⌊(now - s) / p⌋ + 1) (t.finish p now res) := by
  have hn : nextCall s p now = s + p * ((⌊(now - s) / p⌋ + 1 : ℤ) : ℚ) := by
    unfold nextCall; rw [if_neg (by omega)]; push_cast; ring
  refine ⟨?_, ?_, finish_inv p t now res hw hpl hk, ?_⟩
  · unfold SlowTask.finish; cases res <;> simp [hr, SlowTask.plan]
  · unfold SlowTask.finish; cases res <;> simp [hr, SlowTask.plan, hst]
  · intro e he
    have : (t.finish p now res).planned = [(t.count, nextCall s p now)] := by
      unfold SlowTask.finish; cases res <;> simp [hr, SlowTask.plan, hst, hpl]
    rw [this, List.mem_singleton] at he
    subst he
    exact le_of_eq hn.symm

theorem made_finish (p : ℤ) (t : SlowTask) (now : ℚ) (res : Except PyErr (Dict Num)) : (t.finish p now res).made = t.made := by
  unfold SlowTask.finish
  cases res <;> simp only <;> split <;> rfl

/-- The calls from a start to the next stop. -/
theorem slow_calls {p : ℤ} (hp : 0 < p) (f : ℕ → Option (Except PyErr (Dict Num))) (s : ℚ) (es : List (ℚ × SlowEvent))
    (hs : ∀ e ∈ es, e.2 ≠ .stop) (hf : (es.map Prod.fst).Pairwise (· ≤ ·)) : ∀ (k : ℤ) (t : SlowTask), SlowFrom p s k t →
    (∀ e ∈ es, k ≤ ⌊(e.1 - s) / p⌋ + 1) →
    ∃ new : List ℚ, (t.run p f es).made = t.made ++ new ∧ new.Sublist (slowReadings es) ∧
      (new.map fun t => ⌊(t - s) / p⌋).Pairwise (· < ·) ∧ ∀ t ∈ new, k ≤ ⌊(t - s) / p⌋ := by
  induction es with
  | nil => intro k t _ _; exact ⟨[], by simp [SlowTask.run], by simp [slowReadings], by simp, by simp⟩
  | cons e es ih =>
    intro k t h hlow
    obtain ⟨now, e⟩ := e
    have hs' : ∀ e ∈ es, e.2 ≠ .stop := fun e he => hs e (List.mem_cons_of_mem _ he)
    obtain ⟨hf1, hf2⟩ := List.pairwise_cons.1 hf
    have hlow' : ∀ e ∈ es, k ≤ ⌊(e.1 - s) / p⌋ + 1 := fun e he => hlow e (List.mem_cons_of_mem _ he)
    have hmono : ∀ e ∈ es, ⌊(now - s) / (p : ℚ)⌋ ≤ ⌊(e.1 - s) / (p : ℚ)⌋ := by
      intro e he
      have hq : (0 : ℚ) < p := by exact_mod_cast hp
      have := hf1 e.1 (List.mem_map_of_mem he)
      exact Int.floor_le_floor (by gcongr)
    obtain ⟨hr, hst, hi, hpl⟩ := h
    cases e with
    | stop => exact absurd rfl (hs _ (List.mem_cons_self ..))
    | start =>
      have : (t.step p f now .start).1 = t := by simp [SlowTask.step, hr]
      show ∃ new, ((t.step p f now .start).1.run p f es).made = _ ∧ _
      rw [this]
      exact ih hs' hf2 k t ⟨hr, hst, hi, hpl⟩ hlow'
    | arrive res =>
      show ∃ new, ((t.step p f now (.arrive res)).1.run p f es).made = _ ∧ _
      simp only [SlowTask.step]
      split
      · exact ih hs' hf2 k t ⟨hr, hst, hi, hpl⟩ hlow'
      · rename_i hw
        obtain ⟨h1, h2, h3, h4⟩ : SlowFrom p s (⌊(now - s) / p⌋ + 1) (SlowTask.finish p { t with waiting := t.waiting - 1 } now res) := by
          cases hi with
          | waits h hp' hk => exact finish_from hp hr hst (by simp [h]) hp' hk
          | idle h => exact absurd h hw
          | runs h => exact absurd h hw
        obtain ⟨new, n1, n2, n3, n4⟩ := ih hs' hf2 (⌊(now - s) / p⌋ + 1) _ ⟨h1, h2, h3, h4⟩ (fun e he => by have := hmono e he; omega)
        rw [made_finish] at n1
        refine ⟨new, n1, n2, n3, fun u hu => ?_⟩
        have := n4 u hu
        have := hlow _ (List.mem_cons_self ..)
        simp only at this
        omega
    | clock =>
      show ∃ new, ((t.step p f now .clock).1.run p f es).made = _ ∧ _
      simp only [SlowTask.step]
      have quiet : t.planned.filter (fun e => decide (e.2 ≤ now)) = [] → ∃ new,
          (SlowTask.run p f ((t.planned.filter fun e => decide (e.2 ≤ now)).foldl
            (fun t e => SlowTask.call p f { t with planned := t.planned.filter fun e' => e'.1 ≠ e.1 } now) t) es).made = t.made ++ new ∧
          new.Sublist (slowReadings ((now, .clock) :: es)) ∧ (new.map fun t => ⌊(t - s) / p⌋).Pairwise (· < ·) ∧
          ∀ t ∈ new, k ≤ ⌊(t - s) / p⌋ := by
        intro hq
        rw [hq, List.foldl_nil]
        obtain ⟨new, n1, n2, n3, n4⟩ := ih hs' hf2 k t ⟨hr, hst, hi, hpl⟩ hlow'
        exact ⟨new, n1, n2.cons _, n3, n4⟩
      cases hi with
      | waits h hp' hk => exact quiet (by rw [hp']; rfl)
      | idle _ hr' => rw [hr] at hr'; cases hr'
      | runs h hr' n d hp' hk =>
        by_cases hd : d ≤ now
        · have hk' : k ≤ ⌊(now - s) / p⌋ := (floor_ge_iff hp k).2 ((hpl (n, d) (by rw [hp']; simp)).trans hd)
          have hq : t.planned.filter (fun e => decide (e.2 ≤ now)) = [(n, d)] := by rw [hp']; simp [hd]
          rw [hq, List.foldl_cons, List.foldl_nil]
          have hcall : SlowFrom p s (⌊(now - s) / p⌋ + 1)
              (SlowTask.call p f { t with planned := t.planned.filter fun e' => e'.1 ≠ n } now) ∧
              (SlowTask.call p f { t with planned := t.planned.filter fun e' => e'.1 ≠ n } now).made = t.made ++ [now] := by
            simp only [SlowTask.call]
            cases f t.made.length with
            | some res => exact ⟨finish_from hp hr hst h (by simp [hp']) rfl, made_finish ..⟩
            | none => exact ⟨⟨hr, hst, .waits (by simp [h]) (by simp [hp']) rfl, by simp [hp']⟩, rfl⟩
          obtain ⟨new, n1, n2, n3, n4⟩ := ih hs' hf2 (⌊(now - s) / p⌋ + 1) _ hcall.1 (fun e he => by have := hmono e he; omega)
          refine ⟨now :: new, ?_, n2.cons_cons _, ?_, ?_⟩
          · rw [n1, hcall.2, List.append_assoc]; rfl
          · rw [List.map_cons, List.pairwise_cons]
            refine ⟨fun a ha => ?_, n3⟩
            obtain ⟨b, hb, rfl⟩ := List.mem_map.1 ha
            have := n4 b hb
            omega
          · intro u hu
            rcases List.mem_cons.1 hu with rfl | hu
            · exact hk'
            · have := n4 u hu
              omega
        · exact quiet (by rw [hp']; simp [hd])

/-- While the service is stopped the function is not called. -/
theorem slow_stopped (p : ℤ) (f : ℕ → Option (Except PyErr (Dict Num))) (es : List (ℚ × SlowEvent)) (hs : ∀ e ∈ es, e.2 ≠ .start) :
    ∀ t : SlowTask, t.running = false → t.planned = [] → (t.run p f es).made = t.made := by
  induction es with
  | nil => intros; rfl
  | cons e es ih =>
    intro t hr hp
    obtain ⟨now, e⟩ := e
    have hs' : ∀ e ∈ es, e.2 ≠ .start := fun e he => hs e (List.mem_cons_of_mem _ he)
    show ((t.step p f now e).1.run p f es).made = _
    cases e with
    | start => exact absurd rfl (hs _ (List.mem_cons_self ..))
    | stop =>
      have : (t.step p f now .stop).1 = t := by simp [SlowTask.step, hr]
      rw [this]; exact ih hs' t hr hp
    | clock =>
      have : (t.step p f now .clock).1 = t := by simp [SlowTask.step, hp]
      rw [this]; exact ih hs' t hr hp
    | arrive res =>
      simp only [SlowTask.step]
      split
      · exact ih hs' t hr hp
      · rw [ih hs' _ ?_ ?_, made_finish]
        · unfold SlowTask.finish; cases res <;> simp [hr]
        · unfold SlowTask.finish; cases res <;> simp [hr, hp]

end Txstatsd
