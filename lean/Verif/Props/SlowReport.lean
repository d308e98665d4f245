import Verif.Lemmas.SlowReport

/-!
# C162: reports that take their time
-/

set_option linter.unusedVariables false
set_option linter.unusedSectionVars false

namespace Txstatsd
open Spec
section
variable [Rounding]

/-- C162 (partial): unless the service is started again while a result is awaited, the function is never called before the result of its
call before is there. Missing for the full claim (`C162_refuted`): runs with such a start. -/
theorem C162_one_at_a_time_partial (p : ℤ) (f : ℕ → Option (Except PyErr (Dict Num))) (es : List (ℚ × SlowEvent)) (h : NoRestart p f es) :
    let t := SlowTask.run p f {} es
    t.waiting ≤ 1 ∧ ∀ now, t.waiting = 1 → (t.step p f now .clock).1.made = t.made := by
  intro t
  have hi : SlowInv t := run_inv p f es h
  cases hi with
  | waits h hp hk => exact ⟨h.le, fun now _ => by simp only [SlowTask.step]; rw [show t.planned = [] from hp]; rfl⟩
  | idle h => exact ⟨by omega, fun now hw => by omega⟩
  | runs h => exact ⟨by omega, fun now hw => by omega⟩

/-- C162: in every run each call has one outcome: something reported, a failure logged, or a result that is still awaited. -/
theorem C162_outcomes (p : ℤ) (f : ℕ → Option (Except PyErr (Dict Num))) (es : List (ℚ × SlowEvent)) :
    let t := SlowTask.run p f {} es
    t.reported.length + t.logged + t.waiting = t.made.length :=
  run_accounted p f es {} rfl

/-- C162: a result that is awaited is reported as soon as it arrives, and a failure is logged, whether the service still runs or not. -/
theorem C162_arrival (p : ℤ) (f : ℕ → Option (Except PyErr (Dict Num))) (t : SlowTask) (now : ℚ) (hw : 0 < t.waiting) :
    (∀ d, let t' := (t.step p f now (.arrive (.ok d))).1
      t'.reported = t.reported ++ [d] ∧ t'.logged = t.logged ∧ t'.waiting + 1 = t.waiting) ∧
    ∀ e, let t' := (t.step p f now (.arrive (.error e))).1
      t'.reported = t.reported ∧ t'.logged = t.logged + 1 ∧ t'.waiting + 1 = t.waiting := by
  have h0 : t.waiting ≠ 0 := by omega
  constructor
  · intro d
    simp only [SlowTask.step, if_neg h0, SlowTask.finish]
    split <;> exact ⟨rfl, rfl, by simp only [SlowTask.plan]; omega⟩
  · intro e
    simp only [SlowTask.step, if_neg h0, SlowTask.finish]
    split <;> exact ⟨rfl, rfl, by simp only [SlowTask.plan]; omega⟩

/-- C162: from a start at `s` to the next stop, with a period of `p` seconds, the function is called at readings of the clock only, not in
the first period and not twice in the same period after `s`, however long the results take. -/
theorem C162_times {p : ℤ} (hp : 0 < p) (f : ℕ → Option (Except PyErr (Dict Num))) (before since : List (ℚ × SlowEvent)) (s : ℚ)
    (h : NoRestart p f (before ++ (s, .start) :: since)) (hr : (SlowTask.run p f {} before).running = false)
    (hs : ∀ e ∈ since, e.2 ≠ .stop) (hf : ((s :: since.map Prod.fst)).Pairwise (· ≤ ·)) :
    ∃ new : List ℚ, (SlowTask.run p f {} (before ++ (s, .start) :: since)).made = (SlowTask.run p f {} before).made ++ new ∧
      new.Sublist (slowReadings since) ∧ (∀ t ∈ new, s + p ≤ t) ∧ new.Pairwise (fun t t' => ⌊(t - s) / p⌋ < ⌊(t' - s) / p⌋) := by
  have hi := run_inv p f before (noRestart_left h)
  have hw := h before s since rfl
  rw [slowRun_append]
  generalize SlowTask.run p f {} before = t at hi hw hr ⊢
  have hpl : t.planned = [] := by
    cases hi with
    | waits h => omega
    | idle _ _ hp => exact hp
    | runs _ hr' => rw [hr] at hr'; cases hr'
  obtain ⟨hf1, hf2⟩ := List.pairwise_cons.1 hf
  have hn : nextCall s p s = s + p * ((1 : ℤ) : ℚ) := by
    unfold nextCall; rw [if_neg (by omega)]; simp
  have hq : (0 : ℚ) < p := by exact_mod_cast hp
  have hstart : SlowFrom p s 1 (t.step p f s .start).1 ∧ (t.step p f s .start).1.made = t.made := by
    have e : (t.step p f s .start).1 = SlowTask.plan p { t with running := true, startTime := s } s := by
      simp [SlowTask.step, hr, not_lt.2 hp.le]
    have hinv := step_inv p f t s .start hi fun _ => hw
    refine ⟨⟨by rw [e]; rfl, by rw [e]; rfl, hinv, ?_⟩, by rw [e]; rfl⟩
    rw [e]
    intro x hx
    simp only [SlowTask.plan, hpl, List.nil_append, List.mem_singleton] at hx
    subst hx
    exact le_of_eq hn.symm
  obtain ⟨new, n1, n2, n3, n4⟩ := slow_calls hp f s since hs hf2 1 _ hstart.1 (fun e he => by
    have : 0 ≤ ⌊(e.1 - s) / (p : ℚ)⌋ := by
      rw [Int.floor_nonneg]
      exact div_nonneg (by have := hf1 e.1 (List.mem_map_of_mem he); linarith) hq.le
    omega)
  refine ⟨new, ?_, n2, fun u hu => ?_, List.pairwise_map.1 n3⟩
  · show ((t.step p f s .start).1.run p f since).made = _
    rw [n1, hstart.2]
  · simpa using (floor_ge_iff hp 1).1 (n4 u hu)

/-- C162 (partial): from a stop to the next start the function is not called. -/
theorem C162_stopped_partial (p : ℤ) (f : ℕ → Option (Except PyErr (Dict Num))) (before since : List (ℚ × SlowEvent)) (s : ℚ)
    (h : NoRestart p f before) (hs : ∀ e ∈ since, e.2 ≠ .start) :
    (SlowTask.run p f {} (before ++ (s, .stop) :: since)).made = (SlowTask.run p f {} before).made := by
  have hi := run_inv p f before h
  rw [slowRun_append]
  generalize SlowTask.run p f {} before = t at hi ⊢
  show ((t.step p f s .stop).1.run p f since).made = _
  have hstop := step_inv p f t s .stop hi (fun h => by cases h)
  have hr : (t.step p f s .stop).1.running = false := by
    simp only [SlowTask.step]
    split
    · split <;> rfl
    · rename_i h; simpa using h
  have hpl : (t.step p f s .stop).1.planned = [] := by
    cases hstop with
    | waits _ hp => exact hp
    | idle _ _ hp => exact hp
    | runs _ hr' => rw [hr] at hr'; cases hr'
  rw [slow_stopped p f since hs _ hr hpl]
  simp only [SlowTask.step]
  split
  · split <;> rfl
  · rfl

end
section
attribute [local instance] ratRounding

/-- A function whose first result comes later. -/
def exSlow : ℕ → Option (Except PyErr (Dict Num))
  | 0 => none
  | _ => some (.ok [(c!"a", .int 1)])

/-- A slow result skips two periods. -/
example : let t := SlowTask.run 60 exSlow {} [(0, .start), (60, .clock), (120, .clock), (185, .arrive (.ok [(c!"a", .int 7)])), (186, .clock),
      (240, .clock), (241, .stop), (300, .clock)]
    t.made = [60, 240] ∧ t.reported = [[(c!"a", .int 7)], [(c!"a", .int 1)]] ∧ t.waiting = 0 := by decide +kernel

example : NoRestart 60 exSlow [(0, .start), (60, .clock), (120, .clock)] := by
  intro a t b h
  match a, h with
  | [], h => rfl
  | [x], h => simp at h
  | [x, y], h => simp at h
  | x :: y :: z :: a, h => simp at h

/-- C162, refuted: the function should not be called before the result of its call before is there. After a stop and a start the loop does
not know any more of the call that it was waiting for. -/
theorem C162_refuted : ¬ ∀ (p : ℤ) (f : ℕ → Option (Except PyErr (Dict Num))) (es : List (ℚ × SlowEvent)),
    (SlowTask.run p f {} es).waiting ≤ 1 := by
  intro h
  have := h 60 (fun _ => none) [(0, .start), (60, .clock), (70, .stop), (80, .start), (140, .clock)]
  exact absurd this (by decide +kernel)

/-- C162, refuted: nothing should be called or reported while the service is stopped. A result that comes after the stop is reported. And if
one came after a stop and a start, the loop has planned two calls, and the next stop cancels only one of them: the function is called
while the service is stopped. -/
theorem C162_stopped_refuted :
    (¬ ∀ (p : ℤ) (f : ℕ → Option (Except PyErr (Dict Num))) (before since : List (ℚ × SlowEvent)) (s : ℚ), (∀ e ∈ since, e.2 ≠ .start) →
      (SlowTask.run p f {} (before ++ (s, .stop) :: since)).reported = (SlowTask.run p f {} before).reported) ∧
    ¬ ∀ (p : ℤ) (f : ℕ → Option (Except PyErr (Dict Num))) (before since : List (ℚ × SlowEvent)) (s : ℚ), (∀ e ∈ since, e.2 ≠ .start) →
      (SlowTask.run p f {} (before ++ (s, .stop) :: since)).made = (SlowTask.run p f {} before).made := by
  constructor
  · intro h
    have := h 60 (fun _ => none) [(0, .start), (60, .clock)] [(71, .arrive (.ok []))] 70 (by simp)
    exact absurd this (by decide +kernel)
  · intro h
    have := h 60 (fun _ => none) [(0, .start), (60, .clock), (70, .stop), (80, .start), (90, .arrive (.ok []))] [(200, .clock)] 100 (by simp)
    exact absurd this (by decide +kernel)

end
end Txstatsd
