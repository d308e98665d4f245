import Verif.Spec.Backoff
import Verif.Lemmas.Redirect
import Mathlib.Tactic.Linarith
import Mathlib.Tactic.Positivity
import Mathlib.Tactic.NormNum
import Mathlib.Algebra.Order.Field.Rat

set_option linter.unusedSectionVars false
set_option linter.unusedSimpArgs false
set_option linter.unusedVariables false

namespace Txstatsd
open Spec

theorem backoff_run_cons (b : Backoff) (e : BackoffEvent) (es : List BackoffEvent) : b.run (e :: es) = (b.step e).1.run es := rfl

theorem backoff_run_snoc (b : Backoff) (es : List BackoffEvent) (e : BackoffEvent) : b.run (es ++ [e]) = ((b.run es).step e).1 := by
  simp [Backoff.run]

theorem streak_snoc (es : List BackoffEvent) (e : BackoffEvent) : ∀ (b : Backoff) (n : Nat),
    streak b n (es ++ [e]) = (if ((b.run es).step e).1.redirect.up then 0
      else if (b.run es).due = none ∧ ((b.run es).step e).1.due ≠ none then streak b n es + 1 else streak b n es) := by
  induction es with
  | nil => intro b n; rfl
  | cons x es ih =>
    intro b n
    rw [List.cons_append, backoff_run_cons]
    simp only [streak]
    exact ih _ _

theorem draws_snoc {Z : ℚ} {es : List BackoffEvent} {e : BackoffEvent} (h : DrawsWithin Z (es ++ [e])) :
    DrawsWithin Z es ∧ ∀ z, (e = .failed z ∨ ∃ t, e = .lost t z) → -Z ≤ z ∧ z ≤ Z :=
  ⟨fun x hx => h x (List.mem_append_left _ hx), h e (by simp)⟩

theorem retryFactor_pos : 1 < retryFactor := by norm_num [retryFactor]

theorem retryJitter_pos : 0 < retryJitter := by norm_num [retryJitter]

/-- What is true of a redirect after `n` scheduled attempts. -/
structure Sane (Z : ℚ) (n : Nat) (b : Backoff) : Prop where
  up : b.redirect.up = true → b.delay = 1 ∧ b.due = none ∧ b.redirect.pending = false ∧ b.redirect.trying = true ∧ n = 0
  low : min ((retryFactor * (1 - retryJitter * Z)) ^ n) (retryMax * (1 - retryJitter * Z)) ≤ b.delay
  high : b.delay ≤ retryMax * (1 + retryJitter * Z)
  due : ∀ t, b.due = some t → b.now < t ∧ t ≤ b.now + retryMax * (1 + retryJitter * Z) ∧ b.redirect.pending = true ∧ b.redirect.trying = true
  running : b.redirect.running = false → b.redirect.up = false ∧ b.due = none ∧ b.redirect.pending = false

theorem next_bounds {Z d z : ℚ} {n : Nat} (h0 : 0 ≤ Z) (hZ : 1 ≤ retryFactor * (1 - retryJitter * Z)) (hz : -Z ≤ z ∧ z ≤ Z)
    (hl : min ((retryFactor * (1 - retryJitter * Z)) ^ n) (retryMax * (1 - retryJitter * Z)) ≤ d) :
    0 < nextDelay d z ∧ min ((retryFactor * (1 - retryJitter * Z)) ^ (n + 1)) (retryMax * (1 - retryJitter * Z)) ≤ nextDelay d z ∧
    nextDelay d z ≤ retryMax * (1 + retryJitter * Z) := by
  have hf := retryFactor_pos
  have hj := retryJitter_pos
  have hm : (0 : ℚ) < retryMax := by norm_num [retryMax]
  have ha : 0 < 1 - retryJitter * Z := by
    by_contra hc
    have : retryFactor * (1 - retryJitter * Z) ≤ 0 := mul_nonpos_of_nonneg_of_nonpos (by linarith) (by linarith)
    linarith
  have h1 : 1 - retryJitter * Z ≤ 1 + retryJitter * z := by nlinarith
  have h2 : 1 + retryJitter * z ≤ 1 + retryJitter * Z := by nlinarith
  have hp : 0 < (retryFactor * (1 - retryJitter * Z)) ^ n := pow_pos (by linarith) n
  have hd : 0 < d := lt_of_lt_of_le (lt_min hp (mul_pos hm ha)) hl
  have hmin : 0 < min (d * retryFactor) retryMax := lt_min (mul_pos hd (by linarith)) hm
  have hlow : min ((retryFactor * (1 - retryJitter * Z)) ^ (n + 1)) (retryMax * (1 - retryJitter * Z)) ≤
      min (d * retryFactor) retryMax * (1 - retryJitter * Z) := by
    rcases min_cases (d * retryFactor) retryMax with ⟨e, _⟩ | ⟨e, _⟩
    · rw [e]
      rcases min_le_iff.1 hl with h | h
      · refine le_trans (min_le_left _ _) ?_
        rw [pow_succ]
        calc (retryFactor * (1 - retryJitter * Z)) ^ n * (retryFactor * (1 - retryJitter * Z)) ≤ d * (retryFactor * (1 - retryJitter * Z)) :=
              mul_le_mul_of_nonneg_right h (by linarith)
          _ = d * retryFactor * (1 - retryJitter * Z) := by ring
      · refine le_trans (min_le_right _ _) ?_
        calc retryMax * (1 - retryJitter * Z) ≤ d * 1 := by rw [mul_one]; exact h
          _ ≤ d * (retryFactor * (1 - retryJitter * Z)) := mul_le_mul_of_nonneg_left hZ hd.le
          _ = d * retryFactor * (1 - retryJitter * Z) := by ring
    · rw [e]; exact min_le_right _ _
  unfold nextDelay
  refine ⟨mul_pos hmin (by linarith), le_trans hlow (mul_le_mul_of_nonneg_left h1 hmin.le), ?_⟩
  calc min (d * retryFactor) retryMax * (1 + retryJitter * z) ≤ min (d * retryFactor) retryMax * (1 + retryJitter * Z) :=
        mul_le_mul_of_nonneg_left h2 hmin.le
    _ ≤ retryMax * (1 + retryJitter * Z) := mul_le_mul_of_nonneg_right (min_le_right _ _) (by nlinarith)

theorem sane_init {Z : ℚ} (h0 : 0 ≤ Z) : Sane Z 0 {} where
  up := by intro h; simp at h
  low := by simp
  high := by
    have hj := retryJitter_pos
    show (1 : ℚ) ≤ _
    have : 0 ≤ retryJitter * Z := mul_nonneg hj.le h0
    unfold retryMax
    nlinarith
  due := by intro t h; simp at h
  running := by intro _; simp

/-- One event of a sane redirect. -/
theorem sane_step {Z : ℚ} (h0 : 0 ≤ Z) (hZ : 1 ≤ retryFactor * (1 - retryJitter * Z)) {n : Nat} {b : Backoff} (hb : Sane Z n b)
    (e : BackoffEvent) (hz : ∀ z, (e = .failed z ∨ ∃ t, e = .lost t z) → -Z ≤ z ∧ z ≤ Z) :
    Sane Z (if (b.step e).1.redirect.up then 0 else if b.due = none ∧ (b.step e).1.due ≠ none then n + 1 else n) (b.step e).1 := by
  obtain ⟨⟨run, try_, pend, up, proto, earl, cb, cl⟩, delay, now, due⟩ := b
  obtain ⟨b1, b2, b3, b4, b5⟩ := hb
  simp only at b1 b2 b3 b4 b5
  have hone : (1 : ℚ) ≤ retryMax * (1 + retryJitter * Z) := (sane_init h0).high
  have hlow0 : min ((retryFactor * (1 - retryJitter * Z)) ^ 0) (retryMax * (1 - retryJitter * Z)) ≤ 1 := (sane_init h0).low
  cases e with
  | start =>
    cases run
    · obtain ⟨u, d, p⟩ := b5 rfl
      subst u; subst d; subst p
      simp only [Backoff.step, Redirect.step, Bool.false_eq_true, if_false, ne_eq, not_true_eq_false, and_false]
      exact ⟨by simp, b2, b3, by simp, by simp⟩
    · cases up
      · simp only [Backoff.step, Redirect.step, if_true, Bool.false_eq_true, if_false, and_not_self]
        exact ⟨by simp, b2, b3, b4, by simp⟩
      · obtain ⟨u, d, p, t, rfl⟩ := b1 rfl
        simp only [Backoff.step, Redirect.step, if_true]
        exact ⟨by simpa using ⟨u, d, p, t⟩, b2, b3, b4, by simp⟩
  | stop t =>
    cases up
    · simp only [Backoff.step, Redirect.step, Bool.false_eq_true, if_false, ne_eq, not_true_eq_false, and_false]
      exact ⟨by simp, b2, b3, by simp, by simp⟩
    · simp only [Backoff.step, Redirect.step, Redirect.close, if_true, Bool.false_eq_true, if_false, ne_eq, not_true_eq_false, and_false]
      exact ⟨by simp, b2, b3, by simp, by simp⟩
  | connected =>
    simp only [Backoff.step]
    by_cases hc : pend = true ∧ due = none
    · obtain ⟨rfl, rfl⟩ := hc
      have hr : run = true := by
        by_contra h
        have := (b5 (by simpa using h)).2.2
        simp at this
      simp only [Redirect.step, if_true, and_self]
      exact ⟨by simp, hlow0, hone, by simp, by simp [hr]⟩
    · rw [if_neg hc]
      cases up
      · simp only [Bool.false_eq_true, if_false, and_not_self]
        exact ⟨by simp, b2, b3, b4, b5⟩
      · obtain ⟨u, d, p, t, rfl⟩ := b1 rfl
        simp only [if_true]
        exact ⟨b1, b2, b3, b4, b5⟩
  | failed z =>
    simp only [Backoff.step]
    by_cases hc : pend = true ∧ due = none
    · obtain ⟨rfl, rfl⟩ := hc
      have hu : up = false := by
        by_contra h
        have := (b1 (by simpa using h)).2.2.1
        simp at this
      subst hu
      have hr : run = true := by
        by_contra h
        have := (b5 (by simpa using h)).2.2
        simp at this
      cases try_
      · simp only [Redirect.step, and_self, if_true, Bool.and_false, Bool.false_eq_true, if_false, ne_eq, not_true_eq_false, and_false]
        exact ⟨by simp, b2, b3, by simp, by simp⟩
      · obtain ⟨p1, p2, p3⟩ := next_bounds h0 hZ (hz z (.inl rfl)) b2
        have hnn : ¬ nextDelay delay z < 0 := by linarith
        simp only [Redirect.step, and_self, if_true, Bool.and_true, Backoff.retry, hnn, if_false, Bool.false_eq_true, ne_eq,
          reduceCtorEq, not_false_eq_true]
        refine ⟨by simp, p2, p3, ?_, by simp [hr]⟩
        intro t ht
        simp only [Option.some.injEq] at ht
        subst ht
        exact ⟨by simpa using p1, by simpa using p3, rfl, rfl⟩
    · rw [if_neg hc]
      cases up
      · simp only [Bool.false_eq_true, if_false, and_not_self]
        exact ⟨by simp, b2, b3, b4, b5⟩
      · obtain ⟨u, d, p, t, rfl⟩ := b1 rfl
        simp only [if_true]
        exact ⟨b1, b2, b3, b4, b5⟩
  | lost t z =>
    simp only [Backoff.step]
    cases up
    · simp only [Bool.false_eq_true, if_false, and_not_self]
      exact ⟨by simp, b2, b3, b4, b5⟩
    · obtain ⟨rfl, rfl, rfl, rfl, rfl⟩ := b1 rfl
      have hr : run = true := by
        by_contra h
        have := (b5 (by simpa using h)).1
        simp at this
      obtain ⟨p1, p2, p3⟩ := next_bounds h0 hZ (hz z (.inr ⟨t, rfl⟩)) b2
      have hnn : ¬ nextDelay 1 z < 0 := by linarith
      simp only [Redirect.step, Redirect.close, if_true, Backoff.retry, hnn, if_false, Bool.false_eq_true, ne_eq,
          reduceCtorEq, not_false_eq_true, and_self]
      refine ⟨by simp, p2, p3, ?_, by simp [hr]⟩
      intro t ht
      simp only [Option.some.injEq] at ht
      subst ht
      exact ⟨by simpa using p1, by simpa using p3, rfl, rfl⟩
  | pause t =>
    cases up
    · simp only [Backoff.step, Redirect.step, Bool.false_eq_true, if_false, and_not_self]
      exact ⟨by simp, b2, b3, b4, b5⟩
    · obtain ⟨u, d, p, t, rfl⟩ := b1 rfl
      simp only [Backoff.step, Redirect.step, if_true]
      exact ⟨b1, b2, b3, b4, b5⟩
  | resume t =>
    cases up
    · simp only [Backoff.step, Redirect.step, Bool.false_eq_true, if_false, and_not_self]
      exact ⟨by simp, b2, b3, b4, b5⟩
    · obtain ⟨u, d, p, t, rfl⟩ := b1 rfl
      cases proto <;> simp only [Backoff.step, Redirect.step, if_true] <;> exact ⟨b1, b2, b3, b4, b5⟩
  | write l =>
    cases up
    · cases proto <;> simp only [Backoff.step, Redirect.step, Bool.false_eq_true, if_false, and_not_self] <;>
        exact ⟨by simp, b2, b3, b4, b5⟩
    · obtain ⟨u, d, p, t, rfl⟩ := b1 rfl
      cases proto <;> simp only [Backoff.step, Redirect.step, if_true] <;> exact ⟨b1, b2, b3, b4, b5⟩
  | wait dt =>
    have hge : now ≤ now + max dt 0 := by have := le_max_right dt 0; linarith
    cases due with
    | none =>
      simp only [Backoff.step, Option.any_none, Bool.false_eq_true, if_false, and_not_self, ne_eq, not_true_eq_false, and_false]
      cases up
      · exact ⟨by simp, b2, b3, by simp, b5⟩
      · obtain ⟨u, d, p, t, rfl⟩ := b1 rfl
        exact ⟨b1, b2, b3, by simp, b5⟩
    | some x =>
      have hu : up = false := by
        by_contra h
        have := (b1 (by simpa using h)).2.1
        simp at this
      subst hu
      obtain ⟨q1, q2, q3, q4⟩ := b4 x rfl
      simp only [Backoff.step, Option.any_some, Bool.false_eq_true, if_false, reduceCtorEq, false_and]
      by_cases hx : x ≤ now + max dt 0
      · simp only [hx, decide_true, if_true]
        refine ⟨by simp, b2, b3, by simp, ?_⟩
        intro hr
        have := (b5 hr).2.1
        simp at this
      · simp only [hx, decide_false, Bool.false_eq_true, if_false]
        refine ⟨by simp, b2, b3, ?_, b5⟩
        intro t ht
        simp only [Option.some.injEq] at ht
        subst ht
        exact ⟨by linarith, by linarith, q3, q4⟩

theorem sane_run {Z : ℚ} (h0 : 0 ≤ Z) (hZ : 1 ≤ retryFactor * (1 - retryJitter * Z)) (es : List BackoffEvent) (h : DrawsWithin Z es) :
    Sane Z (streak {} 0 es) (Backoff.run {} es) := by
  induction es using List.reverseRecOn with
  | nil => exact sane_init h0
  | append_singleton es e ih =>
    obtain ⟨h1, h2⟩ := draws_snoc h
    rw [streak_snoc, backoff_run_snoc]
    exact sane_step h0 hZ (ih h1) e h2

theorem draws_pos {Z : ℚ} (h0 : 0 ≤ Z) (hZ : 1 ≤ retryFactor * (1 - retryJitter * Z)) {d z : ℚ} (hz : -Z ≤ z ∧ z ≤ Z) (hd : 0 ≤ d) :
    0 ≤ nextDelay d z := by
  have hf := retryFactor_pos
  have hj := retryJitter_pos
  have ha : 0 < 1 - retryJitter * Z := by
    by_contra hc
    have : retryFactor * (1 - retryJitter * Z) ≤ 0 := mul_nonpos_of_nonneg_of_nonpos (by linarith) (by linarith)
    linarith
  have h1 : 1 - retryJitter * Z ≤ 1 + retryJitter * z := by nlinarith
  unfold nextDelay
  refine mul_nonneg (le_min (mul_nonneg hd (by linarith)) (by norm_num [retryMax])) (by linarith)

end Txstatsd
