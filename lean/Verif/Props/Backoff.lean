import Verif.Lemmas.Backoff
import Verif.Props.Redirect

/-!
# C168: how long a TCP redirect waits before it connects again
-/

set_option linter.unusedVariables false

namespace Txstatsd
open Spec

/-- C168: without its times, a redirect lives as described in C121: some of the attempts that the reactor was said to end were none. -/
theorem C168_life (Z : ℚ) (h0 : 0 ≤ Z) (hZ : 1 ≤ retryFactor * (1 - retryJitter * Z)) (es : List BackoffEvent) (h : DrawsWithin Z es) :
    ∃ l : List LifeEvent, l.Sublist (es.filterMap BackoffEvent.life) ∧ (Backoff.run {} es).redirect = Redirect.run {} l := by
  induction es using List.reverseRecOn with
  | nil => exact ⟨[], by simp, rfl⟩
  | append_singleton es e ih =>
    obtain ⟨h1, h2⟩ := draws_snoc h
    obtain ⟨l, i1, i2⟩ := ih h1
    have hs := sane_run h0 hZ es h1
    rw [backoff_run_snoc, List.filterMap_append]
    generalize Backoff.run {} es = b at i2 hs
    have take : ∀ x, BackoffEvent.life e = some x → (b.step e).1.redirect = (b.redirect.step x).1 →
        ∃ l : List LifeEvent, l.Sublist (es.filterMap BackoffEvent.life ++ [e].filterMap BackoffEvent.life) ∧
          (b.step e).1.redirect = Redirect.run {} l := by
      intro x hx hr
      refine ⟨l ++ [x], i1.append (by simp [hx]), ?_⟩
      rw [Redirect.run_snoc, ← i2, hr]
    have skip : (b.step e).1.redirect = b.redirect →
        ∃ l : List LifeEvent, l.Sublist (es.filterMap BackoffEvent.life ++ [e].filterMap BackoffEvent.life) ∧
          (b.step e).1.redirect = Redirect.run {} l := by
      intro hr
      exact ⟨l, i1.trans (List.sublist_append_left _ _), by rw [hr, i2]⟩
    have hd : 0 ≤ b.delay := by
      have hp : 0 < min ((retryFactor * (1 - retryJitter * Z)) ^ (streak {} 0 es)) (retryMax * (1 - retryJitter * Z)) := by
        have hf := retryFactor_pos
        have ha : 0 < 1 - retryJitter * Z := by
          by_contra hc
          have : retryFactor * (1 - retryJitter * Z) ≤ 0 := mul_nonpos_of_nonneg_of_nonpos (by linarith) (by linarith)
          linarith
        exact lt_min (pow_pos (by linarith) _) (mul_pos (by norm_num [retryMax]) ha)
      exact (lt_of_lt_of_le hp hs.low).le
    cases e with
    | start => exact take .start rfl rfl
    | stop t => exact take (.stop t) rfl rfl
    | connected =>
      by_cases hc : b.redirect.pending = true ∧ b.due = none
      · refine take .connected rfl ?_
        simp only [Backoff.step, if_pos hc]
      · refine skip ?_
        simp only [Backoff.step, if_neg hc]
    | failed z =>
      by_cases hc : b.redirect.pending = true ∧ b.due = none
      · refine take .failed rfl ?_
        have hnn : ¬ nextDelay b.delay z < 0 := not_lt.2 (draws_pos h0 hZ (h2 z (.inl rfl)) hd)
        simp only [Backoff.step, if_pos hc, Backoff.retry, hnn, if_false]
        split <;> rfl
      · refine skip ?_
        simp only [Backoff.step, if_neg hc]
    | lost t z =>
      by_cases hc : b.redirect.up = true
      · refine take (.lost t) rfl ?_
        have hnn : ¬ nextDelay b.delay z < 0 := not_lt.2 (draws_pos h0 hZ (h2 z (.inr ⟨t, rfl⟩)) hd)
        simp only [Backoff.step, if_pos hc, Backoff.retry, hnn, if_false]
        split <;> rfl
      · refine skip ?_
        simp only [Backoff.step, if_neg hc]
    | pause t => exact take (.pause t) rfl rfl
    | resume t => exact take (.resume t) rfl rfl
    | write l => exact take (.write l) rfl rfl
    | wait dt => exact skip rfl

/-- C168: a connection that is lost is tried again after `e` seconds, whatever came before it, up to the draw. -/
theorem C168_first (Z : ℚ) (h0 : 0 ≤ Z) (hZ : 1 ≤ retryFactor * (1 - retryJitter * Z)) (es : List BackoffEvent) (t : ℤ) (z : ℚ)
    (h : DrawsWithin Z (es ++ [.lost t z])) (hu : (Backoff.run {} es).redirect.up = true) :
    (Backoff.run {} (es ++ [.lost t z])).due =
      some ((Backoff.run {} es).now + 27182818284590451 / 10 ^ 16 * (1 + 11962656472 / 10 ^ 11 * z)) := by
  obtain ⟨h1, h2⟩ := draws_snoc h
  have hs := sane_run h0 hZ es h1
  obtain ⟨d, u, p, tr, _⟩ := hs.up hu
  have hnn : ¬ nextDelay 1 z < 0 := not_lt.2 (draws_pos h0 hZ (h2 z (.inr ⟨t, rfl⟩)) (by norm_num))
  rw [backoff_run_snoc]
  simp only [Backoff.step, if_pos hu, if_pos tr, Backoff.retry, d, hnn, if_false]
  have hm : min (1 * retryFactor) retryMax = retryFactor := by norm_num [retryFactor, retryMax]
  simp only [nextDelay, hm]
  rfl

/-- C168: the wait before the next attempt grows with the number of attempts scheduled since the last connection, and at most to an hour,
up to the draws. -/
theorem C168_wait (Z : ℚ) (h0 : 0 ≤ Z) (hZ : 1 ≤ retryFactor * (1 - retryJitter * Z)) (es : List BackoffEvent) (e : BackoffEvent)
    (h : DrawsWithin Z (es ++ [e])) (due : ℚ) (hn : (Backoff.run {} es).due = none) (hd : (Backoff.run {} (es ++ [e])).due = some due) :
    let wait := due - (Backoff.run {} (es ++ [e])).now
    let n := streak {} 0 (es ++ [e])
    1 ≤ n ∧ min ((retryFactor * (1 - retryJitter * Z)) ^ n) (3600 * (1 - retryJitter * Z)) ≤ wait ∧ wait ≤ 3600 * (1 + retryJitter * Z) := by
  intro wait n
  have hs := sane_run h0 hZ _ h
  have hup : (Backoff.run {} (es ++ [e])).redirect.up = false := by
    by_contra hc
    have := (hs.up (by simpa using hc)).2.1
    rw [hd] at this
    simp at this
  have hn1 : 1 ≤ n := by
    show 1 ≤ streak {} 0 (es ++ [e])
    rw [streak_snoc, ← backoff_run_snoc, hup, hn, hd]
    simp
  have hw : wait = (Backoff.run {} (es ++ [e])).delay := by
    have hsame : ((Backoff.run {} es).step e).1.due = some due := by rw [← backoff_run_snoc]; exact hd
    show due - _ = _
    rw [backoff_run_snoc]
    generalize Backoff.run {} es = b at hn hsame
    have hretry : ∀ (b' : Backoff) (z : ℚ), b'.due = none → (b'.retry z).1.due = some due →
        due - (b'.retry z).1.now = (b'.retry z).1.delay := by
      intro b' z hb' hd'
      unfold Backoff.retry at hd' ⊢
      simp only at hd' ⊢
      split_ifs at hd' ⊢ with hlt
      · simp [hb'] at hd'
      · simp only [Option.some.injEq] at hd'
        simp only [← hd']
        ring
    cases e with
    | failed z =>
      simp only [Backoff.step] at hsame ⊢
      split_ifs at hsame ⊢ with c1 c2
      · exact hretry _ z hn hsame
      · simp [hn] at hsame
      · simp [hn] at hsame
    | lost t z =>
      simp only [Backoff.step] at hsame ⊢
      split_ifs at hsame ⊢ with c1 c2
      · exact hretry _ z hn hsame
      · simp [hn] at hsame
      · simp [hn] at hsame
    | connected =>
      simp only [Backoff.step] at hsame
      split_ifs at hsame <;> simp [hn] at hsame
    | wait dt => simp [Backoff.step, hn] at hsame
    | start => simp [Backoff.step, hn] at hsame
    | stop t => simp [Backoff.step, hn] at hsame
    | pause t => simp [Backoff.step, hn] at hsame
    | resume t => simp [Backoff.step, hn] at hsame
    | write l => simp [Backoff.step, hn] at hsame
  exact ⟨hn1, by rw [hw]; exact hs.low, by rw [hw]; exact hs.high⟩

/-- C168: a service that was started and not stopped is connected, or an attempt is under way, or one will be after an hour at most, up to
the draws. -/
theorem C168_next_partial (Z : ℚ) (h0 : 0 ≤ Z) (hZ : 1 ≤ retryFactor * (1 - retryJitter * Z)) (es : List BackoffEvent) (h : DrawsWithin Z es)
    (hst : ∀ t, BackoffEvent.stop t ∉ es) :
    let b := Backoff.run {} es
    b.redirect.running = true → b.redirect.up = true ∨ (b.redirect.pending = true ∧
      ∀ t, b.due = some t → b.now < t ∧ t ≤ b.now + 3600 * (1 + retryJitter * Z)) := by
  intro b hr
  have hs := sane_run h0 hZ es h
  obtain ⟨l, hl, he⟩ := C168_life Z h0 hZ es h
  have hns : ∀ t, LifeEvent.stop t ∉ l := by
    intro t ht
    obtain ⟨e, hem, hee⟩ := List.mem_filterMap.1 (hl.mem ht)
    cases e <;> simp [BackoffEvent.life] at hee
    subst hee
    exact hst _ hem
  have hb : b.redirect = Redirect.run {} l := he
  have hpers : (Redirect.run {} l).up = true ∨ (Redirect.run {} l).pending = true := C121_persists_partial l hns (hb ▸ hr)
  rw [← hb] at hpers
  rcases hpers with h | h
  · exact .inl h
  · refine .inr ⟨h, fun t ht => ?_⟩
    obtain ⟨a, c, _⟩ := hs.due t ht
    exact ⟨a, c⟩

/-- C168: a draw far enough below the mean makes the wait negative; the assertion of `callLater` fails, and nothing but a restart of the
service connects again. -/
theorem C168_stuck (b : Backoff) (z : ℚ) (hd : 0 < b.delay) (hz : 1 + retryJitter * z < 0) (hp : b.redirect.pending = true) (hn : b.due = none)
    (hu : b.redirect.up = false) (ht : b.redirect.trying = true) (after : List BackoffEvent) (ha : BackoffEvent.start ∉ after) :
    (b.step (.failed z)).2 = some .assertionError ∧ ((b.step (.failed z)).1.run after).redirect.up = false ∧
      ((b.step (.failed z)).1.run after).redirect.pending = false ∧ ((b.step (.failed z)).1.run after).due = none := by
  have hf := retryFactor_pos
  have hneg : nextDelay b.delay z < 0 := by
    unfold nextDelay
    exact mul_neg_of_pos_of_neg (lt_min (mul_pos hd (by linarith)) (by norm_num [retryMax])) hz
  have hstep : (b.step (.failed z)) = ({ b with delay := nextDelay b.delay z, redirect := { (b.redirect.step .failed).1 with pending := false } },
      some .assertionError) := by
    simp only [Backoff.step, hp, hn, and_self, if_true, ht, Backoff.retry, hneg]
  rw [hstep]
  refine ⟨rfl, ?_⟩
  have key : ∀ (es : List BackoffEvent) (c : Backoff), BackoffEvent.start ∉ es → c.redirect.up = false → c.redirect.pending = false →
      c.due = none → (c.run es).redirect.up = false ∧ (c.run es).redirect.pending = false ∧ (c.run es).due = none := by
    intro es
    induction es with
    | nil => intro c _ h1 h2 h3; exact ⟨h1, h2, h3⟩
    | cons e es ih =>
      intro c hs h1 h2 h3
      rw [backoff_run_cons]
      have hs' : BackoffEvent.start ∉ es := fun h => hs (List.mem_cons_of_mem _ h)
      obtain ⟨⟨run, try_, pend, up, proto, earl, cb, cl⟩, delay, now, due⟩ := c
      simp only at h1 h2 h3
      subst h1; subst h2; subst h3
      refine ih _ hs' ?_ ?_ ?_
      all_goals
        cases e with
        | start => exact absurd List.mem_cons_self hs
        | write l => cases proto <;> simp [Backoff.step, Redirect.step]
        | _ => simp [Backoff.step, Redirect.step]
  exact key after _ ha (by simp [Redirect.step, hu]) rfl hn

/-- C168 is false without a bound on the draws. -/
theorem C168_refuted : ¬ ∀ es : List BackoffEvent, (∀ t, BackoffEvent.stop t ∉ es) → (Backoff.run {} es).redirect.running = true →
    (Backoff.run {} es).redirect.up = true ∨ (Backoff.run {} es).redirect.pending = true := by
  intro h
  exact absurd (h [.start, .failed (-9)] (by simp) (by decide +kernel)) (by decide +kernel)

/-! ### Examples -/

/-- Draws of up to five standard deviations meet the hypotheses. -/
example : (0 : ℚ) ≤ 5 ∧ 1 ≤ retryFactor * (1 - retryJitter * 5) := by norm_num [retryFactor, retryJitter]

example : DrawsWithin 5 [.start, .failed 1, .wait 4, .connected, .lost 7 (-2)] := by
  intro e he z hz
  simp only [List.mem_cons, List.not_mem_nil, or_false] at he
  rcases he with rfl | rfl | rfl | rfl | rfl <;> simp at hz <;> subst hz <;> norm_num

example : (Backoff.run {} [.start, .failed 1, .wait 4, .connected]).redirect.up = true := by decide +kernel

example : (Backoff.run {} [.start, .failed 0, .wait 2]).due = some (27182818284590451 / 10 ^ 16) := by decide +kernel

example : streak {} 0 [.start, .failed 0, .wait 3, .failed 0, .wait 8, .failed 0] = 3 := by decide +kernel

example : 1 + retryJitter * (-9) < 0 := by norm_num [retryJitter]

end Txstatsd
