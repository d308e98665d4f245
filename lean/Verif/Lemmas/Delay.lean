import Verif.Spec.Delay
import Verif.Lemmas.Report
import Mathlib.Data.List.Induction

/-! Lemmas about the delay of an unresponsive reactor. -/

set_option linter.unusedVariables false

namespace Txstatsd
open Spec

theorem insp_pending (b : List (ℚ × InspAct)) : ∀ s : Insp, ∀ p ∈ (s.run b).pending, p ∈ s.pending ∨ (p.2, .request) ∈ b := by
  induction b with
  | nil => intro s p hp; exact .inl hp
  | cons e b ih =>
    intro s p hp
    obtain ⟨now, act⟩ := e
    rcases ih (s.step now act) p hp with h | h
    · cases act with
      | exec i =>
        left
        simp only [Insp.step, Insp.exec] at h
        split at h
        · exact h
        · exact List.mem_of_mem_eraseIdx h
      | request =>
        simp only [Insp.step] at h
        split at h
        · simp only [List.mem_append, List.mem_singleton] at h
          rcases h with h | rfl
          · exact .inl h
          · exact .inr (by simp)
        · exact .inl h
      | check =>
        left
        simp only [Insp.step, Insp.check] at h
        split at h
        · split at h
          · exact h
          · split at h
            · exact h
            · split at h <;> exact h
        · exact h
      | clean =>
        left
        simp only [Insp.step, Insp.clean] at h
        split at h
        · split at h <;> exact h
        · exact h
    · exact .inr (List.mem_cons_of_mem _ h)

/-- What is known after a run: in the emptying loop the answer is already logged. -/
structure SinceInv (t0 : ℚ) (evs : List (ℚ × InspAct)) : Prop where
  split : ∃ a b, evs = a ++ b ∧
    (a = [] ∧ (({ oldest := t0 } : Insp).run evs).oldest = t0 ∨
      ∃ a' act, a = a' ++ [((({ oldest := t0 } : Insp).run evs).oldest, act)] ∧ (act = .check ∨ act = .clean) ∧
        EndsAnswered (({ oldest := t0 } : Insp).run a).log) ∧
    (({ oldest := t0 } : Insp).run a).phase = .idle ∧
    ((({ oldest := t0 } : Insp).run evs).phase ≠ .cleaning →
      ∃ l, (({ oldest := t0 } : Insp).run evs).log = (({ oldest := t0 } : Insp).run a).log ++ l ∧ ∀ x ∈ l, Unanswered x)
  late : (({ oldest := t0 } : Insp).run evs).phase = .cleaning → EndsAnswered (({ oldest := t0 } : Insp).run evs).log

/-- A step that leaves the oldest request alone and logs nothing but missing answers. -/
theorem since_keep {t0 : ℚ} {evs : List (ℚ × InspAct)} (h : SinceInv t0 evs) (e : ℚ × InspAct)
    (ho : ((({ oldest := t0 } : Insp).run evs).step e.1 e.2).oldest = (({ oldest := t0 } : Insp).run evs).oldest)
    (hl : ∃ l, ((({ oldest := t0 } : Insp).run evs).step e.1 e.2).log = (({ oldest := t0 } : Insp).run evs).log ++ l ∧
      ∀ x ∈ l, Unanswered x)
    (hp : ((({ oldest := t0 } : Insp).run evs).step e.1 e.2).phase ≠ .cleaning → (({ oldest := t0 } : Insp).run evs).phase ≠ .cleaning)
    (hc : ((({ oldest := t0 } : Insp).run evs).step e.1 e.2).phase = .cleaning →
      EndsAnswered ((({ oldest := t0 } : Insp).run evs).step e.1 e.2).log) :
    SinceInv t0 (evs ++ [e]) := by
  have hr : ({ oldest := t0 } : Insp).run (evs ++ [e]) = (({ oldest := t0 } : Insp).run evs).step e.1 e.2 := by
    simp [Insp.run]
  obtain ⟨a, b, he, ha, hi, hs⟩ := h.split
  refine ⟨⟨a, b ++ [e], by rw [he]; simp, ?_, hi, fun hph => ?_⟩, fun hph => ?_⟩
  · rw [hr, ho]; exact ha
  · rw [hr] at hph ⊢
    obtain ⟨l1, h1, h1'⟩ := hs (hp hph)
    obtain ⟨l2, h2, h2'⟩ := hl
    refine ⟨l1 ++ l2, by rw [h2, h1, List.append_assoc], fun x hx => ?_⟩
    rcases List.mem_append.1 hx with hx | hx
    · exact h1' x hx
    · exact h2' x hx
  · rw [hr] at hph ⊢; exact hc hph

/-- A step at which the thread is done with an answer. -/
theorem since_reset {t0 : ℚ} {evs : List (ℚ × InspAct)} (e : ℚ × InspAct)
    (ho : ((({ oldest := t0 } : Insp).run evs).step e.1 e.2).oldest = e.1) (hact : e.2 = .check ∨ e.2 = .clean)
    (hi : ((({ oldest := t0 } : Insp).run evs).step e.1 e.2).phase = .idle)
    (hl : EndsAnswered ((({ oldest := t0 } : Insp).run evs).step e.1 e.2).log) :
    SinceInv t0 (evs ++ [e]) := by
  have hr : ({ oldest := t0 } : Insp).run (evs ++ [e]) = (({ oldest := t0 } : Insp).run evs).step e.1 e.2 := by
    simp [Insp.run]
  refine ⟨⟨evs ++ [e], [], by simp, .inr ⟨evs, e.2, ?_, hact, ?_⟩, ?_, fun _ => ⟨[], by simp, by simp⟩⟩, fun hph => ?_⟩
  · rw [hr, ho]
  · rw [hr]; exact hl
  · rw [hr]; exact hi
  · rw [hr, hi] at hph; cases hph

theorem since_run (t0 : ℚ) (evs : List (ℚ × InspAct)) : SinceInv t0 evs := by
  induction evs using List.reverseRecOn with
  | nil => exact ⟨⟨[], [], rfl, .inl ⟨rfl, rfl⟩, rfl, fun _ => ⟨[], by simp, by simp⟩⟩, fun h => by cases h⟩
  | append_singleton evs e ih =>
    obtain ⟨now, act⟩ := e
    have halive := (insp_inv t0 evs).alive
    have halive' := (insp_inv t0 (evs ++ [(now, act)])).alive
    have hr : ({ oldest := t0 } : Insp).run (evs ++ [(now, act)]) = (({ oldest := t0 } : Insp).run evs).step now act := by
      simp [Insp.run]
    rw [hr] at halive'
    have hlate := ih.late
    have hsame : (({ oldest := t0 } : Insp).run evs).step now act = ({ oldest := t0 } : Insp).run evs → SinceInv t0 (evs ++ [(now, act)]) :=
      fun h => since_keep ih _ (by simp only [h]) ⟨[], by simp only [h]; simp, by simp⟩ (by simp only [h]; exact id)
        (by simp only [h]; exact hlate)
    cases act with
    | exec i =>
      cases hp : (({ oldest := t0 } : Insp).run evs).pending[i]? with
      | none => exact hsame (by simp only [Insp.step, Insp.exec, hp])
      | some p =>
        refine since_keep ih _ ?_ ⟨[], ?_, by simp⟩ ?_ ?_ <;> simp only [Insp.step, Insp.exec, hp]
        · simp
        · exact id
        · exact hlate
    | request =>
      by_cases hc : (({ oldest := t0 } : Insp).run evs).failed = false ∧ (({ oldest := t0 } : Insp).run evs).phase = .idle
      · refine since_keep ih _ ?_ ⟨[], ?_, by simp⟩ ?_ ?_ <;> simp only [Insp.step, if_pos hc]
        · simp
        · intro _; rw [hc.2]; decide
        · intro h; cases h
      · exact hsame (by simp only [Insp.step, if_neg hc])
    | check =>
      by_cases hc : (({ oldest := t0 } : Insp).run evs).failed = false ∧ (({ oldest := t0 } : Insp).run evs).phase = .asleep
      · have hstep : (({ oldest := t0 } : Insp).run evs).step now .check = (({ oldest := t0 } : Insp).run evs).check now := by
          simp only [Insp.step, if_pos hc]
        cases hq : (({ oldest := t0 } : Insp).run evs).queue with
        | nil =>
          refine since_keep ih _ ?_ ⟨[.unresponsive (({ oldest := t0 } : Insp).run evs).msgId (now - (({ oldest := t0 } : Insp).run evs).oldest)], ?_,
            fun x hx => by rw [List.mem_singleton] at hx; subst hx; trivial⟩ ?_ ?_ <;> simp only [hstep, Insp.check, hq]
          · intro _; rw [hc.2]; decide
          · intro h; cases h
        | cons p rest =>
          obtain ⟨id, tini, tsent⟩ := p
          by_cases h1 : (({ oldest := t0 } : Insp).run evs).msgId > id
          · have hs : (({ oldest := t0 } : Insp).run evs).step now .check =
                { ({ oldest := t0 } : Insp).run evs with
                    queue := rest
                    log := (({ oldest := t0 } : Insp).run evs).log ++ [.late (({ oldest := t0 } : Insp).run evs).msgId id (tsent - tini)]
                    phase := .cleaning } := by
              rw [hstep]; simp only [Insp.check, hq, if_pos h1]
            obtain ⟨a, b, he, ha, hi, hsil⟩ := ih.split
            refine ⟨⟨a, b ++ [(now, .check)], by rw [he]; simp, ?_, hi, fun hph => ?_⟩, fun hph => ?_⟩
            · rw [hr, hs]; exact ha
            · rw [hr, hs] at hph; exact absurd rfl hph
            · rw [hr, hs]; exact ⟨_, _, rfl, fun h => h⟩
          · by_cases h2 : (({ oldest := t0 } : Insp).run evs).msgId = id
            · refine since_reset _ ?_ (.inl rfl) ?_ ?_ <;> simp only [hstep, Insp.check, hq, if_neg h1, if_pos h2]
              exact ⟨_, _, rfl, fun h => h⟩
            · rw [hstep] at halive'
              simp only [Insp.check, hq, if_neg h1, if_neg h2] at halive'
              cases halive'
      · exact hsame (by simp only [Insp.step, if_neg hc])
    | clean =>
      by_cases hc : (({ oldest := t0 } : Insp).run evs).failed = false ∧ (({ oldest := t0 } : Insp).run evs).phase = .cleaning
      · have hstep : (({ oldest := t0 } : Insp).run evs).step now .clean = (({ oldest := t0 } : Insp).run evs).clean now := by
          simp only [Insp.step, if_pos hc]
        cases hq : (({ oldest := t0 } : Insp).run evs).queue with
        | nil =>
          refine since_reset _ ?_ (.inr rfl) ?_ ?_ <;> simp only [hstep, Insp.clean, hq]
          exact hlate hc.2
        | cons p rest =>
          refine since_keep ih _ ?_ ⟨[], ?_, by simp⟩ ?_ ?_ <;> simp only [hstep, Insp.clean, hq]
          · simp
          · exact id
          · exact hlate
      · exact hsame (by simp only [Insp.step, if_neg hc])

end Txstatsd
