import Verif.Lemmas.Delay

/-!
# C90: what the delay of an unresponsive reactor is counted from
-/

set_option linter.unusedVariables false

namespace Txstatsd
open Spec

/-- C90, in every run: an inspector that finds no answer logs the time since it was last done with an answer (or began), whether that
answer was late or not. Everything it logged from then on is that there was no answer. -/
theorem C90_since (t0 t : ℚ) (evs : List (ℚ × InspAct)) (hq : (({ oldest := t0 } : Insp).run evs).queue = [])
    (hp : (({ oldest := t0 } : Insp).run evs).phase = .asleep) :
    ∃ a b since, evs = a ++ b ∧ AnsweredAt t0 a b since ∧
      (({ oldest := t0 } : Insp).run (evs ++ [(t, .check)])).log =
        (({ oldest := t0 } : Insp).run evs).log ++ [.unresponsive (({ oldest := t0 } : Insp).run evs).msgId (t - since)] := by
  obtain ⟨a, b, he, ha, hi, hs⟩ := (since_run t0 evs).split
  obtain ⟨l, hl, hu⟩ := hs (by rw [hp]; decide)
  refine ⟨a, b, (({ oldest := t0 } : Insp).run evs).oldest, he, ⟨ha, hi, l, by rw [← he]; exact hl, hu⟩, ?_⟩
  rw [insp_run_append]
  show ((({ oldest := t0 } : Insp).run evs).step t .check).log = _
  rw [Insp.step, if_pos ⟨(insp_inv t0 evs).alive, hp⟩]
  unfold Insp.check
  rw [hq]

/-- C90: so with a clock that does not go back the delay covers every outstanding probe requested since that answer, and is at most the
age of every one that was already outstanding then. -/
theorem C90_ages (t0 t since : ℚ) (a b : List (ℚ × InspAct)) (ha : AnsweredAt t0 a b since)
    (hc : List.IsChain (· ≤ ·) (t0 :: (a ++ b).map (·.1))) :
    ∀ p ∈ (({ oldest := t0 } : Insp).run (a ++ b)).pending,
      (p ∉ (({ oldest := t0 } : Insp).run a).pending → t - p.2 ≤ t - since) ∧
      (p ∈ (({ oldest := t0 } : Insp).run a).pending → t - since ≤ t - p.2) := by
  intro p hp
  have hpw := List.isChain_iff_pairwise.1 hc
  constructor
  · intro hn
    rw [insp_run_append] at hp
    have hb := (insp_pending b _ p hp).resolve_left hn
    have hle : since ≤ p.2 := by
      rcases ha.answer with ⟨rfl, rfl⟩ | ⟨a', act, rfl, _⟩
      · exact (List.pairwise_cons.1 hpw).1 _ (List.mem_map.2 ⟨_, List.mem_append_right _ hb, rfl⟩)
      · have h2 := (List.pairwise_cons.1 hpw).2
        rw [List.map_append, List.pairwise_append] at h2
        exact h2.2.2 _ (by simp) _ (List.mem_map.2 ⟨_, hb, rfl⟩)
    linarith
  · intro hin
    have hle : p.2 ≤ since := by
      rcases ha.answer with ⟨rfl, rfl⟩ | ⟨a', act, rfl, hact, _⟩
      · cases hin
      · have hm := (insp_pending _ _ p hin).resolve_left (by simp)
        have h2 := (List.pairwise_cons.1 hpw).2
        rw [List.map_append, List.pairwise_append, List.map_append, List.pairwise_append] at h2
        rcases List.mem_append.1 hm with hm | hm
        · exact h2.1.2.2 _ (List.mem_map.2 ⟨_, hm, rfl⟩) _ (by simp)
        · simp only [List.mem_singleton, Prod.mk.injEq] at hm
          exact le_of_eq hm.1
    linarith

/-- The run of `C90_refuted`: the delay is counted from the late answer at 6, the probe of 3 is older, that of 6 is covered. -/
example : AnsweredAt 0 [(0, .request), (3, .check), (3, .request), (4, .exec 0), (6, .check), (6, .clean)] [(6, .request)] 6 where
  answer := .inr ⟨[(0, .request), (3, .check), (3, .request), (4, .exec 0), (6, .check)], .clean, rfl, .inr rfl,
    [.unresponsive 0 3], .late 1 0 4, by decide +kernel, fun h => h⟩
  idle := by decide +kernel
  silent := ⟨[], by decide +kernel, by simp⟩

example : (({ oldest := 0 } : Insp).run
      [(0, .request), (3, .check), (3, .request), (4, .exec 0), (6, .check), (6, .clean), (6, .request)]).queue = [] ∧
    (({ oldest := 0 } : Insp).run
      [(0, .request), (3, .check), (3, .request), (4, .exec 0), (6, .check), (6, .clean), (6, .request)]).phase = .asleep ∧
    (({ oldest := 0 } : Insp).run
      [(0, .request), (3, .check), (3, .request), (4, .exec 0), (6, .check), (6, .clean), (6, .request)]).pending = [(1, 3), (2, 6)] := by
  decide +kernel

end Txstatsd
