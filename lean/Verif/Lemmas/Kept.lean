import Verif.Spec.Kept
import Verif.Lemmas.CounterFlush
import Verif.Lemmas.Timer
import Verif.Lemmas.Distinct

set_option linter.unusedSectionVars false
set_option linter.unusedSimpArgs false
set_option linter.unusedVariables false

/-!
# Lemmas for C174
-/

namespace Txstatsd
open Spec
section
variable [Rounding] {C T G PF PM : Type}

theorem kept_sublist (l : List Datapoint) : (carbonKeeps l).Sublist l := by
  induction l with
  | nil => exact List.Sublist.slnil
  | cons d l ih =>
    rw [carbonKeeps]
    split_ifs
    · exact List.Sublist.cons _ ih
    · exact List.Sublist.cons_cons _ ih

/-- Nothing of a name is lost if its timestamps differ. -/
theorem kept_named {P : Str → Bool} {l : List Datapoint}
    (h : ((l.filter fun d => P d.name).map fun d => (d.name, d.ts)).Nodup) :
    (carbonKeeps l).filter (fun d => P d.name) = l.filter fun d => P d.name := by
  induction l with
  | nil => rfl
  | cons d l ih =>
    rw [carbonKeeps]
    cases hd : P d.name with
    | false =>
      rw [List.filter_cons_of_neg (by simp [hd])] at h
      rw [List.filter_cons_of_neg (l := l) (by simp [hd])]
      split_ifs
      · exact ih h
      · rw [List.filter_cons_of_neg (by simp [hd])]; exact ih h
    | true =>
      rw [List.filter_cons_of_pos (by simp [hd]), List.map_cons, List.nodup_cons] at h
      have hn : ¬ ∃ e ∈ l, e.name = d.name ∧ e.ts = d.ts := by
        rintro ⟨e, he, h1, h2⟩
        refine h.1 (List.mem_map.2 ⟨e, List.mem_filter.2 ⟨he, by simp [h1, hd]⟩, by simp [h1, h2]⟩)
      rw [if_neg hn, List.filter_cons_of_pos (by simp [hd]), List.filter_cons_of_pos (by simp [hd]), ih h.2]

theorem kept_all {l : List Datapoint} (h : (l.map fun d => (d.name, d.ts)).Nodup) : carbonKeeps l = l := by
  have := kept_named (P := fun _ => true) (l := l) (by simpa using h)
  simpa using this

theorem truncQ_apart {x y : ℚ} (hx : 0 ≤ x) (h : x + 1 ≤ y) : truncQ x < truncQ y := by
  have hy : 0 ≤ y := by linarith
  unfold truncQ
  rw [if_pos hx, if_pos hy]
  have := Int.floor_le_floor h
  rw [Int.floor_add_one] at this
  omega

theorem apart_snoc {I : Impl C T G PF PM} {w : World} {s : PS C T G PF PM} {os : List Op} {o : Op}
    (h : FlushesApart I w s (os ++ [o])) : FlushesApart I w s os := by
  intro a b c i p i' p' e
  exact h a b (c ++ [o]) i p i' p' (by rw [e]; simp)

theorem complete_snoc {I : Impl C T G PF PM} {w : World} {s : PS C T G PF PM} {os : List Op} {o : Op}
    (h : AllComplete I w s (os ++ [o])) : AllComplete I w s os := by
  intro a c i p e
  exact h a (c ++ [o]) i p (by rw [e]; simp)

/-- What a flush says about the chosen names has distinct names and the flush's timestamp; flushes are apart. Then nothing is said twice
about a name and a timestamp. -/
theorem kept_run {I : Impl C T G PF PM} {w : World} {s : PS C T G PF PM} (P : Str → Bool) (hc : ∀ n, 0 ≤ w.clk n) :
    ∀ os : List Op, FlushesApart I w s os →
    (∀ a c i p, os = a ++ Op.flush i p :: c → (((flush I w i p (runOps I w s a).1).2.1.filter fun d => P d.name).map fun d => d.name).Nodup ∧
      ∀ d ∈ (flush I w i p (runOps I w s a).1).2.1, P d.name = true → d.ts = truncQ (w.clk (runOps I w s a).1.ticks)) →
    (((runOps I w s os).2.filter fun d => P d.name).map fun d => (d.name, d.ts)).Nodup ∧
    ∀ d ∈ (runOps I w s os).2, P d.name = true → ∃ a c i p, os = a ++ Op.flush i p :: c ∧ d.ts = truncQ (w.clk (runOps I w s a).1.ticks) := by
  intro os
  induction os using List.reverseRecOn with
  | nil => intro _ _; exact ⟨by simp [runOps], by simp [runOps]⟩
  | append_singleton os o ih =>
    intro ha hf
    obtain ⟨h1, h2⟩ := ih (apart_snoc ha) (fun a c i p e => hf a (c ++ [o]) i p (by rw [e]; simp))
    have h2' : ∀ d ∈ (runOps I w s os).2, P d.name = true →
        ∃ a c i p, os ++ [o] = a ++ Op.flush i p :: c ∧ d.ts = truncQ (w.clk (runOps I w s a).1.ticks) := by
      intro d hd hp
      obtain ⟨a, c, i, p, e, ht⟩ := h2 d hd hp
      exact ⟨a, c ++ [o], i, p, by rw [e]; simp, ht⟩
    rw [runOps_snoc]
    cases o with
    | msg m => exact ⟨h1, h2'⟩
    | flush i p =>
      obtain ⟨g1, g2⟩ := hf os [] i p rfl
      simp only [Op.apply]
      constructor
      · rw [List.filter_append, List.map_append, List.nodup_append]
        refine ⟨h1, ?_, ?_⟩
        · refine List.Nodup.of_map Prod.fst ?_
          rw [List.map_map]
          exact g1
        · intro x hx y hy e
          subst e
          obtain ⟨d, hd, rfl⟩ := List.mem_map.1 hx
          obtain ⟨d', hd', e⟩ := List.mem_map.1 hy
          obtain ⟨hd, hp⟩ := List.mem_filter.1 hd
          obtain ⟨hd', hp'⟩ := List.mem_filter.1 hd'
          simp only [Prod.mk.injEq] at e
          obtain ⟨a, c, i0, p0, e0, ht⟩ := h2 d hd hp
          have ht' := g2 d' hd' hp'
          have := ha a c [] i0 p0 i p (by rw [e0]; simp)
          rw [← e0] at this
          have := truncQ_apart (hc _) this
          rw [← ht, ← ht', e.2] at this
          exact lt_irrefl _ this
      · intro d hd hp
        rcases List.mem_append.1 hd with hd | hd
        · exact h2' d hd hp
        · exact ⟨os, [], i, p, rfl, g2 d hd hp⟩

end
end Txstatsd
