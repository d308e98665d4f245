import Verif.Lemmas.DecayFloat
import Verif.Lemmas.DoubleFlow
import Verif.Props.Doubles
import Verif.Props.DecayFloat
import Verif.Spec.DecayFloat

set_option linter.unusedSectionVars false
set_option linter.unusedSimpArgs false
set_option linter.unusedVariables false

/-!
# Lemmas about histograms over decaying samples
-/

namespace Txstatsd
open Spec

/-- The call on a uniform histogram that corresponds. -/
def FDecayOp.uniform : FDecayOp → StreamOp PyFloat
  | .update v _ _ => .update 0 v
  | .clear _ _ => .clear

theorem decayValues_uniform (ops : List FDecayOp) : streamValues (ops.map FDecayOp.uniform) = decayValues ops := by
  unfold streamValues decayValues
  rw [List.foldl_map]
  congr 1
  funext acc o
  cases o <;> rfl

/-- A histogram without its sample. -/
def Histogram.bare (h : Histogram) : Histogram := { h with sample := UniformSample.init (.fin 0) 0 }

theorem bare_init (n : Nat) : (Histogram.init 0).bare = (Histogram.init n).bare := rfl

section
variable [Rounding]

theorem bare_updateVariance {h : Histogram} {s : UniformSample PyFloat} (v : PyFloat) :
    (({ h with sample := s } : Histogram).updateVariance v).bare = (h.updateVariance v).bare := by
  unfold Histogram.updateVariance
  split_ifs <;> rfl

theorem bare_update (h h' : Histogram) (e : h.bare = h'.bare) (draw : Nat) (v : PyFloat) :
    (({ ({ h with count := h.count + 1 } : Histogram).setMax v |>.setMin v with
        sum := (({ h with count := h.count + 1 } : Histogram).setMax v |>.setMin v).sum.add (.flt v) } : Histogram).updateVariance
      v).bare = (h'.update draw v).bare := by
  obtain ⟨s, c, mx, mn, sm, vm, vs⟩ := h
  obtain ⟨s', c', mx', mn', sm', vm', vs'⟩ := h'
  simp only [Histogram.bare, Histogram.mk.injEq, true_and] at e
  obtain ⟨rfl, rfl, rfl, rfl, rfl, rfl⟩ := e
  by_cases hv : vm = .fin (-1) <;> cases mx <;> cases mn <;>
    simp [Histogram.update, Histogram.setMax, Histogram.setMin, Histogram.max, Histogram.min, Histogram.updateVariance,
      Histogram.bare, hv]

variable [Ieee] [FloatExp] [ExpLaws]

/-- A histogram over a decaying sample holds the numbers of one over a uniform sample. -/
theorem decay_bare {n : Nat} (h1n : 1 ≤ n) {al : ℚ} (ha0 : 0 ≤ al) (ha1 : al ≤ 1) (ops : List FDecayOp) (ho : Sensible ops)
    {h : DecayHistogram} {a : Aging} (hk : Keeps n (.fin al) h.sample a) {u : Histogram} (hu : h.nums.bare = u.bare) :
    (h.runOps ops).sample = h.sample.runOps ops ∧ (h.runOps ops).nums.bare = (u.runOps (ops.map FDecayOp.uniform)).bare := by
  induction ops generalizing h a u with
  | nil => exact ⟨rfl, hu⟩
  | cons o ops ih =>
    have ho' := ho o (by simp)
    have hrest : Sensible ops := fun o h => ho o (by simp [h])
    cases o with
    | clear t1 t2 =>
      refine ih hrest (h := h.clear t1 t2) (keeps_clear hk.size hk.alpha ho') (u := u.clear) ?_
      rfl
    | update v t d =>
      obtain ⟨k1, k2⟩ := keeps_update h1n ha0 ha1 hk ho'.1 ho'.2 v
      have e : (h.update v t d).1.sample = (h.sample.update v t d).1 ∧
          (h.update v t d).1.nums.bare = (u.update 0 v).bare := by
        unfold DecayHistogram.update
        cases hs : h.sample.update v t d with
        | mk s' err =>
          rw [hs] at k1
          simp only at k1
          subst k1
          exact ⟨rfl, bare_update h.nums u hu 0 v⟩
      have := ih hrest (h := (h.update v t d).1) (by rw [e.1]; exact k2) (u := u.update 0 v) e.2
      rw [e.1] at this
      exact this

omit [Ieee] [FloatExp] [ExpLaws] in
theorem bare_numbers {h u : Histogram} (e : h.bare = u.bare) :
    h.count = u.count ∧ h.max = u.max ∧ h.min = u.min ∧ h.mean = u.mean ∧ h.getVariance = u.getVariance ∧ h.stdDev = u.stdDev := by
  obtain ⟨s, c, mx, mn, sm, vm, vs⟩ := h
  obtain ⟨s', c', mx', mn', sm', vm', vs'⟩ := u
  simp only [Histogram.bare, Histogram.mk.injEq, true_and] at e
  obtain ⟨rfl, rfl, rfl, rfl, rfl, rfl⟩ := e
  exact ⟨rfl, rfl, rfl, rfl, rfl, rfl⟩

omit [FloatExp] [ExpLaws] in
/-- The scores of values that are doubles and not negative. -/
theorem scores_of (held : List ℚ) (hne : held ≠ []) (hd : ∀ q ∈ held, 0 ≤ q ∧ rnd q = .fin q) :
    ∃ score : ℚ → ℚ, (∀ ps : List ℚ, ps.mapM (Histogram.percentile (sortFloats (held.map .fin))) = .ok (ps.map fun p => .fin (score p))) ∧
      (∀ p, ∃ a ∈ held, ∃ b ∈ held, a ≤ score p ∧ score p ≤ b) ∧ (∀ p p', p ≤ p' → score p ≤ score p') := by
  have hs := Histogram.sorted_mergeSort held
  have hp := List.mergeSort_perm held (fun a b => decide (a ≤ b))
  rw [Histogram.sortFloats_fin held]
  generalize held.mergeSort (fun a b => decide (a ≤ b)) = rs at *
  have hrne : rs ≠ [] := by rintro rfl; exact hne (List.perm_nil.1 hp.symm)
  have hrl : 0 < rs.length := List.length_pos_iff.2 hrne
  have hmem : ∀ i, i < rs.length → rs.getD i 0 ∈ held := by
    intro i hi
    rw [← hp.mem_iff, List.getD_eq_getElem?_getD, List.getElem?_eq_getElem hi]
    exact List.getElem_mem hi
  have hr : ∀ x ∈ rs, 0 ≤ x ∧ rnd x = .fin x := fun x hx => hd x (hp.mem_iff.1 hx)
  have hsc := fun p => Histogram.percentile_score rs hrne hs hr p
  choose score h1 _ h3 h4 using hsc
  refine ⟨score, ?_, ?_, ?_⟩
  · intro ps
    induction ps with
    | nil => rfl
    | cons p ps ih =>
      simp only [List.mapM_cons, h1] at ih ⊢
      rw [ih]; rfl
  · intro p
    exact ⟨_, hmem 0 hrl, _, hmem (rs.length - 1) (by omega), h3 p, h4 p⟩
  · intro p p' hpp
    exact Histogram.score_mono_pos rs hrne hs hr hpp (h1 p) (h1 p')

/-- `alpha` of a histogram, as the double it is. -/
theorem alpha_double : ∃ al : ℚ, rnd (15 / 1000) = .fin al ∧ 0 ≤ al ∧ al ≤ 1 :=
  rnd_between rnd_zero (by simpa using rnd_int (z := 1) (by norm_num)) (by norm_num) (by norm_num)

end
end Txstatsd
