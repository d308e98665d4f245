import Verif.Lemmas.DecayChance
import Mathlib.Analysis.Complex.ExponentialBounds

/-!
# C154: newer values are likelier to be in a decaying sample
-/

namespace Txstatsd
open Spec MeasureTheory

variable {V : Type} [LinearOrder V] {m : ℕ}

/-- The draws are certain to be in the cube: chances are probabilities. -/
theorem C154_certain : chance (Set.univ : Set (Fin m → ℝ)) = 1 := chance_all

/-- C154: of two different values offered, the newer one is at least as likely to be held as the older one, whatever else was offered
and in whatever order. -/
theorem C154_newer (n : ℕ) (al : ℝ) (h0 : 0 ≤ al) (t1 t2 : ℝ) (v : Fin m → V) (hv : Function.Injective v) (t : Fin m → ℝ) (i j : Fin m)
    (ht : t i ≤ t j) :
    chance {u | v i ∈ ((ExpDecay.init n al t1 t2 : ExpDecay ℝ V).runOps realExp (offers v t u)).getValues} ≤
    chance {u | v j ∈ ((ExpDecay.init n al t1 t2 : ExpDecay ℝ V).runOps realExp (offers v t u)).getValues} :=
  chance_newer al n t1 t2 v hv t i j (mul_le_mul_of_nonneg_left ht h0)

/-- C154: values of the same time are equally likely to be held, whatever the order in which they were offered. -/
theorem C154_equal (n : ℕ) (al : ℝ) (t1 t2 : ℝ) (v : Fin m → V) (hv : Function.Injective v) (t : Fin m → ℝ) (i j : Fin m)
    (ht : t i = t j) :
    chance {u | v i ∈ ((ExpDecay.init n al t1 t2 : ExpDecay ℝ V).runOps realExp (offers v t u)).getValues} =
    chance {u | v j ∈ ((ExpDecay.init n al t1 t2 : ExpDecay ℝ V).runOps realExp (offers v t u)).getValues} :=
  le_antisymm (chance_newer al n t1 t2 v hv t i j (by rw [ht])) (chance_newer al n t1 t2 v hv t j i (by rw [ht]))

/-- C154: once `n` values (as many as fit) have been offered that are newer by `d` seconds, the chance that the old value is still held
is at most `exp(-alpha * d)`. -/
theorem C154_decay (n : ℕ) (al : ℝ) (h0 : 0 ≤ al) (t1 t2 : ℝ) (v : Fin m → V) (hv : Function.Injective v) (t : Fin m → ℝ) (i : Fin m)
    (d : ℝ) (hd : 0 < d) (hY : n ≤ Fintype.card {k : Fin m // t i + d ≤ t k}) :
    chance {u | v i ∈ ((ExpDecay.init n al t1 t2 : ExpDecay ℝ V).runOps realExp (offers v t u)).getValues} ≤
      ENNReal.ofReal (Real.exp (-(al * d))) := by
  refine le_trans (chance_mono ?_) (chance_draw i _ (Real.exp_pos _).le)
  intro u hu h
  refine old_draw al h0 n t1 t2 v hv t u hu i d hd.le (Finset.univ.filter fun k => t i + d ≤ t k) ?_ ?_ h
  · rwa [Fintype.card_subtype] at hY
  · intro k hk
    have := (Finset.mem_filter.1 hk).2
    refine ⟨?_, this⟩
    rintro rfl
    linarith

/-- C154: with the factor and the size that histograms use, a value is held with a chance of at most 1.2 percent once as many values as
fit are newer by five minutes. -/
theorem C154_five_minutes (t1 t2 : ℝ) (v : Fin m → V) (hv : Function.Injective v) (t : Fin m → ℝ) (i : Fin m)
    (hY : 1028 ≤ Fintype.card {k : Fin m // t i + 300 ≤ t k}) :
    chance {u | v i ∈ ((ExpDecay.init 1028 (15 / 1000) t1 t2 : ExpDecay ℝ V).runOps realExp (offers v t u)).getValues} ≤
      ENNReal.ofReal (12 / 1000) := by
  refine (C154_decay 1028 (15 / 1000) (by norm_num) t1 t2 v hv t i 300 (by norm_num) hY).trans (ENNReal.ofReal_le_ofReal ?_)
  have h1 : (2.7 : ℝ) < Real.exp 1 := lt_trans (by norm_num) Real.exp_one_gt_d9
  have h2 : (2.7 : ℝ) ^ 9 ≤ Real.exp 1 ^ 9 := pow_le_pow_left₀ (by norm_num) h1.le 9
  have h3 : Real.exp 1 ^ 9 = Real.exp (9 / 2) ^ 2 := by
    rw [← Real.exp_nat_mul, ← Real.exp_nat_mul]; norm_num
  have h4 : (1000 / 12 : ℝ) ≤ Real.exp (9 / 2) := by
    refine le_of_sq_le_sq ?_ (Real.exp_pos _).le
    rw [← h3]
    exact le_trans (by norm_num) h2
  have e : -((15 / 1000 : ℝ) * 300) = -(9 / 2) := by norm_num
  rw [e, Real.exp_neg, ← one_div, div_le_iff₀ (Real.exp_pos _)]
  linarith

/-- C154: of two values, a sample for one holds the older one with a chance of exactly half of `exp(-alpha * d)`, where `d` is how much
older it is. -/
theorem C154_two (al : ℝ) (h0 : 0 ≤ al) (t1 t2 : ℝ) (v : Fin 2 → V) (hv : Function.Injective v) (t : Fin 2 → ℝ) (ht : t 0 ≤ t 1) :
    chance {u | v 0 ∈ ((ExpDecay.init 1 al t1 t2 : ExpDecay ℝ V).runOps realExp (offers v t u)).getValues} =
      ENNReal.ofReal (Real.exp (-(al * (t 1 - t 0))) / 2) :=
  chance_two al t1 t2 v hv t (mul_le_mul_of_nonneg_left ht h0)

/-- Two values five minutes apart. -/
example : Function.Injective (fun k : Fin 2 => k.val) ∧ (fun k : Fin 2 => (300 * k.val : ℝ)) 0 ≤ (fun k : Fin 2 => (300 * k.val : ℝ)) 1 :=
  ⟨Fin.val_injective, by norm_num⟩

/-- An old value and 1028 values that are five minutes newer. -/
example : Function.Injective (fun k : Fin 1029 => k.val) ∧
    1028 ≤ Fintype.card {k : Fin 1029 // (fun k : Fin 1029 => if k = 0 then (0 : ℝ) else 300) 0 + 300 ≤
      (fun k : Fin 1029 => if k = 0 then (0 : ℝ) else 300) k} := by
  refine ⟨Fin.val_injective, ?_⟩
  rw [Fintype.card_subtype]
  have : (Finset.univ.erase (0 : Fin 1029)) ⊆ Finset.univ.filter fun k : Fin 1029 =>
      (fun k : Fin 1029 => if k = 0 then (0 : ℝ) else 300) 0 + 300 ≤ (fun k : Fin 1029 => if k = 0 then (0 : ℝ) else 300) k := by
    intro k hk
    have := Finset.ne_of_mem_erase hk
    simp [this]
  refine le_trans ?_ (Finset.card_le_card this)
  rw [Finset.card_erase_of_mem (Finset.mem_univ _), Finset.card_univ, Fintype.card_fin]

end Txstatsd
