import Verif.Spec.DecayChance
import Verif.Lemmas.ExpDecay
import Mathlib.MeasureTheory.Measure.Lebesgue.EqHaar
import Mathlib.MeasureTheory.Constructions.Pi
import Mathlib.MeasureTheory.Measure.Lebesgue.Integral
import Mathlib.Analysis.SpecialFunctions.Integrals.Basic

set_option linter.unusedSectionVars false
set_option linter.unusedSimpArgs false
set_option linter.unusedVariables false

/-!
# Lemmas about the chances of a decaying sample
-/

namespace Txstatsd
open Spec MeasureTheory

variable {V : Type} [LinearOrder V] {m : ℕ}

theorem offers_ok (v : Fin m → V) (t u : Fin m → ℝ) (hu : u ∈ cube m) : DrawsOk (offers v t u) := by
  intro a b d h
  obtain ⟨k, hk⟩ := (List.mem_ofFn' _ _).1 h
  simp only [DecayOp.update.injEq] at hk
  rw [← hk.2.2]
  exact (hu k).1.le

theorem weighted_append {K : Type} [Field K] [LinearOrder K] (E : ExpFn K) (alpha : K) (l : List (DecayOp K V)) (v : V) (t d : K) (hd : d ≠ 0) :
    weighted E alpha (l ++ [.update v t d]) = weighted E alpha l ++ [(E.exp (alpha * t) / d, v)] := by
  unfold weighted
  rw [List.foldl_append]
  simp [hd]

theorem weighted_offers (al : ℝ) (v : Fin m → V) (t u : Fin m → ℝ) (hu : u ∈ cube m) :
    weighted realExp al (offers v t u) = List.ofFn fun k => (Real.exp (al * t k) / u k, v k) := by
  have key : ∀ l : List (Fin m), weighted realExp al (l.map fun k => DecayOp.update (v k) (t k) (u k)) =
      l.map fun k => (Real.exp (al * t k) / u k, v k) := by
    intro l
    induction l using List.reverseRecOn with
    | nil => rfl
    | append_singleton l k ih =>
      rw [List.map_append, List.map_append, List.map_singleton, List.map_singleton,
        weighted_append _ _ _ _ _ _ (hu k).1.ne', ih]
      rfl
  unfold offers
  rw [List.ofFn_eq_map, List.ofFn_eq_map]
  exact key _

/-- The priority of value `k` seen from time 0. -/
noncomputable def pri (al : ℝ) (t u : Fin m → ℝ) (k : Fin m) : ℝ := Real.exp (al * t k) / u k

/-- What is held, as a set of indices: the rest has lower priorities, and it is as large as it can be. -/
theorem held_set (al : ℝ) (n : ℕ) (t1 t2 : ℝ) (v : Fin m → V) (hv : Function.Injective v) (t u : Fin m → ℝ) (hu : u ∈ cube m) :
    ∃ S : Finset (Fin m), (∀ k, k ∈ S ↔ v k ∈ ((ExpDecay.init n al t1 t2 : ExpDecay ℝ V).runOps realExp (offers v t u)).getValues) ∧
      S.card = min n m ∧ ∀ a ∉ S, ∀ b ∈ S, pri al t u a ≤ pri al t u b := by
  obtain ⟨h1, h2, h3⟩ := ExpDecay.tracks_run realExp n al t1 t2 (offers v t u) (offers_ok v t u hu)
  obtain ⟨g1, g2, dr, g3, g4⟩ := ExpDecay.ideal_top n (weighted realExp al (offers v t u))
  set held := ExpDecay.idealRun n (weighted realExp al (offers v t u)) with hheld
  have hval : ((ExpDecay.init n al t1 t2 : ExpDecay ℝ V).runOps realExp (offers v t u)).getValues = held.map Prod.snd := by
    unfold ExpDecay.getValues
    rw [h3.vals]
    simp [ExpDecay.scale, hheld]
  rw [hval]
  rw [weighted_offers al v t u hu] at g2 g3
  have hnd : ((held ++ dr).map Prod.snd).Nodup := by
    refine ((g3.map Prod.snd).nodup_iff).2 ?_
    rw [List.map_ofFn]
    exact List.nodup_ofFn.2 hv
  rw [List.map_append] at hnd
  refine ⟨Finset.univ.filter fun k => v k ∈ held.map Prod.snd, by simp, ?_, ?_⟩
  · rw [List.length_ofFn] at g2
    rw [← g2, ← List.length_map (f := Prod.snd), ← List.toFinset_card_of_nodup (List.Nodup.of_append_left hnd)]
    refine Finset.card_bij (fun k _ => v k) ?_ ?_ ?_
    · intro k hk
      simpa using hk
    · intro a _ b _ h
      exact hv h
    · intro x hx
      rw [List.mem_toFinset, List.mem_map] at hx
      obtain ⟨p, hp, rfl⟩ := hx
      have : p ∈ List.ofFn fun k => (Real.exp (al * t k) / u k, v k) := g3.subset (by simp [hp])
      obtain ⟨k, rfl⟩ := (List.mem_ofFn' _ _).1 this
      exact ⟨k, by simpa using ⟨_, hp⟩, rfl⟩
  · intro a ha b hb
    have ma : (pri al t u a, v a) ∈ held ++ dr := g3.symm.subset ((List.mem_ofFn' _ _).2 ⟨a, rfl⟩)
    have mb : (pri al t u b, v b) ∈ held ++ dr := g3.symm.subset ((List.mem_ofFn' _ _).2 ⟨b, rfl⟩)
    simp only [Finset.mem_filter, Finset.mem_univ, true_and] at ha hb
    have ma' : (pri al t u a, v a) ∈ dr := by
      rcases List.mem_append.1 ma with h | h
      · exact absurd (List.mem_map.2 ⟨_, h, rfl⟩) ha
      · exact h
    have mb' : (pri al t u b, v b) ∈ held := by
      rcases List.mem_append.1 mb with h | h
      · exact h
      · exact absurd rfl ((List.nodup_append.1 hnd).2.2 _ hb _ (List.mem_map.2 ⟨_, h, rfl⟩))
    exact g4 _ ma' _ mb'

theorem pri_pos (al : ℝ) (t u : Fin m → ℝ) (hu : u ∈ cube m) (k : Fin m) : 0 < pri al t u k :=
  div_pos (Real.exp_pos _) (hu k).1

/-- Value `i` is among what is held after offering `v`. -/
def IsHeld (n : ℕ) (al t1 t2 : ℝ) (v : Fin m → V) (t : Fin m → ℝ) (i : Fin m) (u : Fin m → ℝ) : Prop :=
  v i ∈ ((ExpDecay.init n al t1 t2 : ExpDecay ℝ V).runOps realExp (offers v t u)).getValues

/-- Values other than `i` that match or beat its priority. -/
noncomputable def rivals (al : ℝ) (t u : Fin m → ℝ) (i : Fin m) : Finset (Fin m) := by
  classical exact Finset.univ.filter fun k => k ≠ i ∧ pri al t u i ≤ pri al t u k

theorem mem_rivals (al : ℝ) (t u : Fin m → ℝ) (i k : Fin m) : k ∈ rivals al t u i ↔ k ≠ i ∧ pri al t u i ≤ pri al t u k := by
  unfold rivals; simp

theorem held_of_rivals (al : ℝ) (n : ℕ) (t1 t2 : ℝ) (v : Fin m → V) (hv : Function.Injective v) (t u : Fin m → ℝ) (hu : u ∈ cube m)
    (i : Fin m) (h : (rivals al t u i).card < n) : IsHeld n al t1 t2 v t i u := by
  classical
  obtain ⟨S, h1, h2, h3⟩ := held_set al n t1 t2 v hv t u hu
  refine (h1 i).1 ?_
  by_contra hi
  have hsub : S ⊆ rivals al t u i := fun k hk =>
    (mem_rivals ..).2 ⟨fun e => hi (e ▸ hk), h3 i hi k hk⟩
  have hlt : S.card < m := by
    have := Finset.card_lt_univ_of_notMem hi
    simpa using this
  have := Finset.card_le_card hsub
  omega

theorem rivals_of_held (al : ℝ) (n : ℕ) (t1 t2 : ℝ) (v : Fin m → V) (hv : Function.Injective v) (t u : Fin m → ℝ) (hu : u ∈ cube m)
    (i : Fin m) (hd : ∀ a b, a ≠ b → pri al t u a ≠ pri al t u b) (h : IsHeld n al t1 t2 v t i u) : (rivals al t u i).card < n := by
  classical
  obtain ⟨S, h1, h2, h3⟩ := held_set al n t1 t2 v hv t u hu
  have hi : i ∈ S := (h1 i).2 h
  have hsub : insert i (rivals al t u i) ⊆ S := by
    intro k hk
    rcases Finset.mem_insert.1 hk with rfl | hk
    · exact hi
    · obtain ⟨a, b⟩ := (mem_rivals ..).1 hk
      by_contra hS
      exact hd k i a (le_antisymm (h3 k hS i hi) b)
  have := Finset.card_le_card hsub
  rw [Finset.card_insert_of_notMem (by simp [mem_rivals])] at this
  omega

/-- Exchanging two coordinates. -/
noncomputable def exch (i j : Fin m) : (Fin m → ℝ) ≃ᵐ (Fin m → ℝ) := MeasurableEquiv.piCongrLeft (fun _ => ℝ) (Equiv.swap i j)

theorem exch_apply (i j : Fin m) (u : Fin m → ℝ) (k : Fin m) : exch i j u k = u (Equiv.swap i j k) := by
  have := Equiv.piCongrLeft_apply_apply (fun _ : Fin m => ℝ) (Equiv.swap i j) u (Equiv.swap i j k)
  rw [Equiv.swap_apply_self] at this
  exact this

theorem exch_volume (i j : Fin m) (A : Set (Fin m → ℝ)) : volume (exch i j ⁻¹' A) = volume A :=
  (volume_measurePreserving_piCongrLeft (fun _ : Fin m => ℝ) (Equiv.swap i j)).measure_preimage_equiv A

theorem exch_cube (i j : Fin m) (u : Fin m → ℝ) : exch i j u ∈ cube m ↔ u ∈ cube m := by
  constructor
  · intro h k
    have := h (Equiv.swap i j k)
    rw [exch_apply] at this
    simpa using this
  · intro h k
    rw [exch_apply]
    exact h _

/-- The newer value with the draw of the older one has no more rivals than the older one had. -/
theorem rivals_exch {al : ℝ} {t u : Fin m → ℝ} (hu : u ∈ cube m) {i j : Fin m} (hw : al * t i ≤ al * t j) :
    (rivals al t (exch i j u) j).card ≤ (rivals al t u i).card := by
  classical
  by_cases hij : i = j
  · subst hij
    have : exch i i u = u := by funext k; rw [exch_apply]; simp
    rw [this]
  have he : Real.exp (al * t i) ≤ Real.exp (al * t j) := Real.exp_le_exp.2 hw
  have pj : pri al t u i ≤ pri al t (exch i j u) j := by
    unfold pri
    rw [exch_apply, Equiv.swap_apply_right]
    exact div_le_div_of_nonneg_right he (hu i).1.le
  have pi' : pri al t (exch i j u) i ≤ pri al t u j := by
    unfold pri
    rw [exch_apply, Equiv.swap_apply_left]
    exact div_le_div_of_nonneg_right he (hu j).1.le
  have po : ∀ k, k ≠ i → k ≠ j → pri al t (exch i j u) k = pri al t u k := by
    intro k h1 h2
    unfold pri
    rw [exch_apply, Equiv.swap_apply_of_ne_of_ne h1 h2]
  refine Finset.card_le_card_of_injOn (Equiv.swap i j) ?_ (Equiv.injective _).injOn
  intro k hk
  obtain ⟨h1, h2⟩ := (mem_rivals ..).1 (Finset.mem_coe.1 hk)
  refine Finset.mem_coe.2 ((mem_rivals ..).2 ?_)
  by_cases hki : k = i
  · subst hki
    rw [Equiv.swap_apply_left]
    exact ⟨fun e => hij e.symm, pj.trans (h2.trans pi')⟩
  · rw [Equiv.swap_apply_of_ne_of_ne hki h1]
    rw [po k hki h1] at h2
    exact ⟨hki, pj.trans h2⟩

/-- Equal priorities have no chance. -/
theorem ties_null (al : ℝ) (t : Fin m → ℝ) :
    volume (cube m ∩ {u | ¬ ∀ a b, a ≠ b → pri al t u a ≠ pri al t u b}) = 0 := by
  have hsub : cube m ∩ {u | ¬ ∀ a b, a ≠ b → pri al t u a ≠ pri al t u b} ⊆
      ⋃ a : Fin m, ⋃ b : Fin m, ⋃ _ : a ≠ b, {u : Fin m → ℝ | Real.exp (al * t a) * u b = Real.exp (al * t b) * u a} := by
    rintro u ⟨hu, hx⟩
    simp only [Set.mem_ofPred_eq, not_forall, not_not] at hx
    obtain ⟨a, b, hab, h⟩ := hx
    simp only [Set.mem_iUnion]
    refine ⟨a, b, hab, ?_⟩
    unfold pri at h
    rw [div_eq_div_iff (hu a).1.ne' (hu b).1.ne'] at h
    exact h
  refine measure_mono_null hsub ?_
  refine measure_iUnion_null fun a => measure_iUnion_null fun b => measure_iUnion_null fun hab => ?_
  let L : (Fin m → ℝ) →ₗ[ℝ] ℝ := Real.exp (al * t a) • LinearMap.proj b - Real.exp (al * t b) • LinearMap.proj a
  have hset : {u : Fin m → ℝ | Real.exp (al * t a) * u b = Real.exp (al * t b) * u a} = (LinearMap.ker L : Set (Fin m → ℝ)) := by
    ext u
    simp [L, sub_eq_zero]
  rw [hset]
  refine Measure.addHaar_submodule _ _ ?_
  intro htop
  have : (Pi.single a 1 : Fin m → ℝ) ∈ LinearMap.ker L := by rw [htop]; trivial
  rw [LinearMap.mem_ker] at this
  simp [L, hab.symm, hab] at this

theorem chance_mono {A B : Set (Fin m → ℝ)} (h : ∀ u ∈ cube m, u ∈ A → u ∈ B) : chance A ≤ chance B :=
  measure_mono fun u hu => ⟨hu.1, h u hu.1 hu.2⟩

theorem chance_newer (al : ℝ) (n : ℕ) (t1 t2 : ℝ) (v : Fin m → V) (hv : Function.Injective v) (t : Fin m → ℝ) (i j : Fin m)
    (hw : al * t i ≤ al * t j) :
    chance {u | IsHeld n al t1 t2 v t i u} ≤ chance {u | IsHeld n al t1 t2 v t j u} := by
  set T := cube m ∩ {u | ¬ ∀ a b, a ≠ b → pri al t u a ≠ pri al t u b} with hT
  have hsub : cube m ∩ {u | IsHeld n al t1 t2 v t i u} ⊆ exch i j ⁻¹' (cube m ∩ {u | IsHeld n al t1 t2 v t j u}) ∪ T := by
    rintro u ⟨hu, hh⟩
    by_cases hd : ∀ a b, a ≠ b → pri al t u a ≠ pri al t u b
    · left
      have hu' := (exch_cube i j u).2 hu
      refine ⟨hu', held_of_rivals al n t1 t2 v hv t _ hu' j ?_⟩
      exact lt_of_le_of_lt (rivals_exch hu hw) (rivals_of_held al n t1 t2 v hv t u hu i hd hh)
    · right
      exact ⟨hu, hd⟩
  unfold chance
  refine (measure_mono hsub).trans ((measure_union_le _ _).trans ?_)
  rw [exch_volume, hT, ties_null, add_zero]

/-- One draw is at most `r`. -/
theorem chance_draw (i : Fin m) (r : ℝ) (h0 : 0 ≤ r) : chance {u : Fin m → ℝ | u i ≤ r} ≤ ENNReal.ofReal r := by
  classical
  unfold chance
  have hsub : cube m ∩ {u : Fin m → ℝ | u i ≤ r} ⊆ Set.pi Set.univ fun k => if k = i then Set.Ioc 0 r else Set.Ioo (0 : ℝ) 1 := by
    rintro u ⟨hu, hr⟩ k _
    by_cases hk : k = i
    · subst hk; simp only [if_true]; exact ⟨(hu k).1, hr⟩
    · simp only [hk, if_false]; exact hu k
  refine (measure_mono hsub).trans ?_
  rw [volume_pi_pi]
  rw [Finset.prod_eq_single i]
  · simp
  · intro k _ hk
    simp [hk]
  · simp

theorem chance_all : chance (Set.univ : Set (Fin m → ℝ)) = 1 := by
  unfold chance
  have : cube m ∩ Set.univ = Set.pi Set.univ fun _ => Set.Ioo (0 : ℝ) 1 := by
    ext u; simp [cube]
  rw [this, volume_pi_pi]
  simp

/-- A value held although `n` others are younger by `d` had a small draw. -/
theorem old_draw (al : ℝ) (h0 : 0 ≤ al) (n : ℕ) (t1 t2 : ℝ) (v : Fin m → V) (hv : Function.Injective v) (t u : Fin m → ℝ)
    (hu : u ∈ cube m) (i : Fin m) (d : ℝ) (hd : 0 ≤ d) (Y : Finset (Fin m)) (hY : n ≤ Y.card) (hy : ∀ k ∈ Y, k ≠ i ∧ t i + d ≤ t k)
    (h : IsHeld n al t1 t2 v t i u) : u i ≤ Real.exp (-(al * d)) := by
  classical
  obtain ⟨S, h1, h2, h3⟩ := held_set al n t1 t2 v hv t u hu
  have hi : i ∈ S := (h1 i).2 h
  have : ∃ k ∈ Y, k ∉ S := by
    by_contra hno
    push Not at hno
    have hsub : insert i Y ⊆ S := by
      intro k hk
      rcases Finset.mem_insert.1 hk with rfl | hk
      · exact hi
      · exact hno k hk
    have hc := Finset.card_le_card hsub
    rw [Finset.card_insert_of_notMem (fun hiY => (hy i hiY).1 rfl)] at hc
    omega
  obtain ⟨k, hk, hkS⟩ := this
  have hp := h3 k hkS i hi
  unfold pri at hp
  rw [div_le_div_iff₀ (hu k).1 (hu i).1] at hp
  have he : Real.exp (al * t i) * Real.exp (al * d) ≤ Real.exp (al * t k) := by
    rw [← Real.exp_add]
    apply Real.exp_le_exp.2
    have := mul_le_mul_of_nonneg_left (hy k hk).2 h0
    linarith
  rw [Real.exp_neg, ← one_div, le_div_iff₀ (Real.exp_pos _)]
  have p1 := Real.exp_pos (al * t i)
  have p2 := Real.exp_pos (al * d)
  have q1 : Real.exp (al * t i) * (u i * Real.exp (al * d)) ≤ Real.exp (al * t i) * 1 := by
    calc Real.exp (al * t i) * (u i * Real.exp (al * d)) = Real.exp (al * t i) * Real.exp (al * d) * u i := by ring
      _ ≤ Real.exp (al * t k) * u i := mul_le_mul_of_nonneg_right he (hu i).1.le
      _ ≤ Real.exp (al * t i) * u k := hp
      _ ≤ Real.exp (al * t i) * 1 := mul_le_mul_of_nonneg_left (hu k).2.le p1.le
  exact le_of_mul_le_mul_left q1 p1

theorem triangle (r : ℝ) (h0 : 0 < r) (h1 : r ≤ 1) : volume (cube 2 ∩ {u : Fin 2 → ℝ | u 0 < r * u 1}) = ENNReal.ofReal (r / 2) := by
  have e1 : exch (0 : Fin 2) 1 ⁻¹' (cube 2 ∩ {u : Fin 2 → ℝ | u 0 < r * u 1}) =
      MeasurableEquiv.finTwoArrow ⁻¹' (regionBetween (fun _ : ℝ => (0 : ℝ)) (fun x => r * x) (Set.Ioo 0 1)) := by
    ext u
    have hx0 : exch (0 : Fin 2) 1 u 0 = u 1 := by rw [exch_apply, Equiv.swap_apply_left]
    have hx1 : exch (0 : Fin 2) 1 u 1 = u 0 := by rw [exch_apply, Equiv.swap_apply_right]
    have hc : exch (0 : Fin 2) 1 u ∈ cube 2 ↔ (0 < u 0 ∧ u 0 < 1) ∧ (0 < u 1 ∧ u 1 < 1) := by
      rw [exch_cube]; unfold cube; exact Fin.forall_fin_two
    show exch (0 : Fin 2) 1 u ∈ cube 2 ∧ exch (0 : Fin 2) 1 u 0 < r * exch (0 : Fin 2) 1 u 1 ↔
      (0 < u 0 ∧ u 0 < 1) ∧ (0 < u 1 ∧ u 1 < r * u 0)
    rw [hx0, hx1, hc]
    constructor
    · rintro ⟨⟨a, b⟩, c⟩
      exact ⟨a, b.1, c⟩
    · rintro ⟨a, b, c⟩
      exact ⟨⟨a, b, c.trans_le (by nlinarith [a.1, a.2])⟩, c⟩
  rw [← exch_volume 0 1, e1, (volume_preserving_finTwoArrow ℝ).measure_preimage_equiv]
  have hint : IntegrableOn (fun x : ℝ => r * x) (Set.Ioo 0 1) :=
    ((continuous_const.mul continuous_id).integrableOn_Icc (a := 0) (b := 1)).mono_set Set.Ioo_subset_Icc_self
  have := volume_regionBetween_eq_integral (μ := (volume : Measure ℝ)) (f := fun _ : ℝ => (0 : ℝ)) (g := fun x => r * x)
    (s := Set.Ioo 0 1) (by simp) hint measurableSet_Ioo
    (fun x hx => mul_nonneg h0.le hx.1.le)
  rw [Measure.volume_eq_prod, this]
  congr 1
  rw [← integral_Ioc_eq_integral_Ioo, ← intervalIntegral.integral_of_le zero_le_one]
  simp only [Pi.sub_apply, sub_zero]
  rw [intervalIntegral.integral_const_mul, integral_id]
  ring

theorem chance_two (al : ℝ) (t1 t2 : ℝ) (v : Fin 2 → V) (hv : Function.Injective v) (t : Fin 2 → ℝ) (hw : al * t 0 ≤ al * t 1) :
    chance {u | IsHeld 1 al t1 t2 v t 0 u} = ENNReal.ofReal (Real.exp (-(al * (t 1 - t 0))) / 2) := by
  classical
  set r := Real.exp (-(al * (t 1 - t 0))) with hr
  have hr0 : 0 < r := Real.exp_pos _
  have hr1 : r ≤ 1 := by rw [hr]; apply Real.exp_le_one_iff.2; linarith
  have hre : Real.exp (al * t 0) = r * Real.exp (al * t 1) := by rw [hr, ← Real.exp_add]; congr 1; ring
  have p1 := Real.exp_pos (al * t 1)
  rw [← triangle r hr0 hr1]
  set T := cube 2 ∩ {u | ¬ ∀ a b, a ≠ b → pri al t u a ≠ pri al t u b} with hT
  have key : ∀ u ∈ cube 2, (pri al t u 0 ≤ pri al t u 1 ↔ r * u 1 ≤ u 0) := by
    intro u hu
    unfold pri
    rw [hre, div_le_div_iff₀ (hu 0).1 (hu 1).1]
    constructor
    · intro h
      refine le_of_mul_le_mul_left (a := Real.exp (al * t 1)) ?_ p1
      linarith
    · intro h
      have := mul_le_mul_of_nonneg_left h p1.le
      linarith
  apply le_antisymm
  · unfold chance
    have hsub : cube 2 ∩ {u | IsHeld 1 al t1 t2 v t 0 u} ⊆ (cube 2 ∩ {u : Fin 2 → ℝ | u 0 < r * u 1}) ∪ T := by
      rintro u ⟨hu, hh⟩
      by_cases hd : ∀ a b, a ≠ b → pri al t u a ≠ pri al t u b
      · left
        refine ⟨hu, ?_⟩
        have := rivals_of_held al 1 t1 t2 v hv t u hu 0 hd hh
        by_contra hlt
        have hle := (key u hu).2 (not_lt.1 hlt)
        have : (1 : Fin 2) ∈ rivals al t u 0 := (mem_rivals ..).2 ⟨by decide, hle⟩
        have := Finset.card_pos.2 ⟨_, this⟩
        omega
      · right
        exact ⟨hu, hd⟩
    refine (measure_mono hsub).trans ((measure_union_le _ _).trans ?_)
    rw [hT, ties_null, add_zero]
  · refine measure_mono ?_
    rintro u ⟨hu, hlt⟩
    refine ⟨hu, held_of_rivals al 1 t1 t2 v hv t u hu 0 ?_⟩
    have : rivals al t u 0 = ∅ := by
      apply Finset.eq_empty_of_forall_notMem
      intro k hk
      obtain ⟨h1, h2⟩ := (mem_rivals ..).1 hk
      have hk1 : k = 1 := by omega
      subst hk1
      exact absurd ((key u hu).1 h2) (not_le.2 hlt)
    rw [this]; simp

end Txstatsd
