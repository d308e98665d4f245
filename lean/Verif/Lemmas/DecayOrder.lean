import Verif.Lemmas.DecayFloat

/-!
# The order of the values a decaying sample holds
-/

set_option linter.unusedSectionVars false
set_option linter.unusedSimpArgs false
set_option linter.unusedVariables false

namespace Txstatsd
open Spec

theorem bisectRightLoop_rel {α : Type} (le : α → α → Prop) (htr : ∀ a b c, le a b → le b c → le a c) (lt : α → α → Bool) (a : List α)
    (x : α) (h1 : ∀ y ∈ a, lt x y = true → le x y) (h2 : ∀ y ∈ a, lt x y = false → le y x)
    (hs : a.Pairwise le) (lo hi : Nat) (hlo : lo ≤ hi) (hhi : hi ≤ a.length)
    (hl : ∀ y ∈ a.take lo, le y x) (hr : ∀ y ∈ a.drop hi, le x y) :
    bisectRightLoop lt a x lo hi ≤ a.length ∧ (∀ y ∈ a.take (bisectRightLoop lt a x lo hi), le y x) ∧
      (∀ y ∈ a.drop (bisectRightLoop lt a x lo hi), le x y) := by
  induction hn : hi - lo using Nat.strong_induction_on generalizing lo hi with
  | _ n ih =>
  unfold bisectRightLoop
  by_cases h : lo < hi
  · rw [dif_pos h]
    have hm : (lo + hi) / 2 < a.length := by omega
    have hmem : a[(lo + hi) / 2] ∈ a := List.getElem_mem hm
    simp only [List.getElem?_eq_getElem hm]
    have hpw := List.pairwise_iff_getElem.1 hs
    split
    · rename_i hlt
      refine ih _ (by omega) lo _ (by omega) (by omega) hl ?_ rfl
      intro y hy
      obtain ⟨j, hj, rfl⟩ := List.mem_iff_getElem.1 hy
      rw [List.getElem_drop]
      have hk := h1 _ hmem hlt
      rcases Nat.eq_zero_or_pos j with h0 | h0
      · subst h0; simpa using hk
      · rw [List.length_drop] at hj
        exact htr _ _ _ hk (hpw _ _ hm (by omega) (by omega))
    · rename_i hlt
      refine ih _ (by omega) _ hi (by omega) hhi ?_ hr rfl
      intro y hy
      obtain ⟨j, hj, rfl⟩ := List.mem_iff_getElem.1 hy
      rw [List.getElem_take]
      have hk := h2 _ hmem (by simpa using hlt)
      rw [List.length_take] at hj
      rcases Nat.lt_or_ge j ((lo + hi) / 2) with h0 | h0
      · exact htr _ _ _ (hpw j _ (by omega) hm h0) hk
      · have : j = (lo + hi) / 2 := by omega
        subst this; exact hk
  · rw [dif_neg h]
    have : lo = hi := by omega
    subst this
    exact ⟨hhi, hl, hr⟩

theorem insort_rel {α : Type} (le : α → α → Prop) (htr : ∀ a b c, le a b → le b c → le a c) (lt : α → α → Bool) (a : List α) (x : α)
    (h1 : ∀ y ∈ a, lt x y = true → le x y) (h2 : ∀ y ∈ a, lt x y = false → le y x) (hs : a.Pairwise le) :
    (insort lt a x).Pairwise le ∧ (insort lt a x).Perm (x :: a) := by
  obtain ⟨g1, g2, g3⟩ := bisectRightLoop_rel le htr lt a x h1 h2 hs 0 a.length (Nat.zero_le _) le_rfl (by simp) (by simp)
  change bisectRight lt a x ≤ _ at g1
  change ∀ y ∈ a.take (bisectRight lt a x), _ at g2
  change ∀ y ∈ a.drop (bisectRight lt a x), _ at g3
  refine ⟨?_, insort_perm lt a x g1⟩
  unfold insort
  rw [insertIdx_split a x _ g1]
  have hs' := hs
  rw [← List.take_append_drop (bisectRight lt a x) a] at hs'
  obtain ⟨p1, p2, p3⟩ := List.pairwise_append.1 hs'
  refine List.pairwise_append.2 ⟨p1, List.pairwise_cons.2 ⟨g3, p2⟩, ?_⟩
  intro y hy z hz
  rcases List.mem_cons.1 hz with rfl | hz
  · exact g2 y hy
  · exact p3 y hy z hz

/-- By priority, then by value. -/
def InOrder (a b : PyFloat × PyFloat) : Prop := prio a < prio b ∨ prio a = prio b ∧ a.2.le b.2 = true

theorem pyle_trans {a b c : PyFloat} (h1 : a.le b = true) (h2 : b.le c = true) : a.le c = true := by
  cases a <;> cases b <;> cases c <;> simp_all [PyFloat.le]
  · rename_i a b c; cases a <;> cases b <;> cases c <;> simp_all
  · rename_i a b c; exact le_trans h1 h2

theorem inOrder_trans (a b c : PyFloat × PyFloat) (h1 : InOrder a b) (h2 : InOrder b c) : InOrder a c := by
  rcases h1 with h1 | ⟨h1, g1⟩ <;> rcases h2 with h2 | ⟨h2, g2⟩
  · exact Or.inl (h1.trans h2)
  · exact Or.inl (h2 ▸ h1)
  · exact Or.inl (h1 ▸ h2)
  · exact Or.inr ⟨h1.trans h2, pyle_trans g1 g2⟩

theorem entryLt_order {x y : PyFloat × PyFloat} (hx : FinitePrio x) (hy : FinitePrio y) (nx : x.2 ≠ .nan) (ny : y.2 ≠ .nan) :
    (DecaySample.entryLt x y = true → InOrder x y) ∧ (DecaySample.entryLt x y = false → InOrder y x) := by
  obtain ⟨p, hp, hp'⟩ := hx
  obtain ⟨q, hq, hq'⟩ := hy
  clear hp' hq'
  obtain ⟨x1, x2⟩ := x
  obtain ⟨y1, y2⟩ := y
  simp only at hp hq nx ny
  subst hp hq
  unfold DecaySample.entryLt InOrder prio
  simp only
  by_cases h : p = q
  · subst h
    rw [if_pos (by simp)]
    cases x2 <;> cases y2 <;> simp_all [PyFloat.lt, PyFloat.le]
    · rename_i a b; cases a <;> cases b <;> simp
    · exact le_of_lt
  · rw [if_neg (by simp [h])]
    simp only [PyFloat.lt, decide_eq_true_eq, decide_eq_false_iff_not, not_lt]
    exact ⟨Or.inl, fun h' => Or.inl (lt_of_le_of_ne h' (Ne.symm h))⟩

section
variable [Rounding] [Ieee] [FloatExp] [ExpLaws]

/-- No value is a NaN, and they are in order. -/
def Ordered (l : List (PyFloat × PyFloat)) : Prop := (∀ p ∈ l, p.2 ≠ .nan) ∧ l.Pairwise InOrder

omit [Rounding] [Ieee] [FloatExp] [ExpLaws] in
theorem ordered_insort {a : List (PyFloat × PyFloat)} {x : PyFloat × PyFloat} (hx : FinitePrio x) (nx : x.2 ≠ .nan)
    (ha : ∀ y ∈ a, FinitePrio y) (h : Ordered a) :
    Ordered (insort DecaySample.entryLt a x) ∧ ∀ y ∈ insort DecaySample.entryLt a x, FinitePrio y := by
  obtain ⟨g1, g2⟩ := insort_rel InOrder inOrder_trans DecaySample.entryLt a x
    (fun y hy => (entryLt_order hx (ha y hy) nx (h.1 y hy)).1) (fun y hy => (entryLt_order hx (ha y hy) nx (h.1 y hy)).2) h.2
  refine ⟨⟨fun p hp => ?_, g1⟩, fun y hy => ?_⟩
  · rcases List.mem_cons.1 (g2.subset hp) with rfl | hp
    · exact nx
    · exact h.1 p hp
  · rcases List.mem_cons.1 (g2.subset hy) with rfl | hy
    · exact hx
    · exact ha y hy

theorem ordered_rescaleLoop {shift : PyFloat} {f : ℚ} (hf : FloatExp.exp shift = .ok (.fin f)) (h0 : 0 ≤ f) (h1 : f ≤ 1)
    (l acc : List (PyFloat × PyFloat)) (hl : ∀ y ∈ l, FinitePrio y) (nl : ∀ y ∈ l, y.2 ≠ .nan) (ha : ∀ y ∈ acc, FinitePrio y)
    (h : Ordered acc) : ∃ vs, DecaySample.rescaleLoop shift l acc = .ok vs ∧ Ordered vs := by
  induction l generalizing acc with
  | nil => exact ⟨acc, rfl, h⟩
  | cons p l ih =>
    obtain ⟨k, v⟩ := p
    have hk := scale_finite h0 h1 (hl _ (by simp : (k, v) ∈ (k, v) :: l))
    obtain ⟨g1, g2⟩ := ordered_insort hk (nl (k, v) (by simp)) ha h
    obtain ⟨vs, e1, e2⟩ := ih _ (fun y hy => hl y (by simp [hy])) (fun y hy => nl y (by simp [hy])) g2 g1
    refine ⟨vs, ?_, e2⟩
    unfold DecaySample.rescaleLoop
    rw [hf]
    exact e1

theorem ordered_insert {n : Nat} {al : ℚ} (ha0 : 0 ≤ al) (ha1 : al ≤ 1) {s : DecaySample} {a : Aging}
    (h : Keeps n (.fin al) s a) (hor : Ordered s.values) {t d : ℚ} (hc : ClockTime t) (hd : RandomDraw d)
    (hn : s.nextScaleTime.le (.fin t) = false) (v : PyFloat) (nv : v ≠ .nan) : Ordered (s.insert v t d).1.values := by
  rw [h.next] at hn
  obtain ⟨x, p, hx, hp, hfin⟩ := new_exp ha0 ha1 h.times hc hn hd
  obtain ⟨dr, d1, d2⟩ := h.top
  have hv : ∀ y ∈ s.values, FinitePrio y := fun y hy => h.fin y (d1.subset (by simp [hy]))
  obtain ⟨g1, g2⟩ := ordered_insort (hfin v) nv hv hor
  unfold DecaySample.insert
  rw [h.alpha, h.start, hx]
  simp only [hp]
  split
  · exact g1
  · split
    · exact hor
    · split
      · rename_i hvs _
        simp only
        exact ⟨fun q hq => g1.1 q (List.mem_of_mem_tail hq), g1.2.sublist (List.tail_sublist _)⟩
      · exact hor

omit [FloatExp] [ExpLaws] in
theorem moved_next {t : ℚ} (ht : Times (.fin t) ((PyFloat.fin t).add (.fin 600))) (hc : ClockTime t) :
    ((PyFloat.fin t).add (.fin 600)).le (.fin t) = false := by
  obtain ⟨x, y, hx, hy, hxx, hax, _⟩ := ht.ex
  have e2 : (PyFloat.fin t).add (.fin 600) = rnd (t + 600) := rfl
  rw [e2] at hy
  rw [e2, hy]
  have he := abs_le.1 (Ieee.err hy)
  have b2 := abs_le.1 hc.2
  have ha : |t + 600| ≤ 2 ^ 41 := abs_le.2 ⟨by norm_num at b2 ⊢; linarith [b2.1], by norm_num at b2 ⊢; linarith [b2.2]⟩
  have : |t + 600| / 2 ^ 53 + 2 ^ (-1075 : ℤ) ≤ 1 / 4 := by
    have h5 : (2 : ℚ) ^ (-1075 : ℤ) ≤ 2 ^ (-10 : ℤ) := zpow_mono (by norm_num)
    have h6 : |t + 600| / 2 ^ 53 ≤ 2 ^ 41 / 2 ^ 53 := div_le_div_of_nonneg_right ha (by norm_num)
    norm_num at h5 h6 ⊢
    linarith
  simp only [PyFloat.le, decide_eq_false_iff_not, not_le]
  linarith [he.1]

theorem ordered_update {n : Nat} {al : ℚ} (ha0 : 0 ≤ al) (ha1 : al ≤ 1) {s : DecaySample} {a : Aging}
    (h : Keeps n (.fin al) s a) (hor : Ordered s.values) {t d : ℚ} (hc : ClockTime t) (hd : RandomDraw d) (v : PyFloat) (nv : v ≠ .nan) :
    Ordered (s.update v t d).1.values := by
  unfold DecaySample.update
  by_cases hn : s.nextScaleTime.le (.fin t) = true
  · obtain ⟨r1, r2⟩ := keeps_rescale ha0 ha1 h hc hn
    rw [if_pos hn]
    have hn' : (s.rescale t).1.nextScaleTime.le (.fin t) = false := by
      rw [r2.next]
      exact moved_next r2.times hc
    have ho : Ordered (s.rescale t).1.values := by
      have hn2 := hn
      rw [h.next] at hn2
      obtain ⟨f, hf, f0, f1⟩ := move_exp ha0 ha1 h.times hc hn2
      obtain ⟨dr, d1, d2⟩ := h.top
      have hv : ∀ y ∈ s.values, FinitePrio y := fun y hy => h.fin y (d1.subset (by simp [hy]))
      obtain ⟨vs, e1, e2⟩ := ordered_rescaleLoop hf f0 f1 s.values [] hv hor.1 (by simp) ⟨by simp, by simp⟩
      unfold DecaySample.rescale
      rw [h.alpha, h.start, e1]
      exact e2
    cases hr : s.rescale t with
    | mk s' e =>
      rw [hr] at r1 r2 hn' ho
      simp only at r1
      subst r1
      exact ordered_insert ha0 ha1 r2 ho hc hd hn' v nv
  · rw [if_neg hn]
    exact ordered_insert ha0 ha1 h hor hc hd (by simpa using hn) v nv

theorem ordered_run {n : Nat} (h1n : 1 ≤ n) {al : ℚ} (ha0 : 0 ≤ al) (ha1 : al ≤ 1) (ops : List FDecayOp) (ho : Sensible ops)
    (hn : ∀ v t d, FDecayOp.update v t d ∈ ops → v ≠ .nan)
    {s : DecaySample} {a : Aging} (h : Keeps n (.fin al) s a) (hor : Ordered s.values) : Ordered (s.runOps ops).values := by
  induction ops generalizing s a with
  | nil => exact hor
  | cons o ops ih =>
    have ho' := ho o (by simp)
    have hn' : ∀ v t d, FDecayOp.update v t d ∈ ops → v ≠ .nan := fun v t d h => hn v t d (by simp [h])
    cases o with
    | update v t d =>
      exact ih (fun o h => ho o (by simp [h])) hn' (keeps_update h1n ha0 ha1 h ho'.1 ho'.2 v).2
        (ordered_update ha0 ha1 h hor ho'.1 ho'.2 v (hn v t d (by simp)))
    | clear t1 t2 =>
      exact ih (fun o h => ho o (by simp [h])) hn' (keeps_clear h.size h.alpha ho') ⟨by simp [DecaySample.clear], by simp [DecaySample.clear]⟩

end
end Txstatsd
