import Verif.Model.Bisect
import Mathlib.Data.List.Sort
import Mathlib.Order.Basic

set_option linter.unusedSectionVars false
set_option linter.unusedSimpArgs false
set_option linter.unusedVariables false

namespace Txstatsd
variable {α : Type}

theorem bisectRightLoop_spec (lt : α → α → Bool) (a : List α) (x : α)
    (hm : ∀ (i j : Nat) y z, i ≤ j → a[i]? = some y → a[j]? = some z → lt x y = true → lt x z = true) :
    ∀ lo hi, lo ≤ hi → hi ≤ a.length → (∀ (i : Nat) y, i < lo → a[i]? = some y → lt x y = false) →
    (∀ (i : Nat) y, hi ≤ i → a[i]? = some y → lt x y = true) →
    let r := bisectRightLoop lt a x lo hi
    r ≤ a.length ∧ (∀ (i : Nat) y, i < r → a[i]? = some y → lt x y = false) ∧ (∀ (i : Nat) y, r ≤ i → a[i]? = some y → lt x y = true) := by
  intro lo hi
  induction lo, hi using bisectRightLoop.induct lt a x with
  | case1 lo hi h mid hn =>
    intro h1 h2
    have : mid < a.length := by omega
    rw [List.getElem?_eq_none_iff] at hn; omega
  | case2 lo hi h mid y hy hlt ih =>
    intro h1 h2 h3 h4
    rw [bisectRightLoop]
    simp only [h, dif_pos]
    rw [show (lo + hi) / 2 = mid from rfl, hy]
    simp only [hlt, if_true]
    refine ih (by omega) (by omega) h3 ?_
    intro i z hi' hz
    exact hm mid i y z hi' hy hz hlt
  | case3 lo hi h mid y hy hlt ih =>
    intro h1 h2 h3 h4
    rw [bisectRightLoop]
    simp only [h, dif_pos]
    rw [show (lo + hi) / 2 = mid from rfl, hy]
    have hlt' : lt x y = false := by simpa using hlt
    simp only [hlt', Bool.false_eq_true, if_false]
    refine ih (by omega) (by omega) ?_ h4
    intro i z hi' hz
    by_contra hc
    have hc : lt x z = true := by simpa using hc
    have := hm i mid z y (by omega) hz hy hc
    rw [hlt'] at this; cases this
  | case4 lo hi h =>
    intro h1 h2 h3 h4
    rw [bisectRightLoop]
    simp only [h, dif_neg, not_false_eq_true]
    refine ⟨by omega, h3, ?_⟩
    intro i y hi' hy
    exact h4 i y (by omega) hy

theorem bisectLeftLoop_spec (lt : α → α → Bool) (a : List α) (x : α)
    (hm : ∀ (i j : Nat) y z, i ≤ j → a[i]? = some y → a[j]? = some z → lt z x = true → lt y x = true) :
    ∀ lo hi, lo ≤ hi → hi ≤ a.length → (∀ (i : Nat) y, i < lo → a[i]? = some y → lt y x = true) →
    (∀ (i : Nat) y, hi ≤ i → a[i]? = some y → lt y x = false) →
    let r := bisectLeftLoop lt a x lo hi
    r ≤ a.length ∧ (∀ (i : Nat) y, i < r → a[i]? = some y → lt y x = true) ∧ (∀ (i : Nat) y, r ≤ i → a[i]? = some y → lt y x = false) := by
  intro lo hi
  induction lo, hi using bisectLeftLoop.induct lt a x with
  | case1 lo hi h mid hn =>
    intro h1 h2
    have : mid < a.length := by omega
    rw [List.getElem?_eq_none_iff] at hn; omega
  | case2 lo hi h mid y hy hlt ih =>
    intro h1 h2 h3 h4
    rw [bisectLeftLoop]
    simp only [h, dif_pos]
    rw [show (lo + hi) / 2 = mid from rfl, hy]
    simp only [hlt, if_true]
    refine ih (by omega) (by omega) ?_ h4
    intro i z hi' hz
    exact hm i mid z y (by omega) hz hy hlt
  | case3 lo hi h mid y hy hlt ih =>
    intro h1 h2 h3 h4
    rw [bisectLeftLoop]
    simp only [h, dif_pos]
    rw [show (lo + hi) / 2 = mid from rfl, hy]
    have hlt' : lt y x = false := by simpa using hlt
    simp only [hlt', Bool.false_eq_true, if_false]
    refine ih (by omega) (by omega) h3 ?_
    intro i z hi' hz
    by_contra hc
    have hc : lt z x = true := by simpa using hc
    have := hm mid i y z hi' hy hz hc
    rw [hlt'] at this; cases this
  | case4 lo hi h =>
    intro h1 h2 h3 h4
    rw [bisectLeftLoop]
    simp only [h, dif_neg, not_false_eq_true]
    refine ⟨by omega, h3, ?_⟩
    intro i y hi' hy
    exact h4 i y (by omega) hy

theorem bisectRight_spec (lt : α → α → Bool) (a : List α) (x : α)
    (hm : ∀ (i j : Nat) y z, i ≤ j → a[i]? = some y → a[j]? = some z → lt x y = true → lt x z = true) :
    bisectRight lt a x ≤ a.length ∧ (∀ (i : Nat) y, i < bisectRight lt a x → a[i]? = some y → lt x y = false) ∧
    (∀ (i : Nat) y, bisectRight lt a x ≤ i → a[i]? = some y → lt x y = true) := by
  refine bisectRightLoop_spec lt a x hm 0 a.length (Nat.zero_le _) le_rfl (by intro i y h; omega) ?_
  intro i y h hy
  have := (List.getElem?_eq_some_iff.1 hy).1; omega

theorem bisectLeft_spec (lt : α → α → Bool) (a : List α) (x : α)
    (hm : ∀ (i j : Nat) y z, i ≤ j → a[i]? = some y → a[j]? = some z → lt z x = true → lt y x = true) :
    bisectLeft lt a x ≤ a.length ∧ (∀ (i : Nat) y, i < bisectLeft lt a x → a[i]? = some y → lt y x = true) ∧
    (∀ (i : Nat) y, bisectLeft lt a x ≤ i → a[i]? = some y → lt y x = false) := by
  refine bisectLeftLoop_spec lt a x hm 0 a.length (Nat.zero_le _) le_rfl (by intro i y h; omega) ?_
  intro i y h hy
  have := (List.getElem?_eq_some_iff.1 hy).1; omega

theorem insertIdx_split (a : List α) (x : α) (n : Nat) (h : n ≤ a.length) :
    a.insertIdx n x = a.take n ++ x :: a.drop n := by
  induction a generalizing n with
  | nil => simp at h; subst h; rfl
  | cons y ys ih =>
    cases n with
    | zero => rfl
    | succ n => simp only [List.insertIdx_succ_cons, List.take_succ_cons, List.drop_succ_cons, List.cons_append]
                rw [ih n (by simpa using h)]

/-- Sorted by `<`-free pairs: no later element is less than an earlier one. -/
def NoDescent (lt : α → α → Bool) (a : List α) : Prop := a.Pairwise fun y z => lt z y = false

theorem insort_perm (lt : α → α → Bool) (a : List α) (x : α) (hb : bisectRight lt a x ≤ a.length) :
    (insort lt a x).Perm (x :: a) := by
  unfold insort
  rw [insertIdx_split a x _ hb]
  refine List.perm_middle.trans ?_
  rw [List.take_append_drop]

/-- For a strict weak order given as a linear order on keys. -/
theorem insort_spec {β : Type} [LinearOrder β] (key : α → β) (lt : α → α → Bool)
    (hlt : ∀ x y, lt x y = decide (key x < key y)) (a : List α) (x : α) (ha : NoDescent lt a) :
    ∃ l r, a = l ++ r ∧ insort lt a x = l ++ x :: r ∧ (∀ y ∈ l, key y ≤ key x) ∧ (∀ y ∈ r, key x < key y) ∧
      NoDescent lt (insort lt a x) := by
  have hsorted : ∀ (i j : Nat) y z, i ≤ j → a[i]? = some y → a[j]? = some z → key y ≤ key z := by
    intro i j y z hij hy hz
    rcases Nat.lt_or_eq_of_le hij with h | h
    · obtain ⟨hi, rfl⟩ := List.getElem?_eq_some_iff.1 hy
      obtain ⟨hj, rfl⟩ := List.getElem?_eq_some_iff.1 hz
      have := List.pairwise_iff_getElem.1 ha i j hi hj h
      rw [hlt] at this
      exact not_lt.1 (of_decide_eq_false this)
    · subst h; rw [hy] at hz; cases hz; exact le_rfl
  obtain ⟨h1, h2, h3⟩ := bisectRight_spec lt a x (by
    intro i j y z hij hy hz h
    rw [hlt, decide_eq_true_eq] at h ⊢
    exact lt_of_lt_of_le h (hsorted i j y z hij hy hz))
  refine ⟨a.take (bisectRight lt a x), a.drop (bisectRight lt a x), (List.take_append_drop _ _).symm,
    insertIdx_split a x _ h1, ?_, ?_, ?_⟩
  · intro y hy
    obtain ⟨i, hi⟩ := List.mem_iff_getElem?.1 hy
    rw [List.getElem?_take] at hi
    split_ifs at hi with hlt'
    have := h2 i y hlt' hi
    rw [hlt] at this
    exact not_lt.1 (of_decide_eq_false this)
  · intro y hy
    obtain ⟨i, hi⟩ := List.mem_iff_getElem?.1 hy
    rw [List.getElem?_drop] at hi
    have := h3 _ y (by omega) hi
    rwa [hlt, decide_eq_true_eq] at this
  · unfold NoDescent insort
    rw [insertIdx_split a x _ h1, List.pairwise_append]
    refine ⟨?_, ?_, ?_⟩
    · exact ha.sublist (List.take_sublist _ _)
    · rw [List.pairwise_cons]
      refine ⟨?_, ha.sublist (List.drop_sublist _ _)⟩
      intro z hz
      obtain ⟨i, hi⟩ := List.mem_iff_getElem?.1 hz
      rw [List.getElem?_drop] at hi
      have := h3 _ z (by omega) hi
      rw [hlt, decide_eq_true_eq] at this
      rw [hlt, decide_eq_false_iff_not]; exact not_lt.2 this.le
    · intro y hy z hz
      obtain ⟨i, hi⟩ := List.mem_iff_getElem?.1 hy
      rw [List.getElem?_take] at hi
      split_ifs at hi with hlt'
      have hyx := h2 i y hlt' hi
      rw [hlt, decide_eq_false_iff_not, not_lt] at hyx
      rw [hlt, decide_eq_false_iff_not, not_lt]
      rcases List.mem_cons.1 hz with rfl | hz
      · exact hyx
      · obtain ⟨j, hj⟩ := List.mem_iff_getElem?.1 hz
        rw [List.getElem?_drop] at hj
        have := h3 _ z (by omega) hj
        rw [hlt, decide_eq_true_eq] at this
        exact hyx.trans this.le

end Txstatsd
