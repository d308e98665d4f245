import Verif.Spec.DecayFloat
import Verif.Lemmas.Bisect
import Verif.Lemmas.Float

/-!
# Lemmas on decaying samples in floats
-/

set_option linter.unusedSectionVars false
set_option linter.unusedSimpArgs false
set_option linter.unusedVariables false

namespace Txstatsd
open Spec

/-! ## Insertion by a key that the comparison respects -/

theorem bisectRightLoop_key {α : Type} (key : α → ℚ) (lt : α → α → Bool) (a : List α) (x : α)
    (h1 : ∀ y ∈ a, lt x y = true → key x ≤ key y) (h2 : ∀ y ∈ a, lt x y = false → key y ≤ key x)
    (hs : a.Pairwise fun y z => key y ≤ key z) (lo hi : Nat) (hlo : lo ≤ hi) (hhi : hi ≤ a.length)
    (hl : ∀ y ∈ a.take lo, key y ≤ key x) (hr : ∀ y ∈ a.drop hi, key x ≤ key y) :
    bisectRightLoop lt a x lo hi ≤ a.length ∧ (∀ y ∈ a.take (bisectRightLoop lt a x lo hi), key y ≤ key x) ∧
      (∀ y ∈ a.drop (bisectRightLoop lt a x lo hi), key x ≤ key y) := by
  induction hn : hi - lo using Nat.strong_induction_on generalizing lo hi with
  | _ n ih =>
  unfold bisectRightLoop
  by_cases h : lo < hi
  · rw [dif_pos h]
    have hm : (lo + hi) / 2 < a.length := by omega
    have hmem : a[(lo + hi) / 2] ∈ a := List.getElem_mem hm
    simp only [List.getElem?_eq_getElem hm]
    have hpw := List.pairwise_iff_getElem.1 hs
    split
    · rename_i hlt
      refine ih _ (by omega) lo _ (by omega) (by omega) hl ?_ rfl
      intro y hy
      obtain ⟨j, hj, rfl⟩ := List.mem_iff_getElem.1 hy
      rw [List.getElem_drop]
      have hk := h1 _ hmem hlt
      rcases Nat.eq_zero_or_pos j with h0 | h0
      · subst h0; simpa using hk
      · rw [List.length_drop] at hj
        exact hk.trans (hpw _ _ hm (by omega) (by omega))
    · rename_i hlt
      refine ih _ (by omega) _ hi (by omega) hhi ?_ hr rfl
      intro y hy
      obtain ⟨j, hj, rfl⟩ := List.mem_iff_getElem.1 hy
      rw [List.getElem_take]
      have hk := h2 _ hmem (by simpa using hlt)
      rw [List.length_take] at hj
      rcases Nat.lt_or_ge j ((lo + hi) / 2) with h0 | h0
      · exact (hpw j _ (by omega) hm h0).trans hk
      · have : j = (lo + hi) / 2 := by omega
        subst this; exact hk
  · rw [dif_neg h]
    have : lo = hi := by omega
    subst this
    exact ⟨hhi, hl, hr⟩

theorem insort_key {α : Type} (key : α → ℚ) (lt : α → α → Bool) (a : List α) (x : α)
    (h1 : ∀ y ∈ a, lt x y = true → key x ≤ key y) (h2 : ∀ y ∈ a, lt x y = false → key y ≤ key x)
    (hs : a.Pairwise fun y z => key y ≤ key z) :
    (insort lt a x).Pairwise (fun y z => key y ≤ key z) ∧ (insort lt a x).Perm (x :: a) := by
  obtain ⟨g1, g2, g3⟩ := bisectRightLoop_key key lt a x h1 h2 hs 0 a.length (Nat.zero_le _) le_rfl (by simp) (by simp)
  change bisectRight lt a x ≤ _ at g1
  change ∀ y ∈ a.take (bisectRight lt a x), _ at g2
  change ∀ y ∈ a.drop (bisectRight lt a x), _ at g3
  refine ⟨?_, insort_perm lt a x g1⟩
  unfold insort
  rw [insertIdx_split a x _ g1]
  have hs' := hs
  rw [← List.take_append_drop (bisectRight lt a x) a] at hs'
  obtain ⟨p1, p2, p3⟩ := List.pairwise_append.1 hs'
  refine List.pairwise_append.2 ⟨p1, List.pairwise_cons.2 ⟨g3, p2⟩, ?_⟩
  intro y hy z hz
  rcases List.mem_cons.1 hz with rfl | hz
  · exact g2 y hy
  · exact p3 y hy z hz

/-! ## Priorities -/

/-- The priority of an entry as a rational. -/
def prio (p : PyFloat × PyFloat) : ℚ := match p.1 with | .fin q => q | _ => 0

/-- A priority within the range of doubles. -/
def FinitePrio (p : PyFloat × PyFloat) : Prop := ∃ q : ℚ, p.1 = .fin q ∧ 0 ≤ q ∧ q ≤ 2 ^ (1000 : ℤ)

theorem entryLt_prio {x y : PyFloat × PyFloat} (hx : FinitePrio x) (hy : FinitePrio y) :
    (DecaySample.entryLt x y = true → prio x ≤ prio y) ∧ (DecaySample.entryLt x y = false → prio y ≤ prio x) := by
  obtain ⟨p, hp, _⟩ := hx
  obtain ⟨q, hq, _⟩ := hy
  unfold DecaySample.entryLt prio
  rw [hp, hq]
  by_cases h : p = q
  · subst h; simp
  · have : ¬ ((PyFloat.fin p = PyFloat.fin q) ∧ PyFloat.fin p ≠ .nan) := by simp [h]
    rw [if_neg this]
    simp only [PyFloat.lt, decide_eq_true_eq, decide_eq_false_iff_not, not_lt]
    exact ⟨le_of_lt, id⟩

theorem insort_prio {a : List (PyFloat × PyFloat)} {x : PyFloat × PyFloat} (hx : FinitePrio x) (ha : ∀ y ∈ a, FinitePrio y)
    (hs : a.Pairwise fun y z => prio y ≤ prio z) :
    (insort DecaySample.entryLt a x).Pairwise (fun y z => prio y ≤ prio z) ∧ (insort DecaySample.entryLt a x).Perm (x :: a) :=
  insort_key prio DecaySample.entryLt a x (fun y hy => (entryLt_prio hx (ha y hy)).1) (fun y hy => (entryLt_prio hx (ha y hy)).2) hs

section
variable [Rounding] [Ieee]

theorem rep_pow {e : ℤ} (h0 : -1074 ≤ e) (h1 : e < 1024) : rnd ((2 : ℚ) ^ e) = .fin (2 ^ e) := by
  refine Ieee.rep.2 ⟨⟨1, e, by norm_num, h0, by simp⟩, ?_⟩
  rw [abs_of_pos (two_zpow_pos e)]
  exact zpow_lt_zpow_right₀ (by norm_num) h1

theorem scale_finite {f : ℚ} (h0 : 0 ≤ f) (h1 : f ≤ 1) {p : PyFloat × PyFloat} (hp : FinitePrio p) :
    FinitePrio (p.1.mul (.fin f), p.2) := by
  obtain ⟨q, e, g0, g1⟩ := hp
  have hb : q * f ≤ 2 ^ (1000 : ℤ) := (mul_le_of_le_one_right g0 h1).trans g1
  obtain ⟨r, hr, r0, r1⟩ := rnd_between rnd_zero (rep_pow (e := 1000) (by norm_num) (by norm_num)) (mul_nonneg g0 h0) hb
  exact ⟨r, by simp only [e, PyFloat.mul]; exact hr, r0, r1⟩

theorem scale_mono {f : ℚ} (h0 : 0 ≤ f) (h1 : f ≤ 1) {p p' : PyFloat × PyFloat} (hp : FinitePrio p) (hp' : FinitePrio p')
    (h : prio p ≤ prio p') : prio (p.1.mul (.fin f), p.2) ≤ prio (p'.1.mul (.fin f), p'.2) := by
  have s := scale_finite h0 h1 hp
  have s' := scale_finite h0 h1 hp'
  obtain ⟨q, e, g0, g1⟩ := hp
  obtain ⟨q', e', g0', g1'⟩ := hp'
  obtain ⟨r, k, _⟩ := s
  obtain ⟨r', k', _⟩ := s'
  simp only at k k'
  have hle : q ≤ q' := by simpa [prio, e, e'] using h
  have := Ieee.mono (mul_le_mul_of_nonneg_right hle h0)
  simp only [e, e', PyFloat.mul] at k k'
  rw [k, k'] at this
  simpa [prio, e, e', PyFloat.mul, k, k', PyFloat.le] using this

variable [FloatExp] [ExpLaws]

/-- The times of a sample: the landmark, and when it moves. -/
structure Times (start next : PyFloat) : Prop where
  ex : ∃ a b : ℚ, start = .fin a ∧ next = .fin b ∧ rnd a = .fin a ∧ |a| ≤ 2 ^ 40 ∧ a ≤ b ∧ b ≤ a + 1203 / 2

theorem times_new {t1 t2 : ℚ} (h1 : ClockTime t1) (h2 : ClockTime t2) (h3 : t1 ≤ t2) (h4 : t2 ≤ t1 + 1) :
    Times (.fin t1) ((PyFloat.fin t2).add (.fin 600)) := by
  have b1 := abs_le.1 h1.2
  have b2 := abs_le.1 h2.2
  have i1 : rnd (((2 : ℤ) ^ 41 : ℤ) : ℚ) = .fin (((2 : ℤ) ^ 41 : ℤ) : ℚ) := rnd_int (by norm_num)
  have i2 := rep_neg i1
  norm_num at i1 i2 b1 b2
  obtain ⟨b, hb, _, _⟩ := rnd_between i2 i1 (q := t2 + 600) (by linarith [b2.1]) (by linarith [b2.2])
  refine ⟨⟨t1, b, rfl, hb, h1.1, h1.2, ?_, ?_⟩⟩
  · have := Ieee.mono (show t1 ≤ t2 + 600 by linarith)
    rw [h1.1, hb] at this
    simpa [PyFloat.le] using this
  · have he := abs_le.1 (Ieee.err hb)
    have ha : |t2 + 600| ≤ 2 ^ 41 := abs_le.2 ⟨by norm_num; linarith [b2.1], by norm_num; linarith [b2.2]⟩
    have : |t2 + 600| / 2 ^ 53 + 2 ^ (-1075 : ℤ) ≤ 1 / 4 := by
      have h5 : (2 : ℚ) ^ (-1075 : ℤ) ≤ 2 ^ (-10 : ℤ) := zpow_mono (by norm_num)
      have h6 : |t2 + 600| / 2 ^ 53 ≤ 2 ^ 41 / 2 ^ 53 := div_le_div_of_nonneg_right ha (by norm_num)
      norm_num at h5 h6 ⊢
      linarith
    linarith [he.2]

/-- The exponent of a new entry is within range. -/
theorem new_exp {al : ℚ} (ha0 : 0 ≤ al) (ha1 : al ≤ 1) {start next : PyFloat} (ht : Times start next) {t : ℚ} (hc : ClockTime t)
    (hn : next.le (.fin t) = false) {d : ℚ} (hd : RandomDraw d) :
    ∃ x p, FloatExp.exp ((PyFloat.fin al).mul ((PyFloat.fin t).sub start)) = .ok x ∧ x.div (.fin d) = .ok p ∧
      ∀ v, FinitePrio (p, v) := by
  obtain ⟨a, b, rfl, rfl, ra, ba, hab, hba⟩ := ht.ex
  have b1 := abs_le.1 ba
  have b2 := abs_le.1 hc.2
  have hlt : t < b := by simpa [PyFloat.le] using hn
  have i1 : rnd ((602 : ℤ) : ℚ) = .fin ((602 : ℤ) : ℚ) := rnd_int (by norm_num)
  have i2 : rnd ((-(2 : ℤ) ^ 42 : ℤ) : ℚ) = .fin ((-(2 : ℤ) ^ 42 : ℤ) : ℚ) := rnd_int (by norm_num)
  norm_num at i1 i2 b1 b2
  obtain ⟨r, hr, r0, r1⟩ := rnd_between i2 i1 (q := t - a) (by linarith [b2.1, b1.2]) (by linarith)
  have hm1 : al * r ≤ 602 := by nlinarith
  have hm0 : (-4398046511104 : ℚ) ≤ al * r := by nlinarith
  obtain ⟨m, hm, _, m1⟩ := rnd_between i2 i1 hm0 hm1
  obtain ⟨q, hq, q0, q1⟩ := ExpLaws.ok m m1
  obtain ⟨k, k0, k1, rfl⟩ := hd
  have kq : (1 : ℚ) ≤ k := by exact_mod_cast k0
  have hpos : (0 : ℚ) < k / 2 ^ 53 := by positivity
  have hle : q / ((k : ℚ) / 2 ^ 53) ≤ 2 ^ (953 : ℤ) := by
    rw [div_le_iff₀ hpos]
    have e : (2 : ℚ) ^ (953 : ℤ) * (k / 2 ^ 53) = 2 ^ (900 : ℤ) * k := by
      rw [show (953 : ℤ) = 900 + 53 by norm_num, zpow_add₀ (by norm_num)]
      norm_num
      ring
    rw [e]
    exact q1.trans (le_mul_of_one_le_right (two_zpow_pos 900).le kq)
  obtain ⟨p, hp, p0, p1⟩ := rnd_between rnd_zero (rep_pow (e := 953) (by norm_num) (by norm_num)) (div_nonneg q0 hpos.le) hle
  refine ⟨.fin q, .fin p, ?_, ?_, fun v => ⟨p, rfl, p0, p1.trans (zpow_mono (by norm_num))⟩⟩
  · simp only [PyFloat.sub, hr, PyFloat.mul, hm]; exact hq
  · simp only [PyFloat.div]
    rw [if_neg hpos.ne', hp]

/-- The factor of a move of the landmark is between 0 and 1. -/
theorem move_exp {al : ℚ} (ha0 : 0 ≤ al) (ha1 : al ≤ 1) {start next : PyFloat} (ht : Times start next) {t : ℚ} (hc : ClockTime t)
    (hn : next.le (.fin t) = true) :
    ∃ f : ℚ, FloatExp.exp ((PyFloat.fin al).neg.mul ((PyFloat.fin t).sub start)) = .ok (.fin f) ∧ 0 ≤ f ∧ f ≤ 1 := by
  obtain ⟨a, b, rfl, rfl, ra, ba, hab, hba⟩ := ht.ex
  have b1 := abs_le.1 ba
  have b2 := abs_le.1 hc.2
  have hlt : b ≤ t := by simpa [PyFloat.le] using hn
  have i1 : rnd (((2 : ℤ) ^ 42 : ℤ) : ℚ) = .fin (((2 : ℤ) ^ 42 : ℤ) : ℚ) := rnd_int (by norm_num)
  have i2 := rep_neg i1
  norm_num at i1 i2 b1 b2
  obtain ⟨r, hr, r0, r1⟩ := rnd_between rnd_zero i1 (q := t - a) (by linarith) (by linarith [b2.2, b1.1])
  obtain ⟨m, hm, _, m1⟩ := rnd_between i2 rnd_zero (q := -al * r) (by nlinarith) (by nlinarith)
  obtain ⟨f, hf, f0, f1⟩ := ExpLaws.down m m1
  exact ⟨f, by simp only [PyFloat.sub, hr, PyFloat.neg, PyFloat.mul, hm]; exact hf, f0, f1⟩

theorem rescaleLoop_ok {shift : PyFloat} {f : ℚ} (hf : FloatExp.exp shift = .ok (.fin f)) (h0 : 0 ≤ f) (h1 : f ≤ 1)
    (l acc : List (PyFloat × PyFloat)) (hl : ∀ y ∈ l, FinitePrio y) (ha : ∀ y ∈ acc, FinitePrio y)
    (hs : acc.Pairwise fun y z => prio y ≤ prio z) :
    ∃ vs, DecaySample.rescaleLoop shift l acc = .ok vs ∧ vs.Pairwise (fun y z => prio y ≤ prio z) ∧
      vs.Perm (l.map (fun p => (p.1.mul (.fin f), p.2)) ++ acc) := by
  induction l generalizing acc with
  | nil => exact ⟨acc, rfl, hs, by simp⟩
  | cons p l ih =>
    obtain ⟨k, v⟩ := p
    have hk := scale_finite h0 h1 (hl _ (by simp : (k, v) ∈ (k, v) :: l))
    obtain ⟨g1, g2⟩ := insort_prio hk ha hs
    obtain ⟨vs, e1, e2, e3⟩ := ih _ (fun y hy => hl y (by simp [hy])) (fun y hy => by
      rcases List.mem_cons.1 (g2.subset hy) with rfl | h
      · exact hk
      · exact ha y h) g1
    refine ⟨vs, ?_, e2, ?_⟩
    · unfold DecaySample.rescaleLoop
      rw [hf]
      exact e1
    · refine e3.trans ?_
      rw [List.map_cons, List.cons_append]
      exact ((List.Perm.append_left _ g2).trans List.perm_middle)

/-- What a sample holds of everything added. -/
structure Keeps (n : Nat) (alpha : PyFloat) (s : DecaySample) (a : Aging) : Prop where
  size : s.reservoirSize = n
  alpha : s.alpha = alpha
  start : s.startTime = a.start
  next : s.nextScaleTime = a.next
  times : Times a.start a.next
  fin : ∀ p ∈ a.entries, FinitePrio p
  sorted : s.values.Pairwise fun y z => prio y ≤ prio z
  top : ∃ dropped, (s.values ++ dropped).Perm a.entries ∧ ∀ x ∈ dropped, ∀ y ∈ s.values, prio x ≤ prio y
  count : s.count = s.values.length
  length : s.values.length = min n a.entries.length

theorem keeps_clear {n : Nat} {alpha : PyFloat} {s : DecaySample} (h1 : s.reservoirSize = n) (h2 : s.alpha = alpha) {t1 t2 : ℚ}
    (ht : SensibleOp (.clear t1 t2)) :
    Keeps n alpha (s.clear t1 t2) { start := .fin t1, next := (PyFloat.fin t2).add (.fin 600), entries := [] } :=
  ⟨h1, h2, rfl, rfl, times_new ht.1 ht.2.1 ht.2.2.1 ht.2.2.2, by simp, by simp [DecaySample.clear],
    ⟨[], by simp [DecaySample.clear], by simp⟩, by simp [DecaySample.clear], by simp [DecaySample.clear]⟩

theorem keeps_init (n : Nat) (alpha : PyFloat) {t1 t2 : ℚ} (ht : SensibleOp (.clear t1 t2)) :
    Keeps n alpha (DecaySample.init n alpha t1 t2) { start := .fin t1, next := (PyFloat.fin t2).add (.fin 600), entries := [] } := by
  unfold DecaySample.init
  refine keeps_clear ?_ ?_ ht <;> rfl

theorem keeps_rescale {n : Nat} {al : ℚ} (ha0 : 0 ≤ al) (ha1 : al ≤ 1) {s : DecaySample} {a : Aging} (h : Keeps n (.fin al) s a)
    {t : ℚ} (hc : ClockTime t) (hn : s.nextScaleTime.le (.fin t) = true) :
    (s.rescale t).2 = none ∧ Keeps n (.fin al) (s.rescale t).1 (a.move (.fin al) t) := by
  rw [h.next] at hn
  obtain ⟨f, hf, f0, f1⟩ := move_exp ha0 ha1 h.times hc hn
  obtain ⟨dr, d1, d2⟩ := h.top
  have hv : ∀ y ∈ s.values, FinitePrio y := fun y hy => h.fin y (d1.subset (by simp [hy]))
  have hdr : ∀ y ∈ dr, FinitePrio y := fun y hy => h.fin y (d1.subset (by simp [hy]))
  obtain ⟨vs, e1, e2, e3⟩ := rescaleLoop_ok hf f0 f1 s.values [] hv (by simp) (by simp)
  rw [List.append_nil] at e3
  have he : s.rescale t = ({ s with nextScaleTime := (PyFloat.fin t).add (.fin 600), startTime := .fin t, values := vs }, none) := by
    unfold DecaySample.rescale
    rw [h.alpha, h.start, e1]
  have hx : expOr ((PyFloat.fin al).neg.mul ((PyFloat.fin t).sub a.start)) = .fin f := by unfold expOr; rw [hf]
  rw [he]
  refine ⟨rfl, h.size, h.alpha, rfl, rfl, times_new hc hc le_rfl (by linarith), ?_, e2, ?_, ?_, ?_⟩
  · intro p hp
    simp only [Aging.move, hx] at hp
    obtain ⟨q, hq, rfl⟩ := List.mem_map.1 hp
    exact scale_finite f0 f1 (h.fin q hq)
  · refine ⟨dr.map fun p => (p.1.mul (.fin f), p.2), ?_, ?_⟩
    · simp only [Aging.move, hx]
      refine (List.Perm.append_right _ e3).trans ?_
      rw [← List.map_append]
      exact d1.map _
    · intro x hx' y hy
      obtain ⟨x', hx'', rfl⟩ := List.mem_map.1 hx'
      obtain ⟨y', hy', rfl⟩ := List.mem_map.1 (e3.subset hy)
      exact scale_mono f0 f1 (hdr x' hx'') (hv y' hy') (d2 x' hx'' y' hy')
  · show s.count = vs.length
    rw [h.count, e3.length_eq, List.length_map]
  · show vs.length = _
    rw [e3.length_eq, List.length_map, h.length]; simp [Aging.move]

theorem keeps_insert {n : Nat} (h1n : 1 ≤ n) {al : ℚ} (ha0 : 0 ≤ al) (ha1 : al ≤ 1) {s : DecaySample} {a : Aging}
    (h : Keeps n (.fin al) s a) {t d : ℚ} (hc : ClockTime t) (hd : RandomDraw d) (hn : s.nextScaleTime.le (.fin t) = false)
    (v : PyFloat) :
    (s.insert v t d).2 = none ∧ Keeps n (.fin al) (s.insert v t d).1
      { a with entries := a.entries ++ [(quotient (expOr ((PyFloat.fin al).mul ((PyFloat.fin t).sub a.start))) d, v)] } := by
  rw [h.next] at hn
  obtain ⟨x, p, hx, hp, hfin⟩ := new_exp ha0 ha1 h.times hc hn hd
  have e1 : quotient (expOr ((PyFloat.fin al).mul ((PyFloat.fin t).sub a.start))) d = p := by
    unfold quotient expOr; rw [hx]; simp only [hp]
  rw [e1]
  obtain ⟨dr, d1, d2⟩ := h.top
  have hv : ∀ y ∈ s.values, FinitePrio y := fun y hy => h.fin y (d1.subset (by simp [hy]))
  obtain ⟨g1, g2⟩ := insort_prio (hfin v) hv h.sorted
  have hf' : ∀ q ∈ a.entries ++ [(p, v)], FinitePrio q := by
    intro q hq
    rcases List.mem_append.1 hq with hq | hq
    · exact h.fin q hq
    · rw [List.mem_singleton] at hq; subst hq; exact hfin v
  have hlen := h.length
  have hdl := d1.length_eq
  rw [List.length_append] at hdl
  unfold DecaySample.insert
  rw [h.alpha, h.start, hx]
  simp only [hp]
  by_cases hcount : s.count < s.reservoirSize
  · rw [if_pos hcount]
    rw [h.count, h.size] at hcount
    refine ⟨rfl, h.size, rfl, rfl, h.next, h.times, hf', g1, ?_, ?_, ?_⟩
    · have : dr = [] := List.length_eq_zero_iff.1 (by omega)
      subst this
      refine ⟨[], ?_, by simp⟩
      simp only [List.append_nil] at d1 ⊢
      exact g2.trans ((List.Perm.cons _ d1).trans (List.perm_append_singleton _ _).symm)
    · show s.count + 1 = _
      rw [g2.length_eq, h.count]; rfl
    · show (insort _ _ _).length = _
      rw [g2.length_eq, List.length_cons, List.length_append]; simp only [List.length_singleton]; omega
  · rw [if_neg hcount]
    rw [h.count, h.size] at hcount
    have hlenN : s.values.length = n := by omega
    cases hvs : s.values with
    | nil => rw [hvs] at hlenN; simp at hlenN; omega
    | cons first rest =>
      simp only
      have hfirst : ∀ y ∈ s.values, prio first ≤ prio y := by
        have := h.sorted
        rw [hvs] at this
        rw [hvs]
        intro y hy
        rcases List.mem_cons.1 hy with rfl | hy
        · exact le_rfl
        · exact (List.pairwise_cons.1 this).1 y hy
      obtain ⟨q1, k1, _⟩ := hv first (by rw [hvs]; simp)
      obtain ⟨q2, k2, _⟩ := hfin v
      simp only at k2
      by_cases hlt : first.1.lt p = true
      · rw [if_pos hlt]
        rw [hvs] at g1 g2
        cases hin : insort DecaySample.entryLt (first :: rest) (p, v) with
        | nil => rw [hin] at g2; simpa using g2.length_eq
        | cons z zs =>
          rw [hin] at g1 g2
          obtain ⟨s1, s2⟩ := List.pairwise_cons.1 g1
          refine ⟨rfl, h.size, rfl, rfl, h.next, h.times, hf', ?_, ⟨z :: dr, ?_, ?_⟩, ?_, ?_⟩
          · exact s2
          · show (zs ++ z :: dr).Perm _
            refine List.perm_middle.trans ?_
            rw [← List.cons_append]
            refine (List.Perm.append_right _ g2).trans ?_
            rw [List.cons_append, ← hvs]
            exact (List.Perm.cons _ d1).trans (List.perm_append_singleton _ _).symm
          · intro x' hx' y hy
            change y ∈ zs at hy
            rcases List.mem_cons.1 hx' with rfl | hx'
            · exact s1 y hy
            · have hy' : y ∈ (p, v) :: first :: rest := g2.subset (by simp [hy])
              rcases List.mem_cons.1 hy' with rfl | hy'
              · have : prio first ≤ prio (p, v) := by
                  rw [k1, k2] at hlt
                  simp only [PyFloat.lt, decide_eq_true_eq] at hlt
                  simp only [prio, k1, k2]; exact hlt.le
                exact (d2 x' hx' first (by rw [hvs]; simp)).trans this
              · exact d2 x' hx' y (by rw [hvs]; exact hy')
          · show s.count = zs.length
            have := g2.length_eq
            simp only [List.length_cons] at this
            rw [h.count, hvs, List.length_cons]; omega
          · show zs.length = _
            have := g2.length_eq
            rw [hvs] at hlenN
            simp only [List.length_cons, List.length_append, List.length_nil] at this hlenN ⊢
            omega
      · rw [if_neg hlt]
        refine ⟨rfl, h.size, h.alpha, h.start, h.next, h.times, hf', h.sorted, ⟨dr ++ [(p, v)], ?_, ?_⟩, h.count, ?_⟩
        · rw [← List.append_assoc]
          exact List.Perm.append_right _ d1
        · intro x' hx' y hy
          rcases List.mem_append.1 hx' with hx' | hx'
          · exact d2 x' hx' y hy
          · rw [List.mem_singleton] at hx'
            subst hx'
            refine le_trans ?_ (hfirst y hy)
            rw [k1, k2] at hlt
            simp only [PyFloat.lt, decide_eq_true_eq, not_lt] at hlt
            simp only [prio, k1, k2]; exact hlt
        · show s.values.length = _
          rw [List.length_append]; simp only [List.length_singleton]; omega

theorem keeps_update {n : Nat} (h1n : 1 ≤ n) {al : ℚ} (ha0 : 0 ≤ al) (ha1 : al ≤ 1) {s : DecaySample} {a : Aging}
    (h : Keeps n (.fin al) s a) {t d : ℚ} (hc : ClockTime t) (hd : RandomDraw d) (v : PyFloat) :
    (s.update v t d).2 = none ∧ Keeps n (.fin al) (s.update v t d).1 (a.step (.fin al) (.update v t d)) := by
  unfold DecaySample.update
  by_cases hn : s.nextScaleTime.le (.fin t) = true
  · obtain ⟨r1, r2⟩ := keeps_rescale ha0 ha1 h hc hn
    have hn' : (s.rescale t).1.nextScaleTime.le (.fin t) = false := by
      rw [r2.next]
      have e : (a.move (.fin al) t).next = (PyFloat.fin t).add (.fin 600) := rfl
      obtain ⟨x, y, hx, hy, hxx, hax, _⟩ := r2.times.ex
      rw [e] at hy ⊢
      have e2 : (PyFloat.fin t).add (.fin 600) = rnd (t + 600) := rfl
      rw [e2] at hy
      rw [e2, hy]
      have he := abs_le.1 (Ieee.err hy)
      have b2 := abs_le.1 hc.2
      have ha : |t + 600| ≤ 2 ^ 41 := abs_le.2 ⟨by norm_num at b2 ⊢; linarith [b2.1], by norm_num at b2 ⊢; linarith [b2.2]⟩
      have : |t + 600| / 2 ^ 53 + 2 ^ (-1075 : ℤ) ≤ 1 / 4 := by
        have h5 : (2 : ℚ) ^ (-1075 : ℤ) ≤ 2 ^ (-10 : ℤ) := zpow_mono (by norm_num)
        have h6 : |t + 600| / 2 ^ 53 ≤ 2 ^ 41 / 2 ^ 53 := div_le_div_of_nonneg_right ha (by norm_num)
        norm_num at h5 h6 ⊢
        linarith
      simp only [PyFloat.le, decide_eq_false_iff_not, not_le]
      linarith [he.1]
    obtain ⟨i1, i2⟩ := keeps_insert h1n ha0 ha1 r2 hc hd hn' v
    rw [if_pos hn]
    have hstep : a.step (.fin al) (.update v t d) = { a.move (.fin al) t with entries := (a.move (.fin al) t).entries ++
        [(quotient (expOr ((PyFloat.fin al).mul ((PyFloat.fin t).sub (a.move (.fin al) t).start))) d, v)] } := by
      have hif : (if a.next.le (.fin t) = true then a.move (.fin al) t else a) = a.move (.fin al) t := if_pos (by rw [← h.next]; exact hn)
      simp only [Aging.step, hif]
    rw [hstep]
    generalize hr : s.rescale t = r at *
    obtain ⟨s', e⟩ := r
    simp only at r1
    subst r1
    exact ⟨i1, i2⟩
  · rw [if_neg hn]
    simp only [Bool.not_eq_true] at hn
    have hstep : a.step (.fin al) (.update v t d) = { a with entries := a.entries ++
        [(quotient (expOr ((PyFloat.fin al).mul ((PyFloat.fin t).sub a.start))) d, v)] } := by
      have hif : (if a.next.le (.fin t) = true then a.move (.fin al) t else a) = a := if_neg (by rw [← h.next, hn]; simp)
      simp only [Aging.step, hif]
    rw [hstep]
    exact keeps_insert h1n ha0 ha1 h hc hd hn v

theorem keeps_run {n : Nat} (h1n : 1 ≤ n) {al : ℚ} (ha0 : 0 ≤ al) (ha1 : al ≤ 1) (ops : List FDecayOp) (ho : Sensible ops)
    {s : DecaySample} {a : Aging} (h : Keeps n (.fin al) s a) : Keeps n (.fin al) (s.runOps ops) (a.run (.fin al) ops) := by
  induction ops generalizing s a with
  | nil => exact h
  | cons o ops ih =>
    have ho' := ho o (by simp)
    refine ih (fun o h => ho o (by simp [h])) ?_
    cases o with
    | update v t d => exact (keeps_update h1n ha0 ha1 h ho'.1 ho'.2 v).2
    | clear t1 t2 => exact keeps_clear h.size h.alpha ho'

theorem aged_values (al : PyFloat) (a : Aging) (ops : List FDecayOp) :
    (a.run al ops).entries.map Prod.snd =
      ops.foldl (fun acc o => match o with | .update v _ _ => acc ++ [v] | .clear _ _ => []) (a.entries.map Prod.snd) := by
  induction ops generalizing a with
  | nil => rfl
  | cons o ops ih =>
    rw [List.foldl_cons]
    show ((a.step al o).run al ops).entries.map Prod.snd = _
    rw [ih]
    congr 1
    cases o with
    | update v t d =>
      simp only [Aging.step]
      by_cases hn : a.next.le (.fin t) = true
      · simp [hn, Aging.move, Function.comp_def]
      · simp [hn]
    | clear t1 t2 => rfl

/-- After the landmark moved to `t`, it does not move again at `t`. -/
theorem keeps_moved_next {n : Nat} {al : PyFloat} {s : DecaySample} {a : Aging} {t : ℚ} (hc : ClockTime t)
    (r2 : Keeps n al s (a.move al t)) : s.nextScaleTime.le (.fin t) = false := by
  rw [r2.next]
  have e : (a.move al t).next = (PyFloat.fin t).add (.fin 600) := rfl
  obtain ⟨x, y, hx, hy, hxx, hax, _⟩ := r2.times.ex
  rw [e] at hy ⊢
  have e2 : (PyFloat.fin t).add (.fin 600) = rnd (t + 600) := rfl
  rw [e2] at hy
  rw [e2, hy]
  have he := abs_le.1 (Ieee.err hy)
  have b2 := abs_le.1 hc.2
  have ha : |t + 600| ≤ 2 ^ 41 := abs_le.2 ⟨by norm_num at b2 ⊢; linarith [b2.1], by norm_num at b2 ⊢; linarith [b2.2]⟩
  have : |t + 600| / 2 ^ 53 + 2 ^ (-1075 : ℤ) ≤ 1 / 4 := by
    have h5 : (2 : ℚ) ^ (-1075 : ℤ) ≤ 2 ^ (-10 : ℤ) := zpow_mono (by norm_num)
    have h6 : |t + 600| / 2 ^ 53 ≤ 2 ^ 41 / 2 ^ 53 := div_le_div_of_nonneg_right ha (by norm_num)
    norm_num at h5 h6 ⊢
    linarith
  simp only [PyFloat.le, decide_eq_false_iff_not, not_le]
  linarith [he.1]

theorem noroom_insert {al : ℚ} (ha0 : 0 ≤ al) (ha1 : al ≤ 1) {s : DecaySample} {a : Aging}
    (h : Keeps 0 (.fin al) s a) {t d : ℚ} (hc : ClockTime t) (hd : RandomDraw d) (hn : s.nextScaleTime.le (.fin t) = false)
    (v : PyFloat) : s.insert v t d = (s, some .indexError) := by
  rw [h.next] at hn
  obtain ⟨x, p, hx, hp, hfin⟩ := new_exp ha0 ha1 h.times hc hn hd
  have hv : s.values = [] := List.length_eq_zero_iff.1 (by have := h.length; omega)
  unfold DecaySample.insert
  rw [h.alpha, h.start, hx]
  simp only [hp]
  rw [h.size, if_neg (by omega), hv]

theorem noroom_update {al : ℚ} (ha0 : 0 ≤ al) (ha1 : al ≤ 1) {s : DecaySample} {a : Aging}
    (h : Keeps 0 (.fin al) s a) {t d : ℚ} (hc : ClockTime t) (hd : RandomDraw d) (v : PyFloat) :
    (s.update v t d).2 = some .indexError ∧ ∃ a', Keeps 0 (.fin al) (s.update v t d).1 a' := by
  unfold DecaySample.update
  by_cases hn : s.nextScaleTime.le (.fin t) = true
  · obtain ⟨r1, r2⟩ := keeps_rescale ha0 ha1 h hc hn
    rw [if_pos hn]
    generalize hr : s.rescale t = r at *
    obtain ⟨s', e⟩ := r
    simp only at r1
    subst r1
    have hn' := keeps_moved_next hc r2
    have := noroom_insert ha0 ha1 r2 hc hd hn' v
    simp only at this ⊢
    rw [this]
    exact ⟨rfl, _, r2⟩
  · rw [if_neg hn, noroom_insert ha0 ha1 h hc hd (by simpa using hn) v]
    exact ⟨rfl, _, h⟩

theorem noroom_run {al : ℚ} (ha0 : 0 ≤ al) (ha1 : al ≤ 1) (ops : List FDecayOp) (ho : Sensible ops)
    {s : DecaySample} {a : Aging} (h : Keeps 0 (.fin al) s a) : ∃ a', Keeps 0 (.fin al) (s.runOps ops) a' := by
  induction ops generalizing s a with
  | nil => exact ⟨a, h⟩
  | cons o ops ih =>
    have ho' := ho o (by simp)
    cases o with
    | update v t d =>
      obtain ⟨a', h'⟩ := (noroom_update ha0 ha1 h ho'.1 ho'.2 v).2
      exact ih (fun o h => ho o (by simp [h])) h'
    | clear t1 t2 => exact ih (fun o h => ho o (by simp [h])) (keeps_clear h.size h.alpha ho')

end
end Txstatsd
