import Verif.Lemmas.Histogram
import Mathlib.Algebra.BigOperators.Group.Finset.Piecewise

set_option linter.unusedSectionVars false
set_option linter.unusedSimpArgs false
set_option linter.unusedVariables false

namespace Txstatsd
namespace Histogram

theorem sortFloats_fin (qs : List ℚ) :
    sortFloats (qs.map .fin) = (qs.mergeSort (fun a b => decide (a ≤ b))).map .fin := by
  unfold sortFloats
  rw [List.map_mergeSort]
  intro a _ b _
  simp only [PyFloat.lt]
  by_cases h : a ≤ b
  · simp [h]
  · simp [h]; exact lt_of_not_ge h

theorem sorted_mergeSort (qs : List ℚ) : (qs.mergeSort (fun a b => decide (a ≤ b))).Pairwise (· ≤ ·) := by
  have := List.pairwise_mergeSort (le := fun a b : ℚ => decide (a ≤ b))
    (fun a b c h1 h2 => by simp only [decide_eq_true_eq] at *; exact h1.trans h2)
    (fun a b => by simp only [Bool.or_eq_true, decide_eq_true_eq]; exact le_total a b) qs
  exact this.imp (fun h => by simpa using h)

/-- Linear interpolation between order statistics, at the 1-based position `pos`. -/
def interp (rs : List ℚ) (pos : ℚ) : ℚ :=
  if pos < 1 then rs.getD 0 0
  else if pos ≥ rs.length then rs.getD (rs.length - 1) 0
  else rs.getD (⌊pos⌋.toNat - 1) 0 + (pos - ⌊pos⌋) * (rs.getD ⌊pos⌋.toNat 0 - rs.getD (⌊pos⌋.toNat - 1) 0)

theorem percentile_eq [Rounding] [Exact] (rs : List ℚ) (hne : rs ≠ []) (p : ℚ) :
    percentile (rs.map .fin) p = .ok (.fin (interp rs (p * (rs.length + 1)))) := by
  unfold percentile interp
  rw [Exact.rnd_eq, List.length_map]
  generalize p * ((rs.length : ℚ) + 1) = pos
  have hpos : 0 < rs.length := List.length_pos_iff.2 hne
  simp only
  split_ifs with h1 h2
  · rw [List.head?_eq_getElem?]
    simp [List.getD, hpos]
  · rw [List.getLast?_eq_getElem?]
    simp [List.getD, hpos]
  · rw [not_lt] at h1
    rw [ge_iff_le, not_le] at h2
    have ht : truncQ pos = ⌊pos⌋ := by unfold truncQ; rw [if_pos (by linarith)]
    have hf1 : 1 ≤ ⌊pos⌋ := Int.le_floor.2 (by exact_mod_cast h1)
    have hf2 : ⌊pos⌋ < rs.length := Int.floor_lt.2 (by exact_mod_cast h2)
    rw [ht]
    have e1 : (⌊pos⌋ - 1).toNat = ⌊pos⌋.toNat - 1 := by omega
    rw [e1]
    have k1 : ⌊pos⌋.toNat - 1 < rs.length := by omega
    have k2 : ⌊pos⌋.toNat < rs.length := by omega
    simp only [List.getElem?_map, List.getElem?_eq_getElem k1, List.getElem?_eq_getElem k2, Option.map_some,
      PyFloat.sub, PyFloat.mul, PyFloat.add, Exact.rnd_eq, List.getD, Option.getD_some]

theorem getD_mono {rs : List ℚ} (hs : rs.Pairwise (· ≤ ·)) {i j : Nat} (hij : i ≤ j) (hj : j < rs.length) :
    rs.getD i 0 ≤ rs.getD j 0 := by
  have hi : i < rs.length := by omega
  simp only [List.getD, List.getElem?_eq_getElem hi, List.getElem?_eq_getElem hj, Option.getD_some]
  rcases Nat.lt_or_eq_of_le hij with h | h
  · exact List.pairwise_iff_getElem.1 hs i j hi hj h
  · subst h; exact le_rfl

/-- The middle case lies between its two order statistics. -/
theorem interp_between {rs : List ℚ} (hs : rs.Pairwise (· ≤ ·)) {pos : ℚ} (h1 : 1 ≤ pos) (h2 : pos < rs.length) :
    1 ≤ ⌊pos⌋.toNat ∧ ⌊pos⌋.toNat < rs.length ∧ rs.getD (⌊pos⌋.toNat - 1) 0 ≤ interp rs pos ∧ interp rs pos ≤ rs.getD ⌊pos⌋.toNat 0 := by
  have hf1 : 1 ≤ ⌊pos⌋ := Int.le_floor.2 (by exact_mod_cast h1)
  have hf2 : ⌊pos⌋ < rs.length := Int.floor_lt.2 (by exact_mod_cast h2)
  have k2 : ⌊pos⌋.toNat < rs.length := by omega
  have hm := getD_mono hs (i := ⌊pos⌋.toNat - 1) (j := ⌊pos⌋.toNat) (by omega) k2
  have g1 : (0 : ℚ) ≤ pos - ⌊pos⌋ := sub_nonneg.2 (Int.floor_le pos)
  have g2 : pos - ⌊pos⌋ ≤ 1 := by have := Int.lt_floor_add_one pos; linarith
  refine ⟨by omega, k2, ?_, ?_⟩
  · unfold interp; rw [if_neg (by linarith), if_neg (by push Not; linarith)]; nlinarith
  · unfold interp; rw [if_neg (by linarith), if_neg (by push Not; linarith)]; nlinarith

theorem interp_range {rs : List ℚ} (hs : rs.Pairwise (· ≤ ·)) (hne : rs ≠ []) (pos : ℚ) :
    rs.getD 0 0 ≤ interp rs pos ∧ interp rs pos ≤ rs.getD (rs.length - 1) 0 := by
  have hpos : 0 < rs.length := List.length_pos_iff.2 hne
  by_cases h1 : pos < 1
  · unfold interp; rw [if_pos h1]; exact ⟨le_rfl, getD_mono hs (by omega) (by omega)⟩
  · by_cases h2 : pos ≥ rs.length
    · unfold interp; rw [if_neg h1, if_pos h2]; exact ⟨getD_mono hs (by omega) (by omega), le_rfl⟩
    · obtain ⟨a, b, c, d⟩ := interp_between hs (not_lt.1 h1) (by simpa using h2)
      exact ⟨(getD_mono hs (by omega) (by omega)).trans c, d.trans (getD_mono hs (by omega) (by omega))⟩

theorem interp_mono {rs : List ℚ} (hs : rs.Pairwise (· ≤ ·)) (hne : rs ≠ []) {x y : ℚ} (hxy : x ≤ y) : interp rs x ≤ interp rs y := by
  by_cases h1 : x < 1
  · have : interp rs x = rs.getD 0 0 := by unfold interp; rw [if_pos h1]
    rw [this]; exact (interp_range hs hne y).1
  · by_cases h2 : y ≥ rs.length
    · have h1' : ¬ y < 1 := by push Not at *; linarith
      have : interp rs y = rs.getD (rs.length - 1) 0 := by unfold interp; rw [if_neg h1', if_pos h2]
      rw [this]; exact (interp_range hs hne x).2
    · have hx1 : 1 ≤ x := not_lt.1 h1
      have hy2 : y < rs.length := by simpa using h2
      obtain ⟨a, b, c, d⟩ := interp_between hs hx1 (lt_of_le_of_lt hxy hy2)
      obtain ⟨a', b', c', d'⟩ := interp_between hs (hx1.trans hxy) hy2
      have hfl : ⌊x⌋ ≤ ⌊y⌋ := Int.floor_le_floor hxy
      rcases lt_or_eq_of_le hfl with hlt | heq
      · exact d.trans ((getD_mono hs (by omega) (by omega)).trans c')
      · have hm := getD_mono hs (i := ⌊y⌋.toNat - 1) (j := ⌊y⌋.toNat) (by omega) b'
        unfold interp
        rw [if_neg h1, if_neg (by push Not; linarith), if_neg (by linarith), if_neg (by push Not; linarith), heq]
        nlinarith

theorem interp_nat {rs : List ℚ} (k : Nat) (h1 : 1 ≤ k) (h2 : k ≤ rs.length) : interp rs k = rs.getD (k - 1) 0 := by
  unfold interp
  have : ¬ ((k : ℚ) < 1) := by rw [not_lt]; exact_mod_cast h1
  rw [if_neg this]
  split_ifs with h
  · have : rs.length ≤ k := by exact_mod_cast h
    rw [show rs.length = k by omega]
  · simp

/-! ## Bins -/

section
variable [Rounding] [Exact]

omit [Exact] in
theorem foldl_pyMax (qs : List ℚ) (q : ℚ) : ∃ m, (qs.map PyFloat.fin).foldl pyMax (.fin q) = .fin m ∧ IsGreatest' (q :: qs) m := by
  induction qs generalizing q with
  | nil => exact ⟨q, rfl, by simp [IsGreatest']⟩
  | cons a qs ih =>
    simp only [List.map_cons, List.foldl_cons]
    have e : pyMax (.fin q) (.fin a) = .fin (Max.max q a) := by
      unfold pyMax PyFloat.lt
      by_cases h : q < a
      · simp [h, max_eq_right h.le]
      · simp [h, max_eq_left (not_lt.1 h)]
    rw [e]
    obtain ⟨m, hm, h1, h2⟩ := ih (Max.max q a)
    refine ⟨m, hm, ?_, ?_⟩
    · rcases List.mem_cons.1 h1 with rfl | h1
      · rcases max_choice q a with h | h <;> simp [h]
      · simp [h1]
    · intro v hv
      have hmax := h2 (Max.max q a) (by simp)
      rcases List.mem_cons.1 hv with rfl | hv
      · exact (le_max_left _ _).trans hmax
      · rcases List.mem_cons.1 hv with rfl | hv
        · exact (le_max_right _ _).trans hmax
        · exact h2 v (by simp [hv])

omit [Exact] in
theorem foldl_pyMin (qs : List ℚ) (q : ℚ) : ∃ m, (qs.map PyFloat.fin).foldl pyMin (.fin q) = .fin m ∧ IsLeast' (q :: qs) m := by
  induction qs generalizing q with
  | nil => exact ⟨q, rfl, by simp [IsLeast']⟩
  | cons a qs ih =>
    simp only [List.map_cons, List.foldl_cons]
    have e : pyMin (.fin q) (.fin a) = .fin (Min.min q a) := by
      unfold pyMin PyFloat.lt
      by_cases h : a < q
      · simp [h, min_eq_right h.le]
      · simp [h, min_eq_left (not_lt.1 h)]
    rw [e]
    obtain ⟨m, hm, h1, h2⟩ := ih (Min.min q a)
    refine ⟨m, hm, ?_, ?_⟩
    · rcases List.mem_cons.1 h1 with rfl | h1
      · rcases min_choice q a with h | h <;> simp [h]
      · simp [h1]
    · intro v hv
      have hmin := h2 (Min.min q a) (by simp)
      rcases List.mem_cons.1 hv with rfl | hv
      · exact hmin.trans (min_le_left _ _)
      · rcases List.mem_cons.1 hv with rfl | hv
        · exact hmin.trans (min_le_right _ _)
        · exact h2 v (by simp [hv])

/-- The bin the code computes for a value. -/
def binIdx (lo hi : ℚ) (bins : Nat) (v : ℚ) : Nat :=
  if ⌊(v - lo) / (hi - lo) * bins⌋ = bins then bins - 1 else ⌊(v - lo) / (hi - lo) * bins⌋.toNat

theorem binIdx_lt {lo hi v : ℚ} {bins : Nat} (hlh : lo < hi) (hb : 1 ≤ bins) (h1 : lo ≤ v) (h2 : v ≤ hi) :
    0 ≤ ⌊(v - lo) / (hi - lo) * bins⌋ ∧ ⌊(v - lo) / (hi - lo) * bins⌋ ≤ bins ∧ binIdx lo hi bins v < bins := by
  have hr : 0 < hi - lo := sub_pos.2 hlh
  have hbq : (0 : ℚ) < bins := by exact_mod_cast hb
  have t0 : 0 ≤ (v - lo) / (hi - lo) * bins := mul_nonneg (div_nonneg (by linarith) hr.le) hbq.le
  have t1 : (v - lo) / (hi - lo) * bins ≤ bins := by
    have : (v - lo) / (hi - lo) ≤ 1 := by rw [div_le_one hr]; linarith
    nlinarith
  have f0 : 0 ≤ ⌊(v - lo) / (hi - lo) * bins⌋ := Int.floor_nonneg.2 t0
  have f1 : ⌊(v - lo) / (hi - lo) * bins⌋ ≤ bins := by
    have := Int.floor_le_floor t1
    simpa using this
  refine ⟨f0, f1, ?_⟩
  unfold binIdx
  split_ifs <;> omega

theorem inBin_iff {lo hi v : ℚ} {bins j : Nat} (hlh : lo < hi) (hb : 1 ≤ bins) (h1 : lo ≤ v) (h2 : v ≤ hi) (hj : j < bins) :
    InBin lo hi bins j v ↔ binIdx lo hi bins v = j := by
  have hr : 0 < hi - lo := sub_pos.2 hlh
  have hbq : (0 : ℚ) < bins := by exact_mod_cast hb
  obtain ⟨f0, f1, _⟩ := binIdx_lt hlh hb h1 h2
  set t := (v - lo) / (hi - lo) * bins with ht
  have hv : v = lo + t * ((hi - lo) / bins) := by rw [ht]; field_simp; ring
  have hw : 0 < (hi - lo) / bins := div_pos hr hbq
  have a1 : lo + j * ((hi - lo) / bins) ≤ v ↔ (j : ℚ) ≤ t := by
    rw [hv]; rw [add_le_add_iff_left, mul_le_mul_iff_left₀ hw]
  have a2 : v < lo + (j + 1) * ((hi - lo) / bins) ↔ t < j + 1 := by
    rw [hv]; rw [add_lt_add_iff_left, mul_lt_mul_iff_left₀ hw]
  have a3 : v = hi ↔ t = bins := by
    constructor
    · intro h; rw [ht, h]; field_simp
    · intro h; rw [hv, h]; field_simp; ring
  unfold InBin binIdx
  rw [← ht, a1, a2, a3]
  have b1 : (j : ℚ) ≤ t ↔ (j : ℤ) ≤ ⌊t⌋ := by rw [Int.le_floor]; norm_cast
  have b2 : t < j + 1 ↔ ⌊t⌋ < (j : ℤ) + 1 := by rw [Int.floor_lt]; push_cast; rfl
  have ttop : t ≤ bins := by
    rw [ht]
    have : (v - lo) / (hi - lo) ≤ 1 := by rw [div_le_one hr]; linarith
    nlinarith
  have b3 : t = bins ↔ ⌊t⌋ = bins := by
    constructor
    · intro h; rw [h]; simp
    · intro h
      have := Int.floor_le t
      rw [h] at this
      exact le_antisymm ttop (by exact_mod_cast this)
  rw [b1, b2, b3]
  split_ifs with h
  · rw [h]; constructor <;> intro g <;> omega
  · constructor <;> intro g
    · omega
    · omega

theorem bump_ok (scores : List Nat) (i : Nat) (h : i < scores.length) :
    bump scores (i : ℤ) = .ok (scores.modify i (· + 1)) := by
  unfold bump
  simp only [show ¬ ((i : ℤ) < 0) by omega, if_false]
  rw [if_pos (by omega)]
  simp

theorem binLoop_ok {lo hi : ℚ} {bins : Nat} (hlh : lo < hi) (hb : 1 ≤ bins) (qs : List ℚ) (scores : List Nat)
    (hl : scores.length = bins) (h : ∀ v ∈ qs, lo ≤ v ∧ v ≤ hi) :
    ∃ out, binLoop bins (.fin lo) (.fin (hi - lo)) (qs.map .fin) scores = .ok out ∧ out.length = bins ∧
      ∀ j, j < bins → out.getD j 0 = scores.getD j 0 + qs.countP (fun v => decide (InBin lo hi bins j v)) := by
  induction qs generalizing scores with
  | nil => exact ⟨scores, rfl, hl, by simp⟩
  | cons v qs ih =>
    obtain ⟨h1, h2⟩ := h v (by simp)
    obtain ⟨f0, f1, f2⟩ := binIdx_lt hlh hb h1 h2
    have hr : hi - lo ≠ 0 := (sub_pos.2 hlh).ne'
    have t0 : 0 ≤ (v - lo) / (hi - lo) * bins :=
      mul_nonneg (div_nonneg (by linarith) (sub_pos.2 hlh).le) (by positivity)
    obtain ⟨out, e1, e2, e3⟩ := ih (scores.modify (binIdx lo hi bins v) (· + 1)) (by simpa using hl)
      (fun x hx => h x (by simp [hx]))
    refine ⟨out, ?_, e2, ?_⟩
    · rw [List.map_cons]
      unfold binLoop
      simp only [PyFloat.sub, PyFloat.div, Exact.rnd_eq, if_neg hr, PyFloat.mul, toIntF, truncQ, if_pos t0, bind, Except.bind]
      have : (if ⌊(v - lo) / (hi - lo) * (bins : ℚ)⌋ = (bins : ℤ) then ⌊(v - lo) / (hi - lo) * (bins : ℚ)⌋ - 1
          else ⌊(v - lo) / (hi - lo) * (bins : ℚ)⌋) = ((binIdx lo hi bins v : ℕ) : ℤ) := by
        unfold binIdx; split_ifs <;> omega
      rw [this, bump_ok _ _ (by omega)]
      exact e1
    · intro j hj
      rw [e3 j hj, List.countP_cons]
      simp only [inBin_iff hlh hb h1 h2 hj, decide_eq_true_eq]
      rw [List.getD_eq_getElem?_getD, List.getD_eq_getElem?_getD, List.getElem?_modify]
      have hjs : j < scores.length := by omega
      rw [List.getElem?_eq_getElem hjs]
      split_ifs <;> simp <;> omega

theorem binLoop_equal {lo : ℚ} {bins : Nat} (v : PyFloat) (vs : List PyFloat) (scores : List Nat) (hv : v = .fin lo) :
    binLoop bins (.fin lo) (.fin 0) (v :: vs) scores = .error .zeroDivisionError := by
  subst hv
  unfold binLoop
  simp only [PyFloat.sub, PyFloat.div, Exact.rnd_eq, if_true, bind, Except.bind]

end

/-- Counting bin by bin counts every value once. -/
theorem sum_bins {lo hi : ℚ} {bins : Nat} (hlh : lo < hi) (hb : 1 ≤ bins) (qs : List ℚ) (h : ∀ v ∈ qs, lo ≤ v ∧ v ≤ hi) :
    ∑ j ∈ Finset.range bins, qs.countP (fun v => decide (InBin lo hi bins j v)) = qs.length := by
  letI : Rounding := ratRounding
  haveI : Exact := ⟨fun _ => rfl⟩
  induction qs with
  | nil => simp
  | cons v qs ih =>
    obtain ⟨h1, h2⟩ := h v (by simp)
    simp only [List.countP_cons, Finset.sum_add_distrib, ih (fun x hx => h x (by simp [hx])), List.length_cons]
    congr 1
    have e : ∀ j ∈ Finset.range bins, (if decide (InBin lo hi bins j v) = true then 1 else 0) =
        if binIdx lo hi bins v = j then 1 else 0 := by
      intro j hj
      simp only [decide_eq_true_eq, inBin_iff hlh hb h1 h2 (Finset.mem_range.1 hj)]
    rw [Finset.sum_congr rfl e, Finset.sum_ite_eq]
    rw [if_pos (Finset.mem_range.2 (binIdx_lt hlh hb h1 h2).2.2)]

theorem sum_getD (l : List Nat) : l.sum = ∑ j ∈ Finset.range l.length, l.getD j 0 := by
  induction l with
  | nil => simp
  | cons a l ih =>
    rw [List.sum_cons, List.length_cons, Finset.sum_range_succ', ih]
    simp [Nat.add_comm]

/-- The held values are rational when the stream is. -/
theorem held_fin [Rounding] (n : Nat) (ops : List (StreamOp PyFloat)) (qs : List ℚ) (hq : streamValues ops = qs.map .fin) :
    ∃ hs : List ℚ, ((init n).runOps ops).sample.getValues = hs.map .fin ∧ hs.length = Min.min n qs.length ∧ ∀ x ∈ hs, x ∈ qs := by
  rw [sample_runOps]
  obtain ⟨idx, h⟩ := UniformSample.holds_runOps (PyFloat.fin 0) n ops
  have hf := h.getValues
  have hl := h.il
  rw [hq] at hf hl
  rw [List.length_map] at hl
  generalize ((UniformSample.init (PyFloat.fin 0) n).runOps (PyFloat.fin 0) ops).getValues = vals at *
  rw [← hl]
  clear hl h
  induction hf with
  | nil => exact ⟨[], rfl, rfl, by simp⟩
  | cons h1 _ ih =>
    obtain ⟨hs, e1, e2, e3⟩ := ih
    rw [List.getElem?_map] at h1
    obtain ⟨q, hq1, hq2⟩ := Option.map_eq_some_iff.1 h1
    refine ⟨q :: hs, by rw [e1, ← hq2]; rfl, by simp [e2], ?_⟩
    intro x hx
    rcases List.mem_cons.1 hx with rfl | hx
    · exact List.mem_of_getElem? hq1
    · exact e3 x hx

end Histogram
end Txstatsd
