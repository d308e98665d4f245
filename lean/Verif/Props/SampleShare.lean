import Verif.Spec.SampleShare
import Verif.Lemmas.SampleShare
import Verif.Props.Samples
import Verif.Props.Histograms

/-!
# C158: a sample is seldom far off
-/

set_option linter.unusedVariables false

namespace Txstatsd
open Spec

theorem drawSequences_pos (N : Nat) : (0 : ℚ) < (drawSequences N).length := by
  rw [UniformSample.length_drawSequences]
  exact_mod_cast N.factorial_pos

theorem held_share {α : Type} (zero : α) (n : Nat) (ds : List Nat) (vs : List α) (h : vs.length = ds.length) (P : α → Bool) :
    ((UniformSample.init zero n).runOps zero (streamOf ds vs)).getValues.countP P =
      ((keptPositions n ds).toFinset ∩ ((Finset.range vs.length).filter fun i => vs[i]?.any P)).card :=
  UniformSample.count_held P vs _ _ (UniformSample.kept_holds n ds).nd (C36_kept n ds zero vs h)

theorem held_length {α : Type} (zero : α) (n : Nat) (ds : List Nat) (vs : List α) (h : vs.length = ds.length) (hn : n ≤ vs.length) :
    ((UniformSample.init zero n).runOps zero (streamOf ds vs)).getValues.length = n := by
  have h1 : _ = ((UniformSample.init zero n).runOps zero (streamOf ds vs)).getValues.length := (C36_kept n ds zero vs h).length_eq
  rw [← h1, (UniformSample.kept_holds n ds).il, List.length_range, ← h]
  omega

/-- C158: on average over the draws, the share of a sample that has a property is that of the whole stream. -/
theorem C158_mean {α : Type} (zero : α) (n : Nat) (hn : 1 ≤ n) (vs : List α) (hv : n ≤ vs.length) (P : α → Bool) :
    ((drawSequences vs.length).map fun ds => shareOf P ((UniformSample.init zero n).runOps zero (streamOf ds vs)).getValues).sum /
      (drawSequences vs.length).length = shareOf P vs := by
  have hA : ((Finset.range vs.length).filter fun i => vs[i]?.any P) ⊆ Finset.range vs.length := Finset.filter_subset _ _
  have hn0 : (0 : ℚ) < n := by exact_mod_cast hn
  have hN0 : (0 : ℚ) < vs.length := by exact_mod_cast hn.trans hv
  have e1 : (drawSequences vs.length).map (fun ds => shareOf P ((UniformSample.init zero n).runOps zero (streamOf ds vs)).getValues) =
      (drawSequences vs.length).map fun ds => (fun S : Finset Nat =>
        ((S ∩ ((Finset.range vs.length).filter fun i => vs[i]?.any P)).card : ℚ) / n) (keptPositions n ds).toFinset := by
    refine List.map_congr_left fun ds hds => ?_
    have hl := (UniformSample.kept_facts hv hds).1
    unfold shareOf
    rw [held_share zero n ds vs hl.symm P, held_length zero n ds vs hl.symm hv]
  rw [e1, UniformSample.sum_draws n vs.length hv (fun S : Finset Nat =>
        ((S ∩ ((Finset.range vs.length).filter fun i => vs[i]?.any P)).card : ℚ) / n), UniformSample.length_drawSequences]
  have m1 := UniformSample.first_moment n vs.length hn hv _ hA
  rw [UniformSample.count_all] at m1
  have hf : (vs.length.choose n : ℚ) * (n.factorial * (vs.length - n).factorial : Nat) = vs.length.factorial := by
    have := Nat.choose_mul_factorial_mul_factorial hv
    rw [← this]; push_cast; ring
  rw [← Finset.sum_div]
  unfold shareOf
  rw [← hf]
  have hc : (0 : ℚ) < vs.length.choose n := by exact_mod_cast Nat.choose_pos hv
  have hff : (0 : ℚ) < (n.factorial * (vs.length - n).factorial : Nat) := by
    exact_mod_cast Nat.mul_pos n.factorial_pos (vs.length - n).factorial_pos
  rw [div_eq_div_iff (mul_pos hc hff).ne' hN0.ne']
  field_simp
  linear_combination m1

/-- C158: the chance that the two shares differ by `ε` or more is at most `1 / (4 n ε²)`, for every stream of at least `n` values. -/
theorem C158_seldom {α : Type} (zero : α) (n : Nat) (hn : 1 ≤ n) (vs : List α) (hv : n ≤ vs.length) (P : α → Bool) (ε : ℚ) (hε : 0 < ε) :
    chanceOf vs.length (fun ds => ε ≤ |shareOf P ((UniformSample.init zero n).runOps zero (streamOf ds vs)).getValues - shareOf P vs|) ≤
      1 / (4 * n * ε ^ 2) := by
  have hA : ((Finset.range vs.length).filter fun i => vs[i]?.any P) ⊆ Finset.range vs.length := Finset.filter_subset _ _
  have hn0 : (0 : ℚ) < n := by exact_mod_cast hn
  unfold chanceOf
  rw [div_le_iff₀ (drawSequences_pos _), ← mul_le_mul_iff_left₀ (pow_pos hε 2)]
  refine (UniformSample.countP_mul_le (drawSequences vs.length) _ (fun ds => (fun S : Finset Nat =>
      (((S ∩ ((Finset.range vs.length).filter fun i => vs[i]?.any P)).card : ℚ) / n - (vs.countP P : ℚ) / vs.length) ^ 2)
      (keptPositions n ds).toFinset) _ (fun ds _ => sq_nonneg _) ?_).trans ?_
  · intro ds hds h
    have hl := (UniformSample.kept_facts hv hds).1
    have h := @of_decide_eq_true _ (Classical.propDecidable _) h
    beta_reduce at h
    unfold shareOf at h
    rw [held_share zero n ds vs hl.symm P, held_length zero n ds vs hl.symm hv] at h
    beta_reduce
    rw [← sq_abs (_ - _)]
    exact pow_le_pow_left₀ hε.le h 2
  · rw [UniformSample.sum_draws n vs.length hv (fun S : Finset Nat =>
      (((S ∩ ((Finset.range vs.length).filter fun i => vs[i]?.any P)).card : ℚ) / n - (vs.countP P : ℚ) / vs.length) ^ 2), UniformSample.length_drawSequences]
    have hvar := UniformSample.variance_le n vs.length hn hv _ hA
    rw [UniformSample.count_all] at hvar
    have hf : (vs.length.choose n : ℚ) * (n.factorial * (vs.length - n).factorial : Nat) = vs.length.factorial := by
      have := Nat.choose_mul_factorial_mul_factorial hv
      rw [← this]; push_cast; ring
    refine (mul_le_mul_of_nonneg_left hvar (by positivity)).trans (le_of_eq ?_)
    rw [← hf]
    field_simp

theorem chanceOf_mono {N : Nat} {Q R : List Nat → Prop} (h : ∀ ds ∈ drawSequences N, Q ds → R ds) : chanceOf N Q ≤ chanceOf N R := by
  unfold chanceOf
  refine div_le_div_of_nonneg_right ?_ (drawSequences_pos N).le
  refine Nat.cast_le.2 (List.countP_mono_left fun ds hds hq => ?_)
  exact @decide_eq_true _ (Classical.propDecidable _) (h ds hds (@of_decide_eq_true _ (Classical.propDecidable _) hq))

theorem sorted_le_of_count {l : List ℚ} (hs : l.Pairwise (· ≤ ·)) (x : ℚ) {k : Nat} (hk : k < l.countP fun q => decide (q ≤ x)) {y : ℚ}
    (hy : l[k]? = some y) : y ≤ x := by
  by_contra hlt
  push Not at hlt
  have hkl := (List.getElem?_eq_some_iff.1 hy).1
  have hdrop : (l.drop k).countP (fun q => decide (q ≤ x)) = 0 := by
    rw [List.countP_eq_zero]
    intro q hq
    obtain ⟨j, hj⟩ := List.mem_iff_getElem?.1 hq
    rw [List.getElem?_drop] at hj
    simp only [decide_eq_true_eq, not_le]
    refine lt_of_lt_of_le hlt ?_
    rcases Nat.eq_zero_or_pos j with rfl | hj0
    · rw [Nat.add_zero, hy] at hj; cases hj; exact le_refl _
    · obtain ⟨h1, h2⟩ := List.getElem?_eq_some_iff.1 hy
      obtain ⟨h3, h4⟩ := List.getElem?_eq_some_iff.1 hj
      rw [← h2, ← h4]
      exact List.pairwise_iff_getElem.1 hs _ _ h1 h3 (by omega)
  have : l.countP (fun q => decide (q ≤ x)) ≤ k := by
    conv_lhs => rw [← List.take_append_drop k l]
    rw [List.countP_append, hdrop, Nat.add_zero]
    exact List.countP_le_length.trans (by simp)
  omega

theorem sorted_ge_of_count {l : List ℚ} (hs : l.Pairwise (· ≤ ·)) (x : ℚ) {y : ℚ}
    (hy : l[l.countP fun q => decide (q < x)]? = some y) : x ≤ y := by
  by_contra hlt
  push Not at hlt
  obtain ⟨hkl, h2⟩ := List.getElem?_eq_some_iff.1 hy
  have : (l.take ((l.countP fun q => decide (q < x)) + 1)).countP (fun q => decide (q < x)) =
      (l.take ((l.countP fun q => decide (q < x)) + 1)).length := by
    rw [List.countP_eq_length]
    intro q hq
    obtain ⟨j, hj⟩ := List.mem_iff_getElem?.1 hq
    obtain ⟨h3, h4⟩ := List.getElem?_eq_some_iff.1 hj
    rw [List.length_take] at h3
    rw [List.getElem_take] at h4
    simp only [decide_eq_true_eq]
    refine lt_of_le_of_lt ?_ hlt
    rw [← h2, ← h4]
    rcases Nat.lt_or_ge j (l.countP fun q => decide (q < x)) with h | h
    · exact List.pairwise_iff_getElem.1 hs _ _ _ _ h
    · have : j = l.countP fun q => decide (q < x) := by omega
      subst this; exact le_refl _
  have h5 := (List.take_sublist ((l.countP fun q => decide (q < x)) + 1) l).countP_le (p := fun q => decide (q < x))
  rw [this, List.length_take] at h5
  omega

section
variable [Rounding] [Exact]

theorem stream_values {ds : List Nat} {vs : List PyFloat} (h : vs.length = ds.length) : streamValues (streamOf ds vs) = vs := by
  have key : ∀ (l : List (Nat × PyFloat)) (acc : List PyFloat), l.foldl (fun acc p => acc ++ [p.2]) acc = acc ++ l.map Prod.snd := by
    intro l
    induction l with
    | nil => intro acc; simp
    | cons p l ih => intro acc; rw [List.foldl_cons, ih]; simp
  unfold streamValues streamOf
  show List.foldl _ _ (List.map _ _) = _
  rw [List.foldl_map]
  refine (key (ds.zip vs) []).trans ?_
  rw [List.nil_append, List.map_snd_zip (by omega)]

/-- What the score tells about the share of the sample. -/
theorem score_share (n : Nat) (hn : 1 ≤ n) (qs : List ℚ) (hv : n ≤ qs.length) (p : ℚ) (h0 : 0 < p) (h1 : p < 1) (x : ℚ)
    (ds : List Nat) (hds : ds ∈ drawSequences qs.length) (y : ℚ)
    (hy : ((Histogram.init n).runOps (streamOf ds (qs.map .fin))).percentiles [p] = .ok [.fin y]) :
    (x < y → shareOf (fun v : PyFloat => v.le (.fin x)) ((UniformSample.init (.fin 0) n).runOps (.fin 0)
        (streamOf ds (qs.map PyFloat.fin))).getValues < p + p / n) ∧
    (y < x → p - (1 - p) / n < shareOf (fun v : PyFloat => v.lt (.fin x)) ((UniformSample.init (.fin 0) n).runOps (.fin 0)
        (streamOf ds (qs.map PyFloat.fin))).getValues) := by
  have hn0 : (0 : ℚ) < n := by exact_mod_cast hn
  have hl := (UniformSample.kept_facts hv hds).1
  have hne : qs ≠ [] := by intro h; rw [h] at hv; simp at hv; omega
  obtain ⟨held, -, e2, score, e3, -, e5, e6⟩ := C32_percentiles n hn (streamOf ds (qs.map .fin)) qs
    (stream_values (by simp [hl])) hne
  rw [e3] at hy
  simp only [List.map_cons, List.map_nil, Except.ok.injEq, List.cons.injEq, PyFloat.fin.injEq, and_true] at hy
  subst hy
  rw [Histogram.sample_runOps] at e2
  rw [show ((UniformSample.init (.fin 0) n).runOps (.fin 0) (streamOf ds (qs.map PyFloat.fin))).getValues = held.map .fin from e2]
  have hlen : held.length = n := by
    have := held_length (PyFloat.fin 0) n ds (qs.map PyFloat.fin) (by simp [hl]) (by simpa using hv)
    rw [show ((UniformSample.init (.fin 0) n).runOps (.fin 0) (streamOf ds (qs.map PyFloat.fin))).getValues = held.map .fin from e2,
      List.length_map] at this
    exact this
  have hs := Histogram.sorted_mergeSort held
  have hp := List.mergeSort_perm held (fun a b => decide (a ≤ b))
  unfold shareOf
  rw [List.length_map, hlen]
  constructor
  · intro hlt
    rw [List.countP_map]
    have hc : held.countP ((fun v : PyFloat => v.le (.fin x)) ∘ PyFloat.fin) = held.countP fun q => decide (q ≤ x) := by
      congr 1
    rw [hc]
    by_contra hge
    push Not at hge
    have h2 : p * (n + 1) ≤ (held.countP fun q => decide (q ≤ x) : ℕ) := by
      rw [le_div_iff₀ hn0] at hge
      have : (p + p / n) * n = p * (n + 1) := by field_simp
      linarith
    have hpos : 0 < held.countP fun q => decide (q ≤ x) := by
      have : (0 : ℚ) < (held.countP fun q => decide (q ≤ x) : ℕ) := lt_of_lt_of_le (by positivity) h2
      exact_mod_cast this
    obtain ⟨k, hk⟩ : ∃ k, held.countP (fun q => decide (q ≤ x)) = k + 1 := ⟨_, (Nat.succ_pred_eq_of_pos hpos).symm⟩
    have hkl : k < held.length := by
      have := List.countP_le_length (p := fun q => decide (q ≤ x)) (l := held)
      omega
    have hkl' : k < (held.mergeSort fun a b => decide (a ≤ b)).length := by rw [hp.length_eq]; exact hkl
    have h3 := e6 _ hs hp k _ (List.getElem?_eq_getElem hkl')
    have h4 := sorted_le_of_count hs x (k := k) (by rw [hp.countP_eq]; omega) (List.getElem?_eq_getElem hkl')
    have h5 := e5 p (((k : ℚ) + 1) / ((held.length : ℚ) + 1)) (by
      rw [hlen, le_div_iff₀ (by positivity)]
      rw [hk] at h2; push_cast at h2; exact h2)
    rw [h3] at h5
    linarith
  · intro hlt
    rw [List.countP_map]
    have hc : held.countP ((fun v : PyFloat => v.lt (.fin x)) ∘ PyFloat.fin) = held.countP fun q => decide (q < x) := by
      congr 1
    rw [hc]
    by_contra hge
    push Not at hge
    have h2 : ((held.countP fun q => decide (q < x) : ℕ) : ℚ) + 1 ≤ p * (n + 1) := by
      rw [div_le_iff₀ hn0] at hge
      have : (p - (1 - p) / n) * n = p * (n + 1) - 1 := by field_simp; ring
      linarith
    have hkl : held.countP (fun q => decide (q < x)) < held.length := by
      have : ((held.countP fun q => decide (q < x) : ℕ) : ℚ) < n := by nlinarith
      rw [hlen]; exact_mod_cast this
    have hkl' : (held.mergeSort fun a b => decide (a ≤ b)).countP (fun q => decide (q < x)) <
        (held.mergeSort fun a b => decide (a ≤ b)).length := by rw [hp.length_eq, hp.countP_eq]; exact hkl
    have h3 := e6 _ hs hp _ _ (List.getElem?_eq_getElem hkl')
    have h4 := sorted_ge_of_count hs x (List.getElem?_eq_getElem hkl')
    have h5 := e5 (((((held.mergeSort fun a b => decide (a ≤ b)).countP (fun q => decide (q < x)) : ℕ) : ℚ) + 1) / ((held.length : ℚ) + 1)) p (by
      rw [hlen, div_le_iff₀ (by positivity), hp.countP_eq]; exact h2)
    rw [h3] at h5
    linarith

/-- C158: a percentile reported from a sample of `n` is seldom too great: for a share `p + p/n + ε` of the stream at or below `x`,
the chance of a score above `x` is at most `1 / (4 n ε²)`. -/
theorem C158_percentile_above (n : Nat) (hn : 1 ≤ n) (qs : List ℚ) (hv : n ≤ qs.length) (p : ℚ) (h0 : 0 < p) (h1 : p < 1) (x ε : ℚ)
    (hε : 0 < ε) (hx : p + p / n + ε ≤ shareOf (fun q => decide (q ≤ x)) qs) :
    chanceOf qs.length (fun ds => ∃ y, ((Histogram.init n).runOps (streamOf ds (qs.map .fin))).percentiles [p] = .ok [.fin y] ∧ x < y) ≤
      1 / (4 * n * ε ^ 2) := by
  have hs : shareOf (fun v : PyFloat => v.le (.fin x)) (qs.map .fin) = shareOf (fun q => decide (q ≤ x)) qs := by
    unfold shareOf
    rw [List.countP_map, List.length_map]
    congr 3
  have h := C158_seldom (PyFloat.fin 0) n hn (qs.map .fin) (by simpa using hv) (fun v => v.le (.fin x)) ε hε
  rw [List.length_map] at h
  refine (chanceOf_mono fun ds hds ⟨y, hy, hxy⟩ => ?_).trans h
  have := (score_share n hn qs hv p h0 h1 x ds hds y hy).1 hxy
  rw [hs]
  rw [abs_sub_comm]
  exact (by linarith : ε ≤ _).trans (le_abs_self _)

/-- C158: and seldom too small: for a share of at most `p - (1 - p)/n - ε` of the stream below `x`, the chance of a score below `x` is
at most `1 / (4 n ε²)`. -/
theorem C158_percentile_below (n : Nat) (hn : 1 ≤ n) (qs : List ℚ) (hv : n ≤ qs.length) (p : ℚ) (h0 : 0 < p) (h1 : p < 1) (x ε : ℚ)
    (hε : 0 < ε) (hx : shareOf (fun q => decide (q < x)) qs ≤ p - (1 - p) / n - ε) :
    chanceOf qs.length (fun ds => ∃ y, ((Histogram.init n).runOps (streamOf ds (qs.map .fin))).percentiles [p] = .ok [.fin y] ∧ y < x) ≤
      1 / (4 * n * ε ^ 2) := by
  have hs : shareOf (fun v : PyFloat => v.lt (.fin x)) (qs.map .fin) = shareOf (fun q => decide (q < x)) qs := by
    unfold shareOf
    rw [List.countP_map, List.length_map]
    congr 3
  have h := C158_seldom (PyFloat.fin 0) n hn (qs.map .fin) (by simpa using hv) (fun v => v.lt (.fin x)) ε hε
  rw [List.length_map] at h
  refine (chanceOf_mono fun ds hds ⟨y, hy, hxy⟩ => ?_).trans h
  have := (score_share n hn qs hv p h0 h1 x ds hds y hy).2 hxy
  rw [hs]
  exact (by linarith : ε ≤ _).trans (le_abs_self _)

end
section
attribute [local instance] ratRounding

/-- The size of the samples of the service: an error of a tenth has a chance of less than one in forty. -/
example : (1 : ℚ) / (4 * (1028 : ℕ) * (1 / 10) ^ 2) < 1 / 40 := by norm_num

/-- Conditions that are met: two of the values 1, 2, 3, 4 are held. -/
example : chanceOf 4 (fun ds => ∃ y, ((Histogram.init 2).runOps (streamOf ds (([1, 2, 3, 4] : List ℚ).map .fin))).percentiles [1 / 4]
    = .ok [.fin y] ∧ 3 < y) ≤ 1 / (4 * (2 : ℕ) * (3 / 8) ^ 2) :=
  C158_percentile_above 2 (by norm_num) [1, 2, 3, 4] (by decide) (1 / 4) (by norm_num) (by norm_num) 3 (3 / 8) (by norm_num)
    (by unfold shareOf; norm_num)

/-- A draw for which the score is greater: the sample holds 3 and 4. -/
example : [0, 0, 0, 1] ∈ drawSequences 4 ∧
    ((UniformSample.init (0 : ℚ) 2).runOps 0 (streamOf [0, 0, 0, 1] [1, 2, 3, 4])).getValues = [3, 4] := by decide +kernel

end
end Txstatsd
