import Verif.Props.Sampling
import Verif.Lemmas.SampleShare

/-!
# C159: a sampled count is seldom far off
-/

set_option linter.unusedVariables false

namespace Txstatsd
open Spec

theorem sum_map_mul_left (L : List (List ℚ)) (c : ℚ) (G : List ℚ → ℚ) : (L.map fun ds => c * G ds).sum = c * (L.map G).sum := by
  induction L with
  | nil => simp
  | cons d L ih => simp only [List.map_cons, List.sum_cons, ih]; ring

theorem sum_flatMap_sq (l : List Nat) (L : List (List ℚ)) (y x : Nat → ℚ) (G f : List ℚ → ℚ)
    (hf : ∀ k ∈ l, ∀ ds ∈ L, f (x k :: ds) = (y k + G ds) ^ 2) :
    ((l.flatMap fun k => L.map fun ds => x k :: ds).map f).sum =
      L.length * (l.map fun k => y k ^ 2).sum + 2 * (l.map y).sum * (L.map G).sum + l.length * (L.map fun ds => G ds ^ 2).sum := by
  induction l with
  | nil => simp
  | cons k l ih =>
    simp only [List.flatMap_cons, List.map_append, List.sum_append, List.map_map]
    rw [ih fun k' hk' => hf k' (by simp [hk'])]
    have : (L.map (f ∘ fun ds => x k :: ds)).sum = L.length * y k ^ 2 + 2 * y k * (L.map G).sum + (L.map fun ds => G ds ^ 2).sum := by
      have hh : L.map (f ∘ fun ds => x k :: ds) = L.map fun ds => (y k ^ 2 + 2 * y k * G ds) + G ds ^ 2 := by
        refine List.map_congr_left fun ds hds => ?_
        show f (x k :: ds) = _
        rw [hf k (by simp) ds hds]; ring
      rw [hh, List.sum_map_add, List.sum_map_add, sum_map_const, sum_map_mul_left]
    rw [this]
    simp only [List.map_cons, List.sum_cons, List.length_cons]
    push_cast
    ring

/-- The factor by which a sampled counter counts on average (C98). -/
theorem sum_kept (r : ℚ) (h0 : 0 < r) (h1 : r < 1) (N : Nat) (hN : 0 < N) (a b : ℚ) :
    ((List.range N).map fun (k : Nat) => if decide ((k : ℚ) / N ≤ r) then a else b).sum =
      ((⌊r * N⌋₊ : ℚ) + 1) * a + (N - ((⌊r * N⌋₊ : ℚ) + 1)) * b := by
  have h : ∀ l : List Nat, (l.map fun (k : Nat) => if decide ((k : ℚ) / N ≤ r) then a else b).sum =
      ((l.filter fun (k : Nat) => decide ((k : ℚ) / N ≤ r)).length : ℚ) * a +
        (l.length - ((l.filter fun (k : Nat) => decide ((k : ℚ) / N ≤ r)).length : ℚ)) * b := by
    intro l
    induction l with
    | nil => simp
    | cons k l ih =>
      rw [List.map_cons, List.sum_cons, ih, List.filter_cons]
      by_cases hk : (k : ℚ) / N ≤ r
      · simp only [hk, decide_true, if_true, List.length_cons]; push_cast; ring
      · simp only [hk, decide_false, Bool.false_eq_true, if_false, List.length_cons]; push_cast; ring
  rw [h, filter_draws r h0.le h1 N hN, List.length_range]
  push_cast
  ring

/-- The variance of a sampled count. -/
theorem variance_counted (r : ℚ) (h0 : 0 < r) (h1 : r < 1) (N : Nat) (hN : 0 < N) : ∀ zs : List ℤ,
    ((allDraws N zs.length).map fun ds =>
      (((countedFor r zs ds).map fun p => p.1 / p.2).sum - (zs.sum : ℚ) * (((⌊r * N⌋₊ : ℚ) + 1) / (r * N))) ^ 2).sum =
      (N : ℚ) ^ zs.length * (((zs.map fun z => z ^ 2).sum : ℤ) *
        ((((⌊r * N⌋₊ : ℚ) + 1) / N) * (1 - ((⌊r * N⌋₊ : ℚ) + 1) / N) / r ^ 2)) := by
  have hNq : (N : ℚ) ≠ 0 := by exact_mod_cast hN.ne'
  intro zs
  induction zs with
  | nil => simp [allDraws, countedFor]
  | cons z zs ih =>
    simp only [List.length_cons, allDraws]
    set M : ℚ := (⌊r * N⌋₊ : ℚ) + 1 with hM
    rw [sum_flatMap_sq (List.range N) (allDraws N zs.length)
      (fun k => if decide ((k : ℚ) / N ≤ r) then (z : ℚ) / r - z * (M / (r * N)) else - (z * (M / (r * N))))
      (fun k => (k : ℚ) / N)
      (fun ds => ((countedFor r zs ds).map fun p => p.1 / p.2).sum - (zs.sum : ℚ) * (M / (r * N)))]
    · have e1 : ((List.range N).map fun (k : Nat) =>
          (if decide ((k : ℚ) / N ≤ r) then (z : ℚ) / r - z * (M / (r * N)) else - (z * (M / (r * N)))) ^ 2).sum =
          M * ((z : ℚ) / r - z * (M / (r * N))) ^ 2 + (N - M) * (- (z * (M / (r * N)))) ^ 2 := by
        rw [hM, ← sum_kept r h0 h1 N hN]
        congr 1
        refine List.map_congr_left fun k _ => ?_
        split <;> rfl
      have e2 : ((List.range N).map fun (k : Nat) =>
          (if decide ((k : ℚ) / N ≤ r) then (z : ℚ) / r - z * (M / (r * N)) else - (z * (M / (r * N))))).sum = 0 := by
        rw [sum_kept r h0 h1 N hN, ← hM]
        field_simp
        ring
      rw [e1, e2, ih, length_allDraws, List.length_range, List.map_cons, List.sum_cons, pow_succ]
      push_cast
      field_simp
      ring
    · intro k _ ds _
      by_cases h : (k : ℚ) / N ≤ r
      · simp only [countedFor, List.zip_cons_cons, List.filterMap_cons, h, if_true, decide_true, List.map_cons, List.sum_cons]
        push_cast; ring
      · simp only [countedFor, List.zip_cons_cons, List.filterMap_cons, h, if_false, decide_false, List.sum_cons, Bool.false_eq_true]
        push_cast; ring

section
variable [Rounding]

/-- C159: increments `zs` of one name through a new `Metrics` object at a rate below one (conditions as in `C98_expectation`). What the
texts written add to the counter differs from the sum of the increments by more than its `1/(rate N)`-th part plus `t` in a share of at
most `Σ zs² (1 - rate) (1 + 1/(rate N)) / (rate t²)` of the sequences of draws from the multiples of `1/N`. -/
theorem C159_seldom [IntExact] (fmt : PyFloat → Str) (c : Client) (hconn : c.conn = true) (hext : c.ext = false)
    (hnew : c.metrics = []) (name : Option Str) (hk : ∀ x ∈ qualified c.namespc name, Legal x) (r : ℚ) (h0 : 0 < r) (h1 : r < 1)
    (hne : fmt (.fin r) ≠ []) (hd : ∀ x ∈ fmt (.fin r), x.isDigit = true ∨ x = '.')
    (hr : parseFloat (fmt (.fin r)) = some (.fin r)) (zs : List ℤ) (hz : ∀ z ∈ zs, |z| ≤ 2 ^ 53) (N : Nat) (hN : 0 < N)
    (t : ℚ) (ht : 0 < t) :
    ∃ f : List ℚ → ℚ,
      (∀ ds, ∃ qs : List (ℚ × ℚ), Increments (qualified c.namespc name) (written (c.run fmt (sampledCalls name r zs ds)).2)
        (qs.map fun p => (.fin p.1, .fin p.2)) ∧ f ds = (qs.map fun p => p.1 / p.2).sum) ∧
      ((allDraws N zs.length).countP fun ds => decide (t + |(zs.sum : ℚ)| / (r * N) ≤ |f ds - (zs.sum : ℚ)|) : ℚ) / (N : ℚ) ^ zs.length ≤
        ((zs.map fun z => z ^ 2).sum : ℤ) * ((1 - r) * (1 + 1 / (r * N))) / (r * t ^ 2) := by
  refine ⟨fun ds => ((countedFor r zs ds).map fun p => p.1 / p.2).sum, fun ds => ⟨countedFor r zs ds,
    sampled_increments fmt c.namespc name r h0 h1 hk hne hd hr zs ds c hz rfl ⟨hconn, hext, Or.inl (by rw [hnew]; rfl)⟩, rfl⟩, ?_⟩
  have hNq : (0 : ℚ) < N := by exact_mod_cast hN
  have hrN : 0 < r * N := by positivity
  obtain ⟨b1, b2⟩ := C98_bias_partial r h0 N hN
  have hvar := variance_counted r h0 h1 N hN zs
  set m : ℚ := ((⌊r * N⌋₊ : ℚ) + 1) / (r * N) with hm
  have hq : ((⌊r * N⌋₊ : ℚ) + 1) / N = r * m := by rw [hm]; field_simp
  rw [hq] at hvar
  have hcheb := UniformSample.countP_mul_le (allDraws N zs.length)
    (fun ds => decide (t + |(zs.sum : ℚ)| / (r * N) ≤ |((countedFor r zs ds).map fun p => p.1 / p.2).sum - (zs.sum : ℚ)|))
    (fun ds => (((countedFor r zs ds).map fun p => p.1 / p.2).sum - (zs.sum : ℚ) * m) ^ 2) (t ^ 2) (fun _ _ => sq_nonneg _) (by
      intro ds _ h
      rw [decide_eq_true_eq] at h
      beta_reduce
      rw [← sq_abs (_ - _)]
      refine pow_le_pow_left₀ ht.le ?_ 2
      have h3 : |(zs.sum : ℚ) * m - zs.sum| ≤ |(zs.sum : ℚ)| / (r * N) := by
        rw [show (zs.sum : ℚ) * m - zs.sum = zs.sum * (m - 1) by ring, abs_mul, div_eq_mul_one_div]
        refine mul_le_mul_of_nonneg_left ?_ (abs_nonneg _)
        rw [abs_of_pos (by linarith)]; linarith
      have h4 := abs_sub_le (((countedFor r zs ds).map fun p => p.1 / p.2).sum) ((zs.sum : ℚ) * m) (zs.sum : ℚ)
      linarith)
  rw [hvar] at hcheb
  have hpow : (0 : ℚ) < (N : ℚ) ^ zs.length := by positivity
  rw [div_le_iff₀ hpow, ← mul_le_mul_iff_left₀ (pow_pos ht 2)]
  refine hcheb.trans ?_
  have hsq : (0 : ℚ) ≤ ((zs.map fun z => z ^ 2).sum : ℤ) := by
    have : (0 : ℤ) ≤ (zs.map fun z => z ^ 2).sum := List.sum_nonneg fun x hx => by
      obtain ⟨z, -, rfl⟩ := List.mem_map.1 hx
      exact sq_nonneg z
    exact_mod_cast this
  have hbound : r * m * (1 - r * m) / r ^ 2 ≤ (1 - r) * (1 + 1 / (r * N)) / r := by
    rw [div_le_div_iff₀ (by positivity) h0]
    have hm1 : r * m * (1 - r * m) ≤ r * (1 + 1 / (r * N)) * (1 - r) := by
      have h5 : r * m ≤ r * (1 + 1 / (r * N)) := mul_le_mul_of_nonneg_left b2 h0.le
      have h6 : 1 - r * m ≤ 1 - r := by nlinarith
      have h7 : 0 ≤ r * m := by positivity
      calc r * m * (1 - r * m) ≤ r * m * (1 - r) := mul_le_mul_of_nonneg_left h6 h7
        _ ≤ _ := mul_le_mul_of_nonneg_right h5 (by linarith)
    calc r * m * (1 - r * m) * r ≤ r * (1 + 1 / (r * N)) * (1 - r) * r := mul_le_mul_of_nonneg_right hm1 h0.le
      _ = _ := by ring
  calc (N : ℚ) ^ zs.length * (((zs.map fun z => z ^ 2).sum : ℤ) * (r * m * (1 - r * m) / r ^ 2))
      ≤ (N : ℚ) ^ zs.length * (((zs.map fun z => z ^ 2).sum : ℤ) * ((1 - r) * (1 + 1 / (r * N)) / r)) :=
        mul_le_mul_of_nonneg_left (mul_le_mul_of_nonneg_left hbound hsq) hpow.le
    _ = _ := by field_simp

end

/-- A thousand increments by one at rate 1/10 are counted as less than 800 or more than 1200 in less than a quarter of the cases. -/
example : ((((List.replicate 1000 (1 : ℤ)).map fun z => z ^ 2).sum : ℤ) : ℚ) * ((1 - 1 / 10) * (1 + 1 / (1 / 10 * (2 ^ 53 : ℕ)))) /
    (1 / 10 * 199 ^ 2) < 1 / 4 := by
  rw [List.map_replicate, List.sum_replicate]; norm_num

section
attribute [local instance] ratRounding

/-- The conditions are met at rate 0.5. -/
example : ∃ f : List ℚ → ℚ,
    (∀ ds, ∃ qs : List (ℚ × ℚ), Increments c!"a" (written (({ conn := true, namespc := none, ext := false } : Client).run (fun _ => c!"0.5")
        (sampledCalls (some c!"a") (1 / 2) [3, 4, -2] ds)).2) (qs.map fun p => (.fin p.1, .fin p.2)) ∧
      f ds = (qs.map fun p => p.1 / p.2).sum) ∧
    ((allDraws 1000 3).countP fun ds => decide (8 + |((5 : ℤ) : ℚ)| / (1 / 2 * (1000 : ℕ)) ≤ |f ds - ((5 : ℤ) : ℚ)|) : ℚ) / ((1000 : ℕ) : ℚ) ^ 3 ≤
      ((29 : ℤ) : ℚ) * ((1 - 1 / 2) * (1 + 1 / (1 / 2 * (1000 : ℕ)))) / (1 / 2 * 8 ^ 2) := by
  have : IntExact := ⟨fun _ _ => rfl⟩
  exact C159_seldom (fun _ => c!"0.5") { conn := true, namespc := none, ext := false } rfl rfl rfl (some c!"a")
    (by decide) (1 / 2) (by norm_num) (by norm_num) (by decide) (by decide) (by decide +kernel) [3, 4, -2] (by decide) 1000 (by norm_num)
    8 (by norm_num)

end

end Txstatsd
