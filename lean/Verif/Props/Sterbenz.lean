import Verif.Lemmas.Sterbenz
import Verif.Lemmas.Ieee
import Verif.Props.Metrics
import Verif.Model.Http
import Verif.Model.Sli

/-!
# Durations, lines and thresholds in doubles: C139
-/

namespace Txstatsd
open Spec

section
variable [Rounding] [Ieee]

/-! ## Durations -/

/-- C139: differences of clock readings within a factor of two are not rounded, so that in doubles too the durations reported by
`timing` add up exactly to the time from `reset_timing` to the last call: each is only rounded when it is turned into
milliseconds. -/
theorem C139_tiling (fmt : PyFloat → Str) (c : Client) (hconn : c.conn = true) (hext : c.ext = false) (h0 : c.metrics = [])
    (before : List Client.Step) (hb : ∀ st ∈ before, ∀ r, rateOf st.call = some r → Unsampled r) (t0 draw0 : ℚ) (l : List Timed)
    (hr : ∀ p ∈ l, ∀ r, rateOf p.1 = some r → Unsampled r) (hn : ∀ p ∈ l, p.1 ≠ .resetTiming)
    (ht0 : rnd t0 = .fin t0) (hd : ∀ p ∈ l, rnd p.2.1 = .fin p.2.1) (hle : ∀ p ∈ l, p.2.1 ≤ 2 * t0)
    (hord : (t0 :: l.map fun p => p.2.1).Pairwise (· ≤ ·)) :
    let c0 := ((c.run fmt before).1.call fmt (.fin t0) draw0 .resetTiming).1
    ∃ ds : List ℚ,
      List.Forall₂ (fun (p : Timed × CallEffect) d => ∃ n r, p.1.1 = .timing n none r ∧
        p.2 = { out := some (qualified c.namespc n ++ c!":" ++ (fmt (rnd (d * 1000)) ++ c!"|ms")) })
        ((l.zip (c0.run fmt (l.map Timed.step)).2).filter fun p => measures p.1.1) ds ∧
      ds.sum = lastMeasure t0 l - t0 := by
  intro c0
  have hi : TInv c := ⟨hconn, hext, Client.wf_empty h0, by intro key m hm; rw [h0] at hm; cases hm⟩
  have hi2 := hi.run fmt before hb
  have hi3 : TInv c0 := hi2.call fmt (.fin t0) draw0 (by intro r h; cases h)
  have hs : c0.namespc = c.namespc := (Client.run_same fmt c before).2.1
  have hsub : (t0 :: measureTimes l).Sublist (t0 :: l.map fun p => p.2.1) := (List.filter_sublist.map _).cons_cons t0
  have hord' := hord.sublist hsub
  have hall : ∀ t ∈ measureTimes l, rnd t = .fin t ∧ t0 ≤ t ∧ t ≤ 2 * t0 := by
    intro t ht
    have hm := (List.pairwise_cons.1 hord').1 t ht
    simp only [measureTimes, List.mem_map, List.mem_filter] at ht
    obtain ⟨p, ⟨hp, _⟩, rfl⟩ := ht
    exact ⟨hd p hp, hm, hle p hp⟩
  have hchain : (t0 :: measureTimes l).Pairwise (fun a b => rnd (b - a) = .fin (b - a)) := by
    rw [List.pairwise_cons] at hord' ⊢
    refine ⟨fun t ht => sterbenz (hall t ht).1 ht0 (hall t ht).2.1 (hall t ht).2.2, ?_⟩
    refine hord'.2.imp_of_mem ?_
    intro a b ha hb hab
    exact sterbenz (hall b hb).1 (hall a ha).1 hab (by have := (hall b hb).2.2; have := (hall a ha).2.1; linarith)
  obtain ⟨ds, h1, h2⟩ := measure_run_any fmt l hi3 t0 rfl hr hn hchain.isChain
  have e1000 : rnd (1000 : ℚ) = .fin 1000 := by
    have : rnd ((1000 : ℤ) : ℚ) = .fin ((1000 : ℤ) : ℚ) := rnd_int (by norm_num)
    simpa using this
  rw [hs, e1000] at h1
  exact ⟨ds, h1, h2⟩

omit [Rounding] [Ieee] in
theorem lt_of_lt_le {x a b : PyFloat} (h : x.lt a = true) (h' : a.le b = true) : x.lt b = true := by
  cases x <;> cases a <;> cases b <;> simp_all [PyFloat.lt, PyFloat.le]
  linarith

omit [Rounding] [Ieee] in
theorem lt_of_le_lt {x a b : PyFloat} (h : a.le b = true) (h' : b.lt x = true) : a.lt x = true := by
  cases x <;> cases a <;> cases b <;> simp_all [PyFloat.lt, PyFloat.le]
  linarith

/-! ## Lines of the SLI conditions -/

/-- The rounded line of `above` and `below` is near the exact one. -/
theorem line_near (v s q : ℚ) (hv : rnd v = .fin v) (hb : |v| + |s * q| ≤ 2 ^ 1000) :
    ∃ y, (PyFloat.fin v).add ((PyFloat.fin s).mul (.fin q)) = .fin y ∧
      |y - (v + s * q)| ≤ (|v| + |s * q|) / 2 ^ 51 + 2 ^ (-1074 : ℤ) := by
  have big : rnd ((2 : ℚ) ^ (1001 : ℤ)) = .fin (2 ^ (1001 : ℤ)) := Ieee.rep.2 ⟨⟨1, 1001, by norm_num, by norm_num, by simp⟩, by
    rw [abs_of_pos (two_zpow_pos _)]
    exact zpow_lt_zpow_right₀ (by norm_num) (by norm_num)⟩
  have big' := rep_neg big
  have e1001 : (2 : ℚ) ^ (1001 : ℤ) = 2 ^ 1000 * 2 := by
    rw [show (1001 : ℤ) = ((1000 + 1 : ℕ) : ℤ) by norm_num, zpow_natCast, pow_succ]
  have p1000 : (1 : ℚ) ≤ 2 ^ 1000 := one_le_pow₀ (by norm_num)
  have tiny : (2 : ℚ) ^ (-1075 : ℤ) * 2 = 2 ^ (-1074 : ℤ) := by
    rw [← zpow_add_one₀ (by norm_num : (2 : ℚ) ≠ 0)]; norm_num
  have tpos := two_zpow_pos (-1075)
  have err : ∀ {q r : ℚ}, rnd q = .fin r → |r - q| ≤ |q| / 2 ^ 53 + 2 ^ (-1075 : ℤ) := Ieee.err
  have tsmall : (2 : ℚ) ^ (-1075 : ℤ) ≤ 1 / 4 := by
    have : (2 : ℚ) ^ (-1075 : ℤ) ≤ 2 ^ (-2 : ℤ) := zpow_le_zpow_right₀ (by norm_num) (by norm_num)
    refine this.trans ?_
    norm_num
  rw [e1001] at big big'
  rw [← tiny]
  clear e1001 tiny
  generalize (2 : ℚ) ^ (-1075 : ℤ) = u at *
  generalize (2 : ℚ) ^ 1000 = B at *
  have a1 := abs_nonneg v
  have a2 := abs_nonneg (s * q)
  have hsq := abs_le.1 (show |s * q| ≤ B by linarith)
  obtain ⟨m, hm, -, -⟩ := rnd_between (q := s * q) big' big (by linarith) (by linarith)
  have me := err hm
  have mb : |m| ≤ |s * q| + |m - s * q| := by
    have := abs_add_le (s * q) (m - s * q)
    rwa [show s * q + (m - s * q) = m by ring] at this
  have vb : |v + m| ≤ |v| + |m| := abs_add_le v m
  have vB : |v + m| ≤ B * 2 := by
    have : |s * q| / 2 ^ 53 ≤ B / 2 := by
      have h : |s * q| / 2 ^ 53 ≤ |s * q| / 2 := div_le_div_of_nonneg_left a2 (by norm_num) (by norm_num)
      linarith
    linarith
  have hvm := abs_le.1 vB
  obtain ⟨y, hy, -, -⟩ := rnd_between (q := v + m) big' big (by linarith) (by linarith)
  have ye := add_err hv (Ieee.idem hm) hy
  refine ⟨y, by simp only [PyFloat.mul, hm, PyFloat.add, hy], ?_⟩
  have tri : |y - (v + s * q)| ≤ |y - (v + m)| + |m - s * q| := by
    have := abs_add_le (y - (v + m)) (m - s * q)
    rwa [show y - (v + m) + (m - s * q) = y - (v + s * q) by ring] at this
  have h1 : |v + m| / 2 ^ 53 ≤ (|v| + |s * q| + (|s * q| / 2 ^ 53 + u)) / 2 ^ 53 := by
    apply div_le_div_of_nonneg_right _ (by positivity)
    linarith
  refine tri.trans ((add_le_add (ye.trans h1) me).trans ?_)
  generalize |s * q| = S at *
  generalize |v| = A at *
  have h2 : S / 2 ^ 53 / 2 ^ 53 ≤ S / 2 ^ 53 := div_le_self (by positivity) (by norm_num)
  have h3 : u / 2 ^ 53 ≤ u := div_le_self tpos.le (by norm_num)
  have h4 : 0 ≤ A / 2 ^ 53 := by positivity
  have h5 : 0 ≤ S / 2 ^ 53 := by positivity
  have h6 : (A + S) / 2 ^ 51 = 4 * (A / 2 ^ 53) + 4 * (S / 2 ^ 53) := by ring
  have h7 : (A + S + (S / 2 ^ 53 + u)) / 2 ^ 53 = A / 2 ^ 53 + S / 2 ^ 53 + (S / 2 ^ 53 / 2 ^ 53 + u / 2 ^ 53) := by ring
  rw [h6, h7]
  linarith

/-- C139: in doubles `above` and `below` compare with the line `v + s * q` correctly, except perhaps for values within a relative
distance of `2^-51` of it (relative to `|v| + |s * q|`). -/
theorem C139_lines (v s x q : ℚ) (hv : rnd v = .fin v) (size : Num) (hq : size.toFloat = .fin q) (hb : |v| + |s * q| ≤ 2 ^ 1000)
    (hfar : (|v| + |s * q|) / 2 ^ 51 + 2 ^ (-1074 : ℤ) < |x - (v + s * q)|) :
    (SliCond.above (.fin v) (.fin s)).call (.fin x) size = .ok (decide (x > v + s * q)) ∧
    (SliCond.below (.fin v) (.fin s)).call (.fin x) size = .ok (decide (x < v + s * q)) := by
  have hmul : ((Num.flt (.fin s)).mul size).toFloat = (PyFloat.fin s).mul (.fin q) := by
    cases size <;> simp_all [Num.mul, Num.toFloat]
  obtain ⟨y, hy, he⟩ := line_near v s q hv hb
  simp only [SliCond.call, hmul, hy, PyFloat.lt]
  generalize (|v| + |s * q|) / 2 ^ 51 + 2 ^ (-1074 : ℤ) = d at *
  obtain ⟨e1, e2⟩ := abs_le.1 he
  rcases lt_abs.1 hfar with h | h
  · constructor
    · simp only [gt_iff_lt, Except.ok.injEq, decide_eq_decide]; constructor <;> intro <;> linarith [abs_nonneg (y - (v + s * q))]
    · simp only [Except.ok.injEq, decide_eq_decide]; constructor <;> intro <;> linarith [abs_nonneg (y - (v + s * q))]
  · constructor
    · simp only [gt_iff_lt, Except.ok.injEq, decide_eq_decide]; constructor <;> intro <;> linarith [abs_nonneg (y - (v + s * q))]
    · simp only [Except.ok.injEq, decide_eq_decide]; constructor <;> intro <;> linarith [abs_nonneg (y - (v + s * q))]

/-- C139: where the line can be computed without rounding, as with whole numbers below `2^53`, the comparisons are exact. -/
theorem C139_lines_exact (v s x q : ℚ) (size : Num) (hq : size.toFloat = .fin q) (h1 : rnd (s * q) = .fin (s * q))
    (h2 : rnd (v + s * q) = .fin (v + s * q)) :
    (SliCond.above (.fin v) (.fin s)).call (.fin x) size = .ok (decide (x > v + s * q)) ∧
    (SliCond.below (.fin v) (.fin s)).call (.fin x) size = .ok (decide (x < v + s * q)) := by
  have hmul : ((Num.flt (.fin s)).mul size).toFloat = .fin (s * q) := by
    cases size <;> simp_all [Num.mul, Num.toFloat, PyFloat.mul]
  simp [SliCond.call, hmul, PyFloat.add, h2, PyFloat.lt]

/-- C139: with a slope that is not negative a greater size only moves the line upwards, whatever is rounded: what is below the line stays
below, what is above the line of the greater size is above that of the smaller. -/
theorem C139_lines_mono (v s x q q' : ℚ) (hs : 0 ≤ s) (hqq : q ≤ q') (size size' : Num) (hq : size.toFloat = .fin q)
    (hq' : size'.toFloat = .fin q') :
    ((SliCond.below (.fin v) (.fin s)).call (.fin x) size = .ok true →
      (SliCond.below (.fin v) (.fin s)).call (.fin x) size' = .ok true) ∧
    ((SliCond.above (.fin v) (.fin s)).call (.fin x) size' = .ok true →
      (SliCond.above (.fin v) (.fin s)).call (.fin x) size = .ok true) := by
  have hmul : ((Num.flt (.fin s)).mul size).toFloat = rnd (s * q) := by
    cases size <;> simp_all [Num.mul, Num.toFloat, PyFloat.mul]
  have hmul' : ((Num.flt (.fin s)).mul size').toFloat = rnd (s * q') := by
    cases size' <;> simp_all [Num.mul, Num.toFloat, PyFloat.mul]
  have hm := Ieee.mono (mul_le_mul_of_nonneg_left hqq hs)
  have hl : ((PyFloat.fin v).add (rnd (s * q))).le ((PyFloat.fin v).add (rnd (s * q'))) = true := by
    revert hm
    cases h1 : rnd (s * q) with
    | nan => exact absurd h1 (rnd_ne_nan _)
    | inf a =>
      cases h2 : rnd (s * q') with
      | nan => exact absurd h2 (rnd_ne_nan _)
      | inf b => cases a <;> cases b <;> simp [PyFloat.le, PyFloat.add]
      | fin b =>
        cases a <;> simp only [PyFloat.le, PyFloat.add] <;> intro h
        · cases h
        · cases h3 : rnd (v + b) with
          | nan => exact absurd h3 (rnd_ne_nan _)
          | inf c => cases c <;> rfl
          | fin c => rfl
    | fin a =>
      cases h2 : rnd (s * q') with
      | nan => exact absurd h2 (rnd_ne_nan _)
      | inf b =>
        cases b <;> simp only [PyFloat.le, PyFloat.add] <;> intro h
        · cases h3 : rnd (v + a) with
          | nan => exact absurd h3 (rnd_ne_nan _)
          | inf c => cases c <;> rfl
          | fin c => rfl
        · cases h
      | fin b =>
        simp only [PyFloat.le, PyFloat.add, decide_eq_true_eq]
        intro h
        exact Ieee.mono (by linarith)
  simp only [SliCond.call, hmul, hmul']
  generalize (PyFloat.fin v).add (rnd (s * q)) = a at *
  generalize (PyFloat.fin v).add (rnd (s * q')) = b at *
  simp only [Except.ok.injEq]
  exact ⟨fun h => lt_of_lt_le h hl, fun h => lt_of_le_lt hl h⟩

/-! ## The status page -/

/-- The factor of the status page. -/
theorem factor_double : ∃ c : ℚ, rnd (7 / 10) = .fin c ∧ |c - 7 / 10| ≤ (7 / 10 : ℚ) / 2 ^ 53 := by
  have h1 : rnd ((1 : ℤ) : ℚ) = .fin ((1 : ℤ) : ℚ) := rnd_int (by norm_num)
  obtain ⟨c, hc, -, -⟩ := rnd_between (q := 7 / 10) rnd_zero (by simpa using h1) (by norm_num) (by norm_num)
  refine ⟨c, hc, ?_⟩
  have := Ieee.norm (q := 7 / 10) (by
    rw [abs_of_nonneg (by norm_num)]
    have : (2 : ℚ) ^ (-1022 : ℤ) ≤ 2 ^ (-1 : ℤ) := zpow_le_zpow_right₀ (by norm_num) (by norm_num)
    refine this.trans ?_
    norm_num) hc
  rwa [abs_of_nonneg (show (0 : ℚ) ≤ 7 / 10 by norm_num)] at this

/-- C139: in doubles the page says ERROR only if the two durations together exceed 0.7 times the interval (as numbers, the interval in
milliseconds), but for a relative `2^-53`. -/
theorem C139_status_sound (i : ℤ) (h0 : 0 ≤ i) (hi : i ≤ 2 ^ 53) (p f : ℚ)
    (h : statusError i (.flt (.fin p)) (.flt (.fin f)) = true) : (7 / 10 : ℚ) * (1 - 1 / 2 ^ 53) * i < p + f := by
  obtain ⟨c, hc, he⟩ := factor_double
  have hiq : rnd (i : ℚ) = .fin i := rnd_int (by rw [abs_of_nonneg h0]; exact hi)
  have i0 : (0 : ℚ) ≤ i := by exact_mod_cast h0
  by_contra hcon
  have hle : p + f ≤ i * c := by
    have h1 : (7 / 10 : ℚ) * (1 - 1 / 2 ^ 53) ≤ c := by have := (abs_le.1 he).1; linarith
    have h2 := mul_le_mul_of_nonneg_right h1 i0
    rw [mul_comm c] at h2
    exact (not_lt.1 hcon).trans h2
  have hm := Ieee.mono hle
  simp only [statusError, Num.mul, Num.add, Num.toFloat, hiq, hc, PyFloat.mul, PyFloat.add, Num.exact] at h
  revert hm h
  cases rnd (p + f) <;> cases rnd (i * c) <;> simp [PyFloat.le, PyFloat.lt] <;> intros <;> simp_all

/-- C139: and it does say ERROR if they exceed it by more than a relative `2^-51`. -/
theorem C139_status_complete (i : ℤ) (h0 : 0 ≤ i) (hi : i ≤ 2 ^ 53) (p f : ℚ) (hp : rnd p = .fin p) (hf : rnd f = .fin f)
    (h : (7 / 10 : ℚ) * (1 + 1 / 2 ^ 51) * i < p + f) : statusError i (.flt (.fin p)) (.flt (.fin f)) = true := by
  obtain ⟨c, hc, he⟩ := factor_double
  have hiq : rnd (i : ℚ) = .fin i := rnd_int (by rw [abs_of_nonneg h0]; exact hi)
  have i0 : (0 : ℚ) ≤ i := by exact_mod_cast h0
  have hcb := abs_le.1 he
  have c1 : (7 / 10 : ℚ) * (1 - 1 / 2 ^ 53) ≤ c := by linarith
  have c2 : c ≤ (7 / 10 : ℚ) * (1 + 1 / 2 ^ 53) := by linarith
  have chalf : 1 / 2 ≤ c := le_trans (by norm_num) c1
  have clt : c ≤ 1 := le_trans c2 (by norm_num)
  have ic1 : i * c ≤ i := mul_le_of_le_one_right i0 clt
  have ic0 : 0 ≤ i * c := mul_nonneg i0 (by linarith)
  obtain ⟨y, hy, -, -⟩ := rnd_between (q := i * c) rnd_zero hiq ic0 ic1
  have yle : y ≤ i * c * (1 + 1 / 2 ^ 53) := by
    rcases eq_or_lt_of_le h0 with h00 | hpos
    · rw [← h00] at hy
      simp only [Int.cast_zero, zero_mul] at hy
      rw [rnd_zero] at hy
      simp only [PyFloat.fin.injEq] at hy
      rw [← hy, ← h00]; simp
    · have i1 : (1 : ℚ) ≤ i := by exact_mod_cast hpos
      have hbig : (1 / 2 : ℚ) ≤ i * c := by nlinarith
      have := Ieee.norm (q := i * c) (by
        rw [abs_of_nonneg ic0]
        have : (2 : ℚ) ^ (-1022 : ℤ) ≤ 2 ^ (-1 : ℤ) := zpow_le_zpow_right₀ (by norm_num) (by norm_num)
        refine this.trans (le_trans ?_ hbig)
        norm_num) hy
      rw [abs_of_nonneg ic0] at this
      have := (abs_le.1 this).2
      linarith
  have yle2 : y ≤ 7 / 10 * (1 + 1 / 2 ^ 53) * (1 + 1 / 2 ^ 53) * i := by
    refine yle.trans ?_
    have := mul_le_mul_of_nonneg_left c2 i0
    have := mul_le_mul_of_nonneg_right this (show (0 : ℚ) ≤ 1 + 1 / 2 ^ 53 by norm_num)
    linarith
  have pf0 : 0 ≤ p + f := by
    refine le_trans ?_ h.le
    positivity
  simp only [statusError, Num.mul, Num.add, Num.toFloat, hiq, hc, PyFloat.mul, PyFloat.add, Num.exact, hy]
  rcases rnd_nonneg pf0 with hr | ⟨r, hr, -⟩
  · rw [hr]; rfl
  · rw [hr]
    have re := add_err hp hf hr
    rw [abs_of_nonneg pf0] at re
    have re := (abs_le.1 re).1
    simp only [PyFloat.lt, decide_eq_true_eq]
    have h3 : (p + f) * (1 - 1 / 2 ^ 53) ≤ r := by linarith
    have h4 := mul_lt_mul_of_pos_right h (show (0 : ℚ) < 1 - 1 / 2 ^ 53 by norm_num)
    have h5 : (7 / 10 * (1 + 1 / 2 ^ 53) * (1 + 1 / 2 ^ 53) : ℚ) ≤ 7 / 10 * (1 + 1 / 2 ^ 51) * (1 - 1 / 2 ^ 53) := by norm_num
    have h6 := mul_le_mul_of_nonneg_right h5 i0
    linarith

end

/-! ## Examples -/

section
attribute [local instance] binary64

/-- Three measurements at doubles within a factor of two. -/
example : (∀ t ∈ [(1000 : ℚ), 1000.25, 1500, 2000], rnd t = .fin t) ∧ [(1000 : ℚ), 1000.25, 1500, 2000].Pairwise (· ≤ ·) ∧
    (∀ t ∈ [(1000.25 : ℚ), 1500, 2000], t ≤ 2 * 1000) := by
  decide +kernel

/-- A limit of 0.1 with a slope of 0.1, ten times: the line is not exactly 1.1, but 1.2 is above it. -/
example : (SliCond.above (rnd 0.1) (rnd 0.1)).call (.fin 1.25) (.int 10) = .ok true := by decide +kernel

example : rnd ((3 : ℚ) * 10) = .fin (3 * 10) ∧ rnd ((5 : ℚ) + 3 * 10) = .fin (5 + 3 * 10) := by decide +kernel

example : statusError 10 (.flt (.fin 4)) (.flt (.fin 4)) = true ∧ (7 / 10 : ℚ) * (1 + 1 / 2 ^ 51) * 10 < 4 + 4 := by
  decide +kernel

end
end Txstatsd
