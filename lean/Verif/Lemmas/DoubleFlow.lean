import Verif.Lemmas.WatchTimerC
import Verif.Lemmas.FloatThreshold
import Verif.Props.Doubles
import Verif.Spec.DoubleFlow

set_option linter.unusedSectionVars false
set_option linter.unusedSimpArgs false
set_option linter.unusedVariables false

/-!
# Summaries and reports of timers in double arithmetic
-/

namespace Txstatsd
open Spec
section
variable [Rounding] [Ieee] {PF PM : Type}

theorem summary_double {percent : ℤ} (h50 : 50 ≤ percent) (h100 : percent ≤ 100) (ts : ℤ) (key : Str) (ds : List PyFloat)
    (hl : ds.length ≤ 2 ^ 52) (hd : ∀ v ∈ ds, ∃ m, Reading c!"ms" key m v) :
    ∃ o, timerGroup percent ts key ds = .ok o ∧ (o = none ↔ ds = []) ∧
      ∀ g, o = some g → SummarisesDouble percent ts key ds g := by
  obtain ⟨o, hg, hon⟩ := timerGroup_double h50 h100 ts key ds hl
  refine ⟨o, hg, hon, ?_⟩
  rintro g rfl
  obtain ⟨n1, n2, n3⟩ := timerGroup_names hg
  refine ⟨n1, n2, n3, ?_⟩
  rintro qs rfl h0 hs
  rw [List.length_map] at hl
  obtain ⟨g', hg', hsum⟩ := timerGroup_doubles h50 h100 ts key qs
    (by intro h0; subst h0; have := hon.2 rfl; cases this) hl
    (fun q hq => ⟨h0 q hq, by
      obtain ⟨m, hm⟩ := hd (.fin q) (List.mem_map.2 ⟨q, hq, rfl⟩)
      exact reading_double hm q rfl⟩) hs
  rw [hg] at hg'
  simp only [Except.ok.injEq, Option.some.injEq] at hg'
  rw [hg']; exact hsum

/-! ## Rounding to six decimals -/

theorem printed_of_le {q : ℚ} (h : |q| ≤ 3 * 2 ^ (1000 : ℤ)) : Printed6 q (.flt (round6 (.fin q))) := by
  obtain ⟨d, r, h1, h2, h3⟩ := round6_double h
  exact ⟨d, r, h1, h2, by rw [h3]⟩

/-- Every double is rounded to six decimals. -/
theorem printed_of_rep {q : ℚ} (h : rnd q = .fin q) : Printed6 q (.flt (round6 (.fin q))) := by
  obtain ⟨⟨m, e, hm, he, rfl⟩, hb⟩ := Ieee.rep.1 h
  rcases le_or_gt 0 e with h0 | h0
  · obtain ⟨n, rfl⟩ := Int.eq_ofNat_of_zero_le h0
    have hz : (m : ℚ) * 2 ^ (n : ℤ) = ((m * 2 ^ n : ℤ) : ℚ) := by push_cast; rw [zpow_natCast]
    rw [hz] at h ⊢
    generalize m * 2 ^ n = z at *
    have e1 : (z : ℚ) * 1000000 = ((z * 1000000 : ℤ) : ℚ) := by push_cast; rfl
    refine ⟨z, z, ⟨⟨z * 1000000, by push_cast; field_simp⟩, by simp⟩, h, ?_⟩
    rw [round6, e1, roundHalfAway_int]
    have e' : ((z * 1000000 : ℤ) : ℚ) / 1000000 = z := by push_cast; field_simp
    rw [e', h]
  · apply printed_of_le
    have h1 : (2 : ℚ) ^ e ≤ 1 := by
      rw [show (1 : ℚ) = 2 ^ (0 : ℤ) by norm_num]
      exact zpow_le_zpow_right₀ (by norm_num) h0.le
    have h2 : (0 : ℚ) < 2 ^ e := two_zpow_pos e
    have hm' : |(m : ℚ)| ≤ 2 ^ 53 := by exact_mod_cast hm
    have h3 : (2 : ℚ) ^ 53 ≤ 2 ^ (1000 : ℤ) := by
      rw [← zpow_natCast]; exact zpow_le_zpow_right₀ (by norm_num) (by norm_num)
    rw [abs_mul, abs_of_pos h2]
    generalize (2 : ℚ) ^ (1000 : ℤ) = M at *
    generalize (2 : ℚ) ^ e = x at *
    have : |(m : ℚ)| * x ≤ |(m : ℚ)| * 1 := mul_le_mul_of_nonneg_left h1 (abs_nonneg _)
    have h5 : (0 : ℚ) ≤ 2 ^ 53 := by norm_num
    generalize (2 : ℚ) ^ 53 = y at *
    linarith

theorem round6_count {n : ℕ} (hn : n ≤ 2 ^ 52) : round6 (rnd (n : ℚ)) = .fin n := by
  rw [nat_double (by omega)]
  have h : |(n : ℤ)| ≤ 2 ^ 53 := by rw [abs_of_nonneg (by positivity)]; exact_mod_cast (by omega : n ≤ 2 ^ 53)
  have := round6_int (z := (n : ℤ)) h
  simpa using this

/-! ## Timers of the configurable processor -/

theorem period_sub (h : List TimerOp) : ∀ q ∈ period h, q ∈ durations h := by
  induction h using List.reverseRecOn with
  | nil => simp [period]
  | append_singleton h o ih =>
    cases o with
    | add q =>
      rw [period_add, durations_add]
      intro x hx
      split_ifs at hx with hq
      · rcases List.mem_append.1 hx with hx | hx
        · exact List.mem_append_left _ (ih x hx)
        · exact List.mem_append_right _ hx
      · exact List.mem_append_left _ (ih x hx)
    | report ts => rw [period_report]; simp

theorem period_length (h : List TimerOp) : (period h).length ≤ (durations h).length := by
  induction h using List.reverseRecOn with
  | nil => simp [period]
  | append_singleton h o ih =>
    cases o with
    | add q =>
      rw [period_add, durations_add]
      split_ifs <;> simp <;> omega
    | report ts => rw [period_report]; simp

/-- What a timer holds after a history. -/
structure TimerHolds (name pre : Str) (start : ℚ) (h : List TimerOp) (t : TimerRep) : Prop where
  hist : ∃ sops, t.hist = (Histogram.init 1028).runOps sops ∧ streamValues sops = (period h).map PyFloat.fin
  count : t.count = (durations h).length
  last : rnd (periodStart start h) = .fin (periodStart start h) → t.lastTime = .fin (periodStart start h)
  name : t.name = name
  pre : t.pre = dotted pre

theorem holds_durations {h : List TimerOp} (hd : ∀ q ∈ durations h, rnd q = .fin q) {sops : List (StreamOp PyFloat)}
    (h2 : streamValues sops = (period h).map PyFloat.fin) : ∀ v ∈ streamValues sops, Duration v := by
  intro v hv
  rw [h2] at hv
  obtain ⟨q, hq, rfl⟩ := List.mem_map.1 hv
  exact Or.inr ⟨q, rfl, period_nonneg h q hq, hd q (period_sub h q hq)⟩

theorem timerHolds_run {name pre : Str} {start : ℚ} {h : List TimerOp} {t : TimerRep}
    (hr : TimerRun (TimerRep.init name pre start) h t) (hd : ∀ q ∈ durations h, rnd q = .fin q) :
    TimerHolds name pre start h t := by
  induction hr with
  | nil => exact ⟨⟨[.clear], rfl, rfl⟩, rfl, fun _ => rfl, rfl, rfl⟩
  | @add h t draw q hr ih =>
    rw [durations_add] at hd
    obtain ⟨⟨sops, h1, h2⟩, h3, h4, h5, h6⟩ := ih fun x hx => hd x (by simp [hx])
    unfold TimerRep.update
    simp only [PyFloat.le, decide_eq_true_eq]
    split_ifs with hq
    · refine ⟨⟨sops ++ [.update draw (.fin q)], ?_, ?_⟩, ?_, ?_, h5, h6⟩
      · rw [Histogram.runOps_snoc, h1]
      · rw [UniformSample.streamValues_snoc, period_add, if_pos hq, h2]; simp
      · rw [durations_add]; simp [h3]
      · rw [periodStart_add]; exact h4
    · refine ⟨⟨sops, h1, ?_⟩, ?_, ?_, h5, h6⟩
      · rw [period_add, if_neg hq]; exact h2
      · rw [durations_add]; simp [h3]
      · rw [periodStart_add]; exact h4
  | @report h t ts hr ih =>
    rw [durations_report] at hd
    obtain ⟨⟨sops, h1, h2⟩, h3, h4, h5, h6⟩ := ih hd
    obtain ⟨l, hl⟩ := soundTimer_ok (t := t) ⟨sops, h1, holds_durations hd h2⟩ ts
    unfold TimerRep.report at hl ⊢
    cases hi : t.reportItems ts with
    | error e => rw [hi] at hl; cases hl
    | ok items =>
      refine ⟨⟨sops ++ [.clear], ?_, ?_⟩, ?_, ?_, h5, h6⟩
      · rw [Histogram.runOps_snoc, ← h1]; rfl
      · rw [UniformSample.streamValues_snoc, period_report]; rfl
      · rw [durations_report]; exact h3
      · rw [periodStart_report]; intro h; exact h

theorem percentiles_double {h : List TimerOp} {sops : List (StreamOp PyFloat)}
    (h2 : streamValues sops = (period h).map PyFloat.fin) (hd : ∀ q ∈ period h, 0 ≤ q ∧ rnd q = .fin q)
    (hne : period h ≠ []) {lo hi : ℚ} (hlo : IsLeast' (period h) lo) (hhi : IsGreatest' (period h) hi) :
    ∃ ps : List PyFloat, ((Histogram.init 1028).runOps sops).percentiles timerPercentiles = .ok ps ∧
      ∃ p99 p999, ps.getD 5 (.fin 0) = .fin p999 ∧ ps.getD 4 (.fin 0) = .fin p99 ∧ lo ≤ p99 ∧ p99 ≤ p999 ∧ p999 ≤ hi := by
  obtain ⟨held, g1, g2, e3, score, g3, g4, g5⟩ := C109_percentiles 1028 (by norm_num) sops _ h2 hne hd
  refine ⟨_, g3 _, score (4458563631096791/4503599627370496), score (8998192055486251/9007199254740992), rfl, rfl, ?_, g5 _ _ (by norm_num), ?_⟩
  · obtain ⟨a, ha, b, hb, h1, _⟩ := g4 (4458563631096791/4503599627370496)
    exact le_trans (hlo.2 a (e3 a ha)) h1
  · obtain ⟨a, ha, b, hb, _, h1⟩ := g4 (8998192055486251/9007199254740992)
    exact le_trans h1 (hhi.2 b (e3 b hb))

theorem rate_ok (t : TimerRep) (ts : ℤ) : ∃ r, t.rate ts = .ok r := by
  unfold TimerRep.rate
  simp only
  split_ifs with h
  · exact ⟨_, rfl⟩
  · obtain ⟨x, hx⟩ := div_ok (a := rnd (t.hist.count : ℚ)) h
    rw [hx]; exact ⟨_, rfl⟩

theorem rate_double {name pre : Str} {start : ℚ} {h : List TimerOp} {t : TimerRep} (ht : TimerHolds name pre start h t)
    (hn : (durations h).length ≤ 2 ^ 52) {ts : ℤ} {r : Num} (hr : t.rate ts = .ok r) (h1 : rnd (ts : ℚ) = .fin ts)
    (h2 : rnd (periodStart start h) = .fin (periodStart start h)) {l : ℚ} (hl : rnd (ts - periodStart start h) = .fin l) :
    (l = 0 → r.toFloat = .fin 0) ∧ (l ≠ 0 → r.toFloat = rnd ((period h).length / l)) := by
  obtain ⟨sops, e1, e2⟩ := ht.hist
  have hc := Histogram.count_runOps 1028 sops
  rw [e2, List.length_map, ← e1] at hc
  have hpl := period_length h
  unfold TimerRep.rate at hr
  simp only [ht.last h2, h1, PyFloat.sub, hl, PyFloat.fin.injEq, hc] at hr
  rw [nat_double (by omega : (period h).length ≤ 2 ^ 53)] at hr
  split_ifs at hr with h0
  · simp only [Except.ok.injEq] at hr
    subst hr
    exact ⟨fun _ => by simp [Num.toFloat, rnd_zero], fun h => absurd h0 h⟩
  · simp only [PyFloat.div, h0, if_false, Except.ok.injEq] at hr
    subst hr
    exact ⟨fun h => absurd h h0, fun _ => rfl⟩

theorem report_double {name pre : Str} {start : ℚ} {h : List TimerOp} {t : TimerRep}
    (hr : TimerRun (TimerRep.init name pre start) h t) (hd : ∀ q ∈ durations h, rnd q = .fin q) (ts : ℤ) :
    ∃ pts, (t.report ts).2 = .ok pts ∧
      DoubleReport pre name (period h) (durations h).length (periodStart start h) ts pts := by
  have ht := timerHolds_run hr hd
  obtain ⟨sops, h1, h2⟩ := ht.hist
  have hdur := holds_durations hd h2
  obtain ⟨l, hl⟩ := soundTimer_ok (t := t) ⟨sops, h1, hdur⟩ ts
  refine ⟨l, hl, fun hn hs => ?_⟩
  have hpl := period_length h
  have hper : ∀ q ∈ period h, 0 ≤ q ∧ rnd q = .fin q := fun q hq => ⟨period_nonneg h q hq, hd q (period_sub h q hq)⟩
  have hc := Histogram.count_runOps 1028 sops
  rw [h2, List.length_map] at hc
  obtain ⟨sd, hsd, _, hsd2⟩ := stdDev_any 1028 sops hdur
  have hsd3 : NotNegative sd := hsd2 (by rw [h2]; intro v hv; obtain ⟨q, _, rfl⟩ := List.mem_map.1 hv; simp)
  obtain ⟨r, hrate⟩ := rate_ok t ts
  have hx := C34_extremes 1028 sops (by rw [h2]; simp)
  have hcount := round6_count hn
  have hpos : (0 : ℚ) < 2 ^ (1000 : ℤ) := two_zpow_pos 1000
  have hitems : ∃ (lo hi p99 p999 mean : ℚ), (period h = [] → lo = 0 ∧ hi = 0 ∧ mean = 0) ∧
      (period h ≠ [] → IsLeast' (period h) lo ∧ IsGreatest' (period h) hi) ∧ lo ≤ p99 ∧ p99 ≤ p999 ∧ p999 ≤ hi ∧
      0 ≤ mean ∧ |mean - meanOf (period h)| ≤ ((period h).length : ℚ) / 2 ^ 52 * meanOf (period h) + 2 ^ (-1075 : ℤ) ∧
      t.reportItems ts = .ok [(c!".999percentile", .fin p999), (c!".99percentile", .fin p99),
        (c!".count", rnd ((durations h).length : ℚ)), (c!".max", .fin hi), (c!".mean", .fin mean),
        (c!".min", .fin lo), (c!".rate", r.toFloat), (c!".stddev", sd)] := by
    unfold TimerRep.reportItems
    rw [hrate, ht.count, h1, hsd]
    by_cases hne : period h = []
    · rw [hne] at h2
      have h0 : ((Histogram.init 1028).runOps sops).count = 0 := by rw [hc, hne]; rfl
      have hp : ((Histogram.init 1028).runOps sops).percentiles timerPercentiles = .ok (List.replicate 6 (.fin 0)) := by
        unfold Histogram.percentiles; rw [h0]; rfl
      have hm : ((Histogram.init 1028).runOps sops).mean = .fin 0 := by
        unfold Histogram.mean; rw [h0]; rfl
      obtain ⟨x1, x2⟩ := hx.1 (by rw [h2]; rfl)
      refine ⟨0, 0, 0, 0, 0, fun _ => ⟨rfl, rfl, rfl⟩, fun h => absurd hne h, le_refl _, le_refl _, le_refl _, le_refl _, ?_, ?_⟩
      · rw [hne]
        simp only [meanOf, List.sum_nil, zero_div, sub_self, abs_zero, mul_zero, zero_add]
        exact (two_zpow_pos _).le
      · rw [hp, x1, x2, hm]; rfl
    · obtain ⟨x1, x2, x3⟩ := hx.2 (by rw [h2]; simpa using hne)
      rw [h2] at x1 x2 x3
      obtain ⟨hi, hi1, hi2⟩ := List.mem_map.1 x1
      obtain ⟨lo, lo1, lo2⟩ := List.mem_map.1 x2
      have hhi : IsGreatest' (period h) hi := ⟨hi1, fun v hv => by
        have := (x3 _ (List.mem_map_of_mem hv)).1
        rw [← hi2] at this
        simpa [PyFloat.lt] using this⟩
      have hlo : IsLeast' (period h) lo := ⟨lo1, fun v hv => by
        have := (x3 _ (List.mem_map_of_mem hv)).2
        rw [← lo2] at this
        simpa [PyFloat.lt] using this⟩
      obtain ⟨ps, hps, p99, p999, a1, a2, a3, a4, a5⟩ := percentiles_double h2 hper hne hlo hhi
      obtain ⟨mean, m1, m2, m3⟩ := C110_mean 1028 sops _ h2 hne hper (by omega) hs
      refine ⟨lo, hi, p99, p999, mean, fun h => absurd h hne, fun _ => ⟨hlo, hhi⟩, a3, a4, a5, m2, m3, ?_⟩
      rw [hps, ← hi2, ← lo2, m1, ← a1, ← a2]
      rfl
  obtain ⟨lo, hi, p99, p999, mean, i1, i2, i3, i4, i5, i6, i7, i8⟩ := hitems
  have hsum0 : 0 ≤ (period h).sum := List.sum_nonneg fun q hq => (hper q hq).1
  have hext : 0 ≤ lo ∧ hi ≤ 2 ^ (1000 : ℤ) := by
    by_cases hne : period h = []
    · obtain ⟨rfl, rfl, _⟩ := i1 hne; exact ⟨le_refl _, hpos.le⟩
    · obtain ⟨⟨l1, _⟩, ⟨g1, _⟩⟩ := i2 hne
      exact ⟨(hper lo l1).1, le_trans (List.single_le_sum (fun q hq => (hper q hq).1) hi g1) hs⟩
  have hbound : ∀ x, lo ≤ x → x ≤ hi → |x| ≤ 3 * 2 ^ (1000 : ℤ) := by
    intro x hx1 hx2
    rw [abs_of_nonneg (le_trans hext.1 hx1)]
    have := hext.2
    generalize (2 : ℚ) ^ (1000 : ℤ) = M at *
    linarith
  have hmean : |mean| ≤ 3 * 2 ^ (1000 : ℤ) := by
    rw [abs_of_nonneg i6]
    have hmle : meanOf (period h) ≤ 2 ^ (1000 : ℤ) ∧ 0 ≤ meanOf (period h) := by
      by_cases hne : period h = []
      · rw [hne]; simp only [meanOf, List.sum_nil, zero_div]; exact ⟨hpos.le, le_refl _⟩
      · obtain ⟨g1, g2⟩ := i2 hne
        obtain ⟨k1, k2⟩ := meanOf_between hne g1.2 g2.2
        exact ⟨le_trans k2 hext.2, le_trans hext.1 k1⟩
    have hfrac : ((period h).length : ℚ) / 2 ^ 52 ≤ 1 := by
      rw [div_le_one (by norm_num)]; exact_mod_cast (by omega : (period h).length ≤ 2 ^ 52)
    have hmul : ((period h).length : ℚ) / 2 ^ 52 * meanOf (period h) ≤ 1 * meanOf (period h) :=
      mul_le_mul_of_nonneg_right hfrac hmle.2
    have hsmall : (2 : ℚ) ^ (-1075 : ℤ) ≤ 2 ^ (1000 : ℤ) := zpow_le_zpow_right₀ (by norm_num) (by norm_num)
    have := (abs_le.1 i7).2
    obtain ⟨q1, q2⟩ := hmle
    generalize (2 : ℚ) ^ (1000 : ℤ) = M at *
    generalize (2 : ℚ) ^ (-1075 : ℤ) = e at *
    linarith
  refine ⟨lo, hi, p99, p999, mean, _, _, _, _, _, .flt (round6 r.toFloat), _, i1, i2, i3, i4, i5, i6, i7,
    printed_of_le (hbound _ (le_trans i3 i4) i5), printed_of_le (hbound _ i3 (le_trans i4 i5)),
    printed_of_le (hbound hi (le_trans i3 (le_trans i4 i5)) (le_refl _)), printed_of_le hmean,
    printed_of_le (hbound lo (le_refl _) (le_trans i3 (le_trans i4 i5))), ?_, ⟨sd, hsd3, rfl⟩, ?_⟩
  · intro k1 k2 x hx
    obtain ⟨g1, g2⟩ := rate_double ht hn hrate k1 k2 hx
    refine ⟨fun h0 => ?_, fun h0 y hy => ?_⟩
    · rw [g1 h0]
      have := round6_int (z := 0) (by norm_num)
      simp only [Int.cast_zero] at this
      rw [this]
    · rw [g2 h0, hy]
      exact printed_of_rep (Ieee.idem hy)
  · unfold TimerRep.report at hl
    rw [i8] at hl
    simp only [Except.ok.injEq] at hl
    rw [← hl]
    simp only [List.map_cons, List.map_nil, ht.name, ht.pre, dotted_eq, hcount]

end
end Txstatsd
