import Verif.Lemmas.FloatTimer
import Verif.Lemmas.Timer

set_option linter.unusedSectionVars false
set_option linter.unusedSimpArgs false
set_option linter.unusedVariables false

/-!
# The timers of the default processor in double arithmetic
-/

namespace Txstatsd
open Spec
variable [Rounding] [Ieee] {PF PM : Type}

theorem half_double {n : ℕ} (hn : n ≤ 2 ^ 52) : rnd ((n : ℚ) / 2) = .fin ((n : ℚ) / 2) := by
  have h0 : |(n : ℤ)| ≤ 2 ^ 53 := by rw [abs_of_nonneg (by positivity)]; exact_mod_cast (by omega : n ≤ 2 ^ 53)
  refine Ieee.rep.2 ⟨⟨n, -1, h0, by norm_num, ?_⟩, ?_⟩
  · rw [zpow_neg, zpow_one, Int.cast_natCast, div_eq_mul_inv]
  · have h1 : (n : ℚ) ≤ 2 ^ 52 := by exact_mod_cast hn
    rw [abs_of_nonneg (by positivity)]
    have h2 : (2 : ℚ) ^ 52 < 2 ^ (1024 : ℤ) := by
      rw [← zpow_natCast]; exact zpow_lt_zpow_right₀ (by norm_num) (by norm_num)
    have h3 : (n : ℚ) / 2 ≤ 2 ^ 52 := by linarith
    exact lt_of_le_of_lt h3 h2

theorem nat_double {n : ℕ} (hn : n ≤ 2 ^ 53) : rnd (n : ℚ) = .fin n := by
  have := rnd_int (z := (n : ℤ)) (by rw [abs_of_nonneg (by positivity)]; exact_mod_cast hn)
  simpa using this

/-- The number of durations dropped. -/
theorem threshold_double {percent : ℤ} (h50 : 50 ≤ percent) (h100 : percent ≤ 100) {n : Nat} (hn : 1 < n) (hb : n ≤ 2 ^ 52) :
    ∃ k : ℕ, toIntF ((rnd ((100 - percent : ℤ) / 100 : ℚ)).mul (rnd (n : ℚ)) |>.roundF) = .ok ((n : ℤ) - k) ∧
      1 ≤ k ∧ k ≤ n ∧ |(k : ℚ) - percent / 100 * n| ≤ 1 / 2 + n / 2 ^ 52 := by
  have hq0 : (0 : ℚ) ≤ ((100 - percent : ℤ) : ℚ) / 100 := by
    apply div_nonneg _ (by norm_num); exact_mod_cast (by omega : (0 : ℤ) ≤ 100 - percent)
  have hq1 : ((100 - percent : ℤ) : ℚ) / 100 ≤ 1 / 2 := by
    rw [div_le_div_iff₀ (by norm_num) (by norm_num)]
    exact_mod_cast (by omega : (100 - percent) * 2 ≤ 1 * 100)
  have hhalf : rnd (1 / 2 : ℚ) = .fin (1 / 2) := by
    have := half_double (n := 1) (by norm_num); simpa using this
  obtain ⟨t, ht, ht0, ht1⟩ := rnd_between rnd_zero hhalf hq0 hq1
  have hterr : |t - ((100 - percent : ℤ) : ℚ) / 100| ≤ 1 / 2 ^ 54 := by
    by_cases hz : (100 - percent : ℤ) = 0
    · rw [hz] at ht ⊢
      simp only [Int.cast_zero, zero_div, rnd_zero, PyFloat.fin.injEq] at ht
      rw [← ht]; norm_num
    · have h1 : (1 : ℤ) ≤ 100 - percent := by omega
      have h1' : (1 : ℚ) ≤ ((100 - percent : ℤ) : ℚ) := by exact_mod_cast h1
      have h2 : (1 : ℚ) / 100 ≤ ((100 - percent : ℤ) : ℚ) / 100 := div_le_div_of_nonneg_right h1' (by norm_num)
      have hnorm : (2 : ℚ) ^ (-1022 : ℤ) ≤ |((100 - percent : ℤ) : ℚ) / 100| := by
        rw [abs_of_nonneg hq0]
        have : (2 : ℚ) ^ (-1022 : ℤ) ≤ 2 ^ (-7 : ℤ) := zpow_le_zpow_right₀ (by norm_num) (by norm_num)
        have h7 : (2 : ℚ) ^ (-7 : ℤ) ≤ 1 / 100 := by norm_num
        exact le_trans this (le_trans h7 h2)
      have := Ieee.norm hnorm ht
      rw [abs_of_nonneg hq0] at this
      refine le_trans this ?_
      rw [div_le_iff₀ (by norm_num)]
      refine le_trans hq1 ?_
      norm_num
  have hn0 : (0 : ℚ) ≤ n := by positivity
  have hx : ∃ x, rnd (t * n) = .fin x ∧ 0 ≤ x ∧ x ≤ (n : ℚ) / 2 :=
    rnd_between rnd_zero (half_double hb) (by positivity) (by nlinarith)
  obtain ⟨x, hx, hx0, hx1⟩ := hx
  have hnb : (n : ℚ) ≤ 2 ^ 52 := by exact_mod_cast hb
  have hxerr : |x - t * n| ≤ n / 2 ^ 54 + 1 / 2 ^ 100 := by
    have := Ieee.err hx
    rw [abs_of_nonneg (by positivity : 0 ≤ t * n)] at this
    have h1 : t * n / 2 ^ 53 ≤ n / 2 ^ 54 := by
      rw [div_le_div_iff₀ (by norm_num) (by norm_num)]; nlinarith
    have h2 : (2 : ℚ) ^ (-1075 : ℤ) ≤ 1 / 2 ^ 100 := by
      have : (1 : ℚ) / 2 ^ 100 = 2 ^ (-100 : ℤ) := by rw [zpow_neg]; norm_num
      rw [this]; exact zpow_le_zpow_right₀ (by norm_num) (by norm_num)
    exact le_trans this (add_le_add h1 h2)
  have hf := Int.floor_le (x + 1 / 2)
  have hf' := Int.lt_floor_add_one (x + 1 / 2)
  have hr0 : 0 ≤ ⌊x + 1 / 2⌋ := Int.floor_nonneg.2 (by linarith)
  have hr1 : 2 * ⌊x + 1 / 2⌋ ≤ n + 1 := by
    have : (2 : ℚ) * ⌊x + 1 / 2⌋ ≤ n + 1 := by linarith
    exact_mod_cast this
  refine ⟨((n : ℤ) - ⌊x + 1 / 2⌋).toNat, ?_, by omega, by omega, ?_⟩
  · rw [ht, nat_double (by omega)]
    simp only [PyFloat.mul, hx, PyFloat.roundF, toIntF]
    rw [truncQ_int]
    unfold roundHalfAway
    rw [if_pos hx0]
    congr 1
    omega
  · have hk : ((((n : ℤ) - ⌊x + 1 / 2⌋).toNat : ℕ) : ℚ) = n - ⌊x + 1 / 2⌋ := by
      have : ((((n : ℤ) - ⌊x + 1 / 2⌋).toNat : ℕ) : ℤ) = n - ⌊x + 1 / 2⌋ := Int.toNat_of_nonneg (by omega)
      exact_mod_cast this
    rw [hk]
    have hp : ((100 - percent : ℤ) : ℚ) = 100 - percent := by norm_num
    rw [hp] at hterr
    have h3 : |t * n - (100 - percent) / 100 * n| ≤ n / 2 ^ 54 := by
      rw [← sub_mul, abs_mul, abs_of_nonneg hn0]
      have := mul_le_mul_of_nonneg_right hterr hn0
      linarith
    have h1n : (2 : ℚ) ≤ n := by exact_mod_cast hn
    obtain ⟨a1, a2⟩ := abs_le.1 h3
    obtain ⟨b1, b2⟩ := abs_le.1 hxerr
    generalize (⌊x + 1 / 2⌋ : ℚ) = f at *
    have hsm : (1 : ℚ) / 2 ^ 100 ≤ n / 2 ^ 54 := by
      rw [div_le_div_iff₀ (by norm_num) (by norm_num)]; linarith
    have e : (n : ℚ) / 2 ^ 52 = 4 * (n / 2 ^ 54) := by ring
    rw [e]
    generalize (n : ℚ) / 2 ^ 54 = d at *
    generalize (1 : ℚ) / 2 ^ 100 = u at *
    have h4 : (100 - (percent : ℚ)) / 100 * n = n - percent / 100 * n := by ring
    rw [h4] at a1 a2
    rw [abs_le]
    constructor <;> linarith

/-- With a percentage between 50 and 100 the timer phase never raises. -/
theorem timerGroup_double {percent : ℤ} (h50 : 50 ≤ percent) (h100 : percent ≤ 100) (ts : ℤ) (key : Str)
    (ds : List PyFloat) (hb : ds.length ≤ 2 ^ 52) :
    ∃ o, timerGroup percent ts key ds = .ok o ∧ (o = none ↔ ds = []) := by
  unfold timerGroup
  by_cases hl : ds.length > 0
  · rw [if_pos hl]
    have hlen : (sortFloats ds).length = ds.length := (List.mergeSort_perm _ _).length_eq
    have : ∃ x, timerThreshold percent (sortFloats ds) ((sortFloats ds).headD (.fin 0)) ((sortFloats ds).getLastD (.fin 0)) = .ok x := by
      unfold timerThreshold
      simp only [hlen]
      by_cases hn : ds.length > 1
      · rw [if_pos hn]
        obtain ⟨k, e1, e2, e3, _⟩ := threshold_double h50 h100 hn hb
        rw [e1]
        simp only
        rw [show (ds.length : ℤ) - ((ds.length : ℤ) - k) = k by ring]
        have hsl : sliceTo (sortFloats ds) (k : ℤ) = (sortFloats ds).take k := by
          unfold sliceTo; rw [if_pos (by positivity)]; simp
        rw [hsl]
        have hkl : ((sortFloats ds).take k).length = k := by
          rw [List.length_take, hlen]; omega
        cases hg : ((sortFloats ds).take k).getLast? with
        | none =>
          rw [List.getLast?_eq_none_iff] at hg
          rw [hg] at hkl; simp at hkl; omega
        | some tu =>
          simp only
          obtain ⟨y, hy⟩ := divInt_ok (n := (k : ℤ)) (by omega)
            (((sortFloats ds).take k).foldl (fun a x => Num.add a (.flt x)) (.int 0))
          rw [hy]
          exact ⟨_, rfl⟩
      · rw [if_neg hn]; exact ⟨_, rfl⟩
    obtain ⟨⟨m, t⟩, h⟩ := this
    simp only [h]
    refine ⟨_, rfl, ?_⟩
    simp
    intro e; subst e; simp at hl
  · rw [if_neg hl]
    refine ⟨none, rfl, ?_⟩
    simp
    cases ds with
    | nil => rfl
    | cons a b => simp at hl

/-- The summary of a timer whose durations are doubles. -/
theorem timerGroup_doubles {percent : ℤ} (h50 : 50 ≤ percent) (h100 : percent ≤ 100) (ts : ℤ) (key : Str)
    (qs : List ℚ) (hne : qs ≠ []) (hb : qs.length ≤ 2 ^ 52) (hr : ∀ q ∈ qs, 0 ≤ q ∧ rnd q = .fin q)
    (hsum : qs.sum ≤ 2 ^ (1000 : ℤ)) :
    ∃ g, timerGroup percent ts key (qs.map PyFloat.fin) = .ok (some g) ∧ DoubleSummary percent ts key qs g := by
  set sorted := qs.mergeSort (fun a b => decide (a ≤ b)) with hs
  have hperm : sorted.Perm qs := List.mergeSort_perm _ _
  have hlen : sorted.length = qs.length := hperm.length_eq
  have hpw : sorted.Pairwise (· ≤ ·) := by
    have := List.pairwise_mergeSort (le := fun a b : ℚ => decide (a ≤ b))
      (fun a b c h1 h2 => by simp at *; exact le_trans h1 h2)
      (fun a b => by simp; exact le_total a b) qs
    simpa [hs] using this
  have hsne : sorted ≠ [] := by
    intro h; rw [h] at hlen; exact hne (List.length_eq_zero_iff.1 hlen.symm)
  obtain ⟨lower, hlow⟩ : ∃ x, sorted.head? = some x := by
    rw [← Option.isSome_iff_exists]; simpa using hsne
  obtain ⟨upper, hup⟩ : ∃ x, sorted.getLast? = some x := by
    rw [← Option.isSome_iff_exists]; simpa using hsne
  have hpos : 0 < qs.length := List.length_pos_iff.2 hne
  have hhd : (sorted.map PyFloat.fin).headD (.fin 0) = .fin lower := by
    rw [List.headD_eq_head?_getD, List.head?_map, hlow]; rfl
  have htl : (sorted.map PyFloat.fin).getLastD (.fin 0) = .fin upper := by
    apply getLastD_of_getLast?; rw [List.getLast?_map, hup]; rfl
  have htg : ∀ m t, timerThreshold percent (sorted.map PyFloat.fin) (.fin lower) (.fin upper) = .ok (m, t) →
      timerGroup percent ts key (qs.map PyFloat.fin) =
      .ok (some [⟨c!"stats.timers." ++ key ++ c!".count", .int qs.length, ts⟩,
       ⟨c!"stats.timers." ++ key ++ c!".lower", .flt (.fin lower), ts⟩,
       ⟨c!"stats.timers." ++ key ++ c!".mean", .flt m, ts⟩,
       ⟨c!"stats.timers." ++ key ++ c!".upper", .flt (.fin upper), ts⟩,
       ⟨c!"stats.timers." ++ key ++ c!".upper_" ++ intStr percent, .flt t, ts⟩]) := by
    intro m t h
    unfold timerGroup
    rw [if_pos (by simpa using hpos), sortFloats_fin, ← hs]
    simp only
    rw [hhd, htl, h]
    simp
  by_cases h1 : qs.length = 1
  · have hl1 : sorted.length = 1 := by rw [hlen, h1]
    obtain ⟨x, hx⟩ := List.length_eq_one_iff.1 hl1
    rw [hx] at hlow hup
    simp at hlow hup
    subst hlow
    subst hup
    have hx0 : 0 ≤ x := (hr x (hperm.mem_iff.1 (by rw [hx]; simp))).1
    refine ⟨_, htg (.fin x) (.fin x) ?_, sorted, [x], x, x, x, x, hperm, hpw, by rw [hx], fun _ => rfl, fun h => by omega,
      by rw [hx]; rfl, by rw [hx]; rfl, rfl, hx0, ?_, rfl⟩
    · unfold timerThreshold; rw [if_neg (by simp [hl1])]
    · have : meanOf [x] = x := by simp [meanOf]
      rw [this, sub_self, abs_zero]
      clear hsum
      exact add_nonneg (mul_nonneg (by positivity) hx0) (two_zpow_pos _).le
  · have hn : 1 < qs.length := by omega
    obtain ⟨k, e1, e2, e3, e4⟩ := threshold_double h50 h100 hn hb
    have hklen : (sorted.take k).length = k := by rw [List.length_take, hlen]; omega
    have hkne : sorted.take k ≠ [] := by intro h; rw [h] at hklen; simp at hklen; omega
    obtain ⟨thr, hthr⟩ : ∃ x, (sorted.take k).getLast? = some x := by
      exact ⟨_, List.getLast?_eq_some_getLast hkne⟩
    have hkr : ∀ q ∈ sorted.take k, 0 ≤ q ∧ rnd q = .fin q := fun q hq => hr q (hperm.mem_iff.1 (List.mem_of_mem_take hq))
    have hks : (sorted.take k).sum ≤ qs.sum := by
      rw [← hperm.sum_eq]
      conv_rhs => rw [← List.take_append_drop k sorted, List.sum_append]
      have : 0 ≤ (sorted.drop k).sum := List.sum_nonneg fun q hq => (hr q (hperm.mem_iff.1 (List.mem_of_mem_drop hq))).1
      exact le_add_of_nonneg_right this
    have hkb : (sorted.take k).length ≤ 2 ^ 52 := by rw [hklen]; exact le_trans e3 hb
    have hkM : (sorted.take k).sum ≤ 2 ^ (1000 : ℤ) := by
      revert hsum
      generalize (2 : ℚ) ^ (1000 : ℤ) = M
      exact fun h => le_trans hks h
    obtain ⟨m, m1, m2, m3, m4⟩ := mean_near (sorted.take k) hkne hkr hkb hkM
    refine ⟨_, htg (.fin m) (.fin thr) ?_, sorted, sorted.take k, lower, upper, thr, m, hperm, hpw, List.take_prefix _ _,
      fun h => by omega, fun _ => by rw [hklen]; exact e4, hlow, hup, hthr, m3, m4, rfl⟩
    unfold timerThreshold
    have hml : (sorted.map PyFloat.fin).length = qs.length := by simp [hlen]
    simp only [hml]
    rw [if_pos hn, e1]
    simp only
    rw [show (qs.length : ℤ) - ((qs.length : ℤ) - k) = k by ring]
    have hsl : sliceTo (sorted.map PyFloat.fin) (k : ℤ) = (sorted.take k).map PyFloat.fin := by
      unfold sliceTo; rw [if_pos (by positivity)]; simp
    rw [hsl, List.getLast?_map, hthr]
    simp only [Option.map_some]
    rw [sumFloats_map]
    have hkz : (k : ℤ) ≠ 0 := by omega
    rw [hklen] at m1
    obtain ⟨s, hs1, _⟩ := sum_near (sorted.take k) hkne (fun q hq => (hkr q hq).2) hkb
      (by rw [map_abs_of_nonneg fun q hq => (hkr q hq).1]; exact hkM)
    rw [hs1] at m1 ⊢
    simp only [Num.toFloat] at m1
    simp only [Num.divInt, hkz, if_false, m1, Num.toFloat]

/-! ## Flushes -/

theorem timer_elems_double {percent : ℤ} (h50 : 50 ≤ percent) (h100 : percent ≤ 100) (ts : ℤ)
    (d : Dict (List PyFloat)) (hd : ∀ p ∈ d, p.2.length ≤ 2 ^ 52) :
    runElems (fun _ _ => []) (timerGroup percent ts) d =
      (d.map fun p => (p.1, []),
       d.filterMap fun p => (match timerGroup percent ts p.1 p.2 with | .ok o => o | .error _ => none), none) := by
  rw [runElems_ok (fun _ _ => []) (timerGroup percent ts)
    (fun k v => (match timerGroup percent ts k v with | .ok o => o | .error _ => none))]
  intro p hp
  obtain ⟨o, ho, _⟩ := timerGroup_double h50 h100 ts p.1 p.2 (hd p hp)
  rw [ho]

theorem flush_timers_double (ops : PluginOps PF PM) (w : World) {interval : ℤ} (hi : 1000 ≤ interval) {percent : ℤ}
    (h50 : 50 ≤ percent) (h100 : percent ≤ 100) {s : MPState PF PM} (hs : MPWf ops s)
    (hd : ∀ p ∈ s.timers, p.2.length ≤ 2 ^ 52) :
    (flush (messageProcessor ops) w interval percent s).1.timers = s.timers.map fun p => (p.1, []) := by
  rw [flush_mp ops w interval percent hs]
  obtain ⟨_, _, _, h4, _⟩ := flushForm_state (messageProcessor ops) w (Int.fdiv interval 1000)
    (truncQ (w.clk s.ticks))
    (runElems (fun _ _ => Num.int 0) (counterGroup (Int.fdiv interval 1000) (truncQ (w.clk s.ticks))) s.counters)
    (runElems (fun _ _ => []) (timerGroup percent (truncQ (w.clk s.ticks))) s.timers)
    (s.gauges.map fun p => [⟨c!"stats.gauge." ++ p.2 ++ c!".value", Num.flt p.1, truncQ (w.clk s.ticks)⟩])
    (meterRes (truncQ (w.clk s.ticks)) s.meters) s hs.shared (runElems_keys _ _ _)
  rw [h4, counter_elems (fdiv_pos hi)]
  simp only [if_true]
  rw [timer_elems_double h50 h100 _ _ hd]

theorem collect_length {α : Type} {P : Str → α → Prop} {msgs : List Str} {vs : List α} (h : Collect P msgs vs) :
    vs.length ≤ msgs.length := by
  induction h with
  | nil => simp
  | hit _ _ ih => simp; omega
  | skip _ _ ih => simp; omega

theorem sinceFlush_length (os : List Op) : (sinceFlush os).length ≤ os.length := by
  induction os using List.reverseRecOn with
  | nil => simp [sinceFlush]
  | append_singleton os o ih =>
    cases o with
    | msg m => rw [sinceFlush_msg]; simp; exact ih
    | flush i p => rw [sinceFlush_flush]; simp

/-- The stored durations are those received since the last flush. -/
theorem stored_timers_double (ops : PluginOps PF PM) (plugins : List PF) (w : World) (os : List Op)
    (hw : WholeSeconds os) (hp : Percents os) (hb : os.length ≤ 2 ^ 52) (key : Str) :
    Collect (Reading c!"ms" key) (sinceFlush os)
      (((runOps (messageProcessor ops) w (MPState.init ops plugins) os).1.timers.find key).getD []) := by
  induction os using List.reverseRecOn generalizing key with
  | nil => exact .nil
  | append_singleton os o ih =>
    have hb' : os.length + 1 ≤ 2 ^ 52 := by simpa using hb
    have ih := ih (fun i p h => hw i p (by simp [h])) (fun i p h => hp i p (by simp [h])) (by omega)
    have hwf := mpwf_runOps ops w (mpwf_init ops plugins) os
    rw [runOps_snoc]
    generalize runOps (messageProcessor ops) w (MPState.init ops plugins) os = c0 at ih hwf
    cases o with
    | msg m =>
      rw [sinceFlush_msg]
      simp only [Op.apply]
      rw [process_timers]
      rcases applyTimer_find (d := c0.1.timers) (msg := m) (k := key) with ⟨v, hv, hf⟩ | ⟨hn, hf⟩
      · rw [hf]; exact collect_append (ih key) (.hit hv .nil)
      · rw [hf]; have := collect_append (ih key) (.skip hn .nil); simpa using this
    | flush i p =>
      rw [sinceFlush_flush]
      simp only [Op.apply]
      obtain ⟨h50, h100⟩ := hp i p (by simp)
      have hsl := sinceFlush_length os
      have hd : ∀ p ∈ c0.1.timers, p.2.length ≤ 2 ^ 52 := by
        rintro ⟨k, v⟩ hkv
        have := collect_length (ih k)
        rw [Dict.find_of_mem hwf.timers hkv] at this
        simp only [Option.getD_some] at this
        simp only
        omega
      rw [flush_timers_double ops w (hw i p (by simp)) h50 h100 hwf hd]
      have := Dict.find_map c0.1.timers (fun _ _ => ([] : List PyFloat)) key
      rw [this]
      cases c0.1.timers.find key <;> exact .nil

end Txstatsd
