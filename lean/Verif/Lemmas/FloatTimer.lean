import Verif.Lemmas.FloatSum
import Verif.Lemmas.ConfigurableMisc
import Verif.Lemmas.ConfigurableTimer

set_option linter.unusedSectionVars false
set_option linter.unusedSimpArgs false
set_option linter.unusedVariables false

/-!
# Reports of the configurable processor in double arithmetic
-/

namespace Txstatsd
open Spec
variable [Rounding] [Ieee] {PF PM : Type}

theorem percentile_any {values : List PyFloat} (hne : values ≠ []) (p : ℚ) : ∃ v, Histogram.percentile values p = .ok v := by
  have hh : ∃ v, values.head? = some v := by
    cases values with
    | nil => exact absurd rfl hne
    | cons v vs => exact ⟨v, rfl⟩
  have hl : ∃ v, values.getLast? = some v := ⟨_, List.getLast?_eq_some_getLast hne⟩
  obtain ⟨a, ha⟩ := hh
  obtain ⟨b, hb⟩ := hl
  unfold Histogram.percentile
  cases hx : rnd (p * ((values.length : ℚ) + 1)) with
  | nan => exact absurd hx (rnd_ne_nan _)
  | inf s => cases s <;> simp [ha, hb]
  | fin x =>
    simp only [ha, hb]
    split_ifs with h1 h2
    · exact ⟨_, rfl⟩
    · exact ⟨_, rfl⟩
    · obtain ⟨f1, f2, f3⟩ := Histogram.floor_bounds h1 h2
      have ht : truncQ x = ⌊x⌋ := by
        unfold truncQ; rw [if_pos (by push Not at h1; linarith)]
      have e1 : values[(truncQ x - 1).toNat]? = some values[(truncQ x - 1).toNat] := List.getElem?_eq_getElem (by rw [ht]; omega)
      have e2 : values[(truncQ x).toNat]? = some values[(truncQ x).toNat] := List.getElem?_eq_getElem (by rw [ht]; omega)
      rw [e1, e2]
      exact ⟨_, rfl⟩

theorem mapM_any {α β : Type} {f : α → Except PyErr β} (l : List α) (h : ∀ a, ∃ b, f a = .ok b) : ∃ bs, l.mapM f = .ok bs := by
  induction l with
  | nil => exact ⟨[], rfl⟩
  | cons a l ih =>
    obtain ⟨b, hb⟩ := h a
    obtain ⟨bs, hbs⟩ := ih
    exact ⟨b :: bs, by rw [List.mapM_cons, hb, hbs]; rfl⟩

theorem percentiles_any (n : Nat) (hn : 1 ≤ n) (ops : List (StreamOp PyFloat)) (ps : List ℚ) :
    ∃ l, ((Histogram.init n).runOps ops).percentiles ps = .ok l := by
  unfold Histogram.percentiles
  split_ifs with hc
  · refine mapM_any _ fun p => percentile_any ?_ p
    intro h0
    have hlen : (sortFloats ((Histogram.init n).runOps ops).sample.getValues).length = 0 := by rw [h0]; rfl
    unfold sortFloats at hlen
    rw [List.length_mergeSort, Histogram.sample_runOps] at hlen
    obtain ⟨idx, h⟩ := UniformSample.holds_runOps (PyFloat.fin 0) n ops
    have hf := h.getValues
    rw [Histogram.count_runOps] at hc
    have hl := h.il
    have := hf.length_eq
    omega
  · exact ⟨_, rfl⟩

/-- The standard deviation of durations. -/
theorem stdDev_any (n : Nat) (ops : List (StreamOp PyFloat)) (hv : ∀ v ∈ streamValues ops, Duration v) :
    ∃ s, ((Histogram.init n).runOps ops).stdDev = .ok s ∧ (s = .nan ∨ NotNegative s) ∧
      ((∀ v ∈ streamValues ops, v ≠ .inf false) → NotNegative s) := by
  have hw := Histogram.welford_ops n ops hv
  unfold Histogram.stdDev
  split_ifs with hc
  · have hfin : (∀ v ∈ streamValues ops, v ≠ .inf false) → NotNegative ((Histogram.init n).runOps ops).varS := by
      intro h
      have hne : streamValues ops ≠ [] := by
        rw [Histogram.count_runOps] at hc; exact List.length_pos_iff.1 hc
      have : ∃ qs : List ℚ, streamValues ops = qs.map PyFloat.fin := by
        clear hw hc hne
        generalize streamValues ops = l at *
        induction l with
        | nil => exact ⟨[], rfl⟩
        | cons v l ih =>
          obtain ⟨qs, hq⟩ := ih (fun x hx => hv x (by simp [hx])) (fun x hx => h x (by simp [hx]))
          rcases hv v (by simp) with h1 | ⟨q, h1, _⟩
          · exact absurd h1 (h v (by simp))
          · exact ⟨q :: qs, by rw [h1, hq]; rfl⟩
      obtain ⟨qs, hq⟩ := this
      exact (hw.fins qs hq hne).1
    rcases hw.sq with h | h
    · rcases Histogram.variance_nan h with e | e
      · refine ⟨.nan, by rw [e]; rfl, Or.inl rfl, fun h' => ?_⟩
        have := hfin h'
        rw [h] at this
        rcases this with e | ⟨q, e, _⟩ <;> cases e
      · obtain ⟨s, h1, h2⟩ := Histogram.sqrtF_ok e
        exact ⟨s, h1, Or.inr h2, fun _ => h2⟩
    · obtain ⟨s, h1, h2⟩ := Histogram.sqrtF_ok (Histogram.variance_notNegative h)
      exact ⟨s, h1, Or.inr h2, fun _ => h2⟩
  · exact ⟨_, rfl, Or.inr (Or.inr ⟨0, rfl, le_refl _⟩), fun _ => Or.inr ⟨0, rfl, le_refl _⟩⟩

/-- The timers whose histogram has only seen durations. -/
def SoundTimer (t : TimerRep) : Prop :=
  ∃ sops, t.hist = (Histogram.init 1028).runOps sops ∧ ∀ v ∈ streamValues sops, Duration v

/-- A double of either sign, an infinity, or nan. -/
def IsDouble (v : PyFloat) : Prop := ∀ q, v = .fin q → rnd q = .fin q

theorem soundTimer_init (name pre : Str) (now : ℚ) : SoundTimer (TimerRep.init name pre now) :=
  ⟨[.clear], rfl, by simp [streamValues]⟩

theorem duration_of_le {v : PyFloat} (hd : IsDouble v) (h : PyFloat.le (.fin 0) v = true) : Duration v := by
  cases v with
  | nan => simp [PyFloat.le] at h
  | inf s => cases s with
    | true => simp [PyFloat.le] at h
    | false => exact Or.inl rfl
  | fin q => exact Or.inr ⟨q, rfl, by simpa [PyFloat.le] using h, hd q rfl⟩

theorem soundTimer_update {t : TimerRep} (ht : SoundTimer t) (draw : Nat) {v : PyFloat} (hv : IsDouble v) :
    SoundTimer (t.update draw v) := by
  obtain ⟨sops, h1, h2⟩ := ht
  unfold TimerRep.update
  simp only
  split_ifs with h
  · refine ⟨sops ++ [.update draw v], by rw [Histogram.runOps_snoc, ← h1], ?_⟩
    rw [UniformSample.streamValues_snoc]
    intro x hx
    rcases List.mem_append.1 hx with hx | hx
    · exact h2 x hx
    · simp only [List.mem_singleton] at hx; subst hx; exact duration_of_le hv h
  · exact ⟨sops, h1, h2⟩

theorem soundTimer_report {t : TimerRep} (ht : SoundTimer t) (ts : ℤ) : SoundTimer (t.report ts).1 := by
  obtain ⟨sops, h1, h2⟩ := ht
  unfold TimerRep.report
  split
  · exact ⟨sops, h1, h2⟩
  · refine ⟨sops ++ [.clear], by rw [Histogram.runOps_snoc, ← h1]; rfl, ?_⟩
    rw [UniformSample.streamValues_snoc]; simp

theorem soundTimer_ok {t : TimerRep} (ht : SoundTimer t) (ts : ℤ) : ∃ l, (t.report ts).2 = .ok l := by
  obtain ⟨sops, h1, h2⟩ := ht
  obtain ⟨ps, hp⟩ := percentiles_any 1028 (by norm_num) sops timerPercentiles
  obtain ⟨sd, hs, _⟩ := stdDev_any 1028 sops h2
  have hr : ∃ r, t.rate ts = .ok r := by
    unfold TimerRep.rate
    simp only
    split_ifs with h
    · exact ⟨_, rfl⟩
    · obtain ⟨x, hx⟩ := div_ok (a := rnd (t.hist.count : ℚ)) h
      rw [hx]; exact ⟨_, rfl⟩
  obtain ⟨r, hr⟩ := hr
  unfold TimerRep.report TimerRep.reportItems
  rw [h1, hp, hs, hr]
  exact ⟨_, rfl⟩

theorem parseFloat_double {s : Str} {v : PyFloat} (h : parseFloat s = some v) : IsDouble v := by
  intro q hq
  subst hq
  unfold parseFloat at h
  simp only at h
  generalize (takeSign (strip s)).1 = neg at h
  cases hd : parseDecimal (takeSign (strip s)).2 with
  | none =>
    rw [hd] at h
    split at h
    · simp at h
    · split at h <;> simp at h
  | some x =>
    rw [hd] at h
    split at h
    · simp at h
    · split at h
      · simp at h
      · simp only [Option.some.injEq] at h
        exact Ieee.idem h

theorem reading_double {t k m : Str} {v : PyFloat} (h : Reading t k m v) : IsDouble v := by
  obtain ⟨f0, rest, _, h⟩ := h
  exact parseFloat_double h

/-- A whole number of units of the last place of the smallest doubles. -/
def OnGrid (q : ℚ) : Prop := ∃ z : ℤ, q = z * 2 ^ (-1074 : ℤ)

theorem onGrid_int (z : ℤ) : OnGrid (z : ℚ) := by
  refine ⟨z * 2 ^ 1074, ?_⟩
  rw [Int.cast_mul, mul_assoc]
  have : (((2 : ℤ) ^ 1074 : ℤ) : ℚ) * 2 ^ (-1074 : ℤ) = 1 := by
    rw [Int.cast_pow, Int.cast_ofNat, zpow_neg, ← zpow_natCast]
    exact mul_inv_cancel₀ (zpow_ne_zero _ (by norm_num))
  rw [this, mul_one]

theorem onGrid_sub {a b : ℚ} (ha : OnGrid a) (hb : OnGrid b) : OnGrid (a - b) := by
  obtain ⟨x, rfl⟩ := ha
  obtain ⟨y, rfl⟩ := hb
  exact ⟨x - y, by rw [Int.cast_sub, sub_mul]⟩

theorem onGrid_rnd {q : ℚ} (h : OnGrid q) (h0 : q ≠ 0) : rnd q ≠ .fin 0 := by
  intro e
  obtain ⟨z, hz⟩ := h
  have := grid_err hz e
  rw [zero_sub, abs_neg] at this
  have hp : 0 < |q| := abs_pos.2 h0
  rw [le_div_iff₀ (by norm_num)] at this
  have h2 : (2 : ℚ) ≤ 2 ^ 53 := by norm_num
  nlinarith

theorem soundMeter_ok {m : Meter} (h : OnGrid m.pollTime) (ts : ℤ) : ∃ l, (m.report ts).2 = .ok l := by
  unfold Meter.report; simp only
  split_ifs with h'
  · exact ⟨_, rfl⟩
  · obtain ⟨x, hx⟩ := div_ok (a := m.value.toFloat) (r := rnd ((ts : ℚ) - m.pollTime))
      (onGrid_rnd (onGrid_sub (onGrid_int ts) h) (sub_ne_zero.2 h'))
    simp only [hx]
    exact ⟨_, rfl⟩

theorem soundMeter_report (m : Meter) (ts : ℤ) : OnGrid (m.report ts).1.pollTime := by
  have : (m.report ts).1.pollTime = (ts : ℚ) := by
    unfold Meter.report; simp only
    split_ifs
    · rfl
    · split <;> rfl
  rw [this]; exact onGrid_int ts

/-- What holds of the timers and meters of every reachable state. -/
structure Sound (s : CPState PF PM) : Prop where
  timers : ∀ p ∈ s.timers, SoundTimer p.2
  meters : ∀ p ∈ s.meters, OnGrid p.2.pollTime

theorem sound_init (ops : PluginOps PF PM) (plugins : List PF) : Sound (CPState.init ops plugins) :=
  ⟨by simp [CPState.init], by simp [CPState.init]⟩

theorem sound_process (ops : PluginOps PF PM) (pre int : Str) {w : World} (hw : ∀ n, rnd (w.clk n) = .fin (w.clk n))
    {s : CPState PF PM} (hs : Sound s) (msg : Str) : Sound (process (configurable ops pre int) w s msg).1 := by
  obtain ⟨_, _, ⟨draw, e3⟩, e4⟩ := effect ops pre int w s msg
  constructor
  · rw [e3]
    intro p hp
    rcases he : readEffect c!"ms" msg with _ | ⟨k, v⟩
    · rw [he] at hp; exact hs.timers p hp
    · rw [he] at hp
      have hv : IsDouble v := reading_double (readEffect_iff.1 he)
      rcases Dict.mem_put hp with rfl | hp
      · apply soundTimer_update _ _ hv
        cases hf : Dict.find s.timers k with
        | none => exact soundTimer_init _ _ _
        | some t => exact hs.timers _ (Dict.mem_of_find hf)
      · exact hs.timers p hp
  · rw [e4]
    refine applyRead_forall (fun p : Str × Meter => OnGrid p.2.pollTime) ?_ ?_ hs.meters _
    · intro k; exact rep_grid (hw (s.ticks + 1))
    · intro k x v h; exact h

theorem sound_flush (ops : PluginOps PF PM) (pre int : Str) (w : World) (i p : ℤ) {s : CPState PF PM} (hwf : CPWf ops pre s)
    (hs : Sound s) : Sound (flush (configurable ops pre int) w i p s).1 := by
  rw [flush_cp ops pre int w i p hwf]
  generalize truncQ (w.clk s.ticks) = ts
  have hm : Dict.keys (meterRes ts s.meters).1 = s.meters.keys := runElems_keys _ _ _
  obtain ⟨_, _, _, h4, _⟩ := flushForm_state (configurable ops pre int) w (Int.fdiv i 1000) ts
    (counterResC ts s.counters) (timerResC ts s.timers) (s.gauges.map fun p => p.2.report ts)
    (meterRes ts s.meters) s hwf.shared hm
  have h5 := flushForm_meters (configurable ops pre int) w (Int.fdiv i 1000) ts
    (counterResC ts s.counters) (timerResC ts s.timers) (s.gauges.map fun p => p.2.report ts)
    (meterRes ts s.meters) s hwf.shared hm
  constructor
  · rw [h4]
    split_ifs
    · exact runElems_forall _ _ (fun p : Str × TimerRep => SoundTimer p.2) (fun k v h => soundTimer_report h ts) _ hs.timers
    · exact hs.timers
  · rcases h5 with h5 | h5 <;> rw [h5]
    · exact hs.meters
    · exact runElems_forall _ _ (fun p : Str × Meter => OnGrid p.2.pollTime) (fun k v h => soundMeter_report v ts) _ hs.meters

theorem sound_runOps (ops : PluginOps PF PM) (pre int : Str) (plugins : List PF) {w : World}
    (hw : ∀ n, rnd (w.clk n) = .fin (w.clk n)) (os : List Op) :
    Sound (runOps (configurable ops pre int) w (CPState.init ops plugins) os).1 := by
  induction os using List.reverseRecOn with
  | nil => exact sound_init ops plugins
  | append_singleton os o ih =>
    rw [runOps_snoc]
    cases o with
    | msg m => exact sound_process ops pre int hw ih m
    | flush i p => exact sound_flush ops pre int w i p (cpwf_runOps ops pre int w (cpwf_init ops pre plugins) os) ih

end Txstatsd
