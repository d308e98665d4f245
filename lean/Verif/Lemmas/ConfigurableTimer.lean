import Verif.Lemmas.ConfigurableStored
import Verif.Props.Histograms

set_option linter.unusedSectionVars false
set_option linter.unusedSimpArgs false
set_option linter.unusedVariables false

namespace Txstatsd
open Spec
section
variable [Rounding] {PF PM : Type}

theorem period_add (h : List TimerOp) (q : ℚ) : period (h ++ [.add q]) = if 0 ≤ q then period h ++ [q] else period h := by
  unfold period; rw [List.foldl_append]; rfl

theorem period_report (h : List TimerOp) (ts : ℤ) : period (h ++ [.report ts]) = [] := by
  unfold period; rw [List.foldl_append]; rfl

theorem periodStart_add (s : ℚ) (h : List TimerOp) (q : ℚ) : periodStart s (h ++ [.add q]) = periodStart s h := by
  unfold periodStart; rw [List.foldl_append]; rfl

theorem periodStart_report (s : ℚ) (h : List TimerOp) (ts : ℤ) : periodStart s (h ++ [.report ts]) = ts := by
  unfold periodStart; rw [List.foldl_append]; rfl

theorem durations_add (h : List TimerOp) (q : ℚ) : durations (h ++ [.add q]) = durations h ++ [q] := by
  simp [durations]

theorem durations_report (h : List TimerOp) (ts : ℤ) : durations (h ++ [.report ts]) = durations h := by
  simp [durations]

theorem period_nonneg (h : List TimerOp) : ∀ q ∈ period h, 0 ≤ q := by
  induction h using List.reverseRecOn with
  | nil => simp [period]
  | append_singleton h o ih =>
    cases o with
    | add q =>
      rw [period_add]; split_ifs with hq
      · intro x hx
        rcases List.mem_append.1 hx with hx | hx
        · exact ih x hx
        · simp only [List.mem_singleton] at hx; subst hx; exact hq
      · exact ih
    | report ts => rw [period_report]; simp

/-- What a timer knows of its history. -/
structure TimerInv (name pre : Str) (start : ℚ) (h : List TimerOp) (t : TimerRep) : Prop where
  hist : ∃ sops, t.hist = (Histogram.init 1028).runOps sops ∧ streamValues sops = (period h).map PyFloat.fin
  count : t.count = (durations h).length
  last : t.lastTime = .fin (periodStart start h)
  name : t.name = name
  pre : t.pre = dotted pre

theorem timerInv_init (name pre : Str) (start : ℚ) : TimerInv name pre start [] (TimerRep.init name pre start) :=
  ⟨⟨[.clear], rfl, rfl⟩, rfl, rfl, rfl, rfl⟩

theorem timerInv_add {name pre : Str} {start : ℚ} {h : List TimerOp} {t : TimerRep} (ht : TimerInv name pre start h t)
    (draw : Nat) (q : ℚ) : TimerInv name pre start (h ++ [.add q]) (t.update draw (.fin q)) := by
  obtain ⟨⟨sops, h1, h2⟩, h3, h4, h5, h6⟩ := ht
  unfold TimerRep.update
  simp only [PyFloat.le, decide_eq_true_eq]
  split_ifs with hq
  · refine ⟨⟨sops ++ [.update draw (.fin q)], ?_, ?_⟩, ?_, ?_, h5, h6⟩
    · rw [Histogram.runOps_snoc, h1]
    · rw [UniformSample.streamValues_snoc, h2, period_add, if_pos hq]; simp
    · simp [durations_add, h3]
    · rw [periodStart_add]; exact h4
  · refine ⟨⟨sops, h1, ?_⟩, ?_, ?_, h5, h6⟩
    · rw [h2, period_add, if_neg hq]
    · simp [durations_add, h3]
    · rw [periodStart_add]; exact h4

theorem meanOf_between {l : List ℚ} {lo hi : ℚ} (hne : l ≠ []) (h1 : ∀ v ∈ l, lo ≤ v) (h2 : ∀ v ∈ l, v ≤ hi) :
    lo ≤ meanOf l ∧ meanOf l ≤ hi := by
  have hl : (0 : ℚ) < l.length := by exact_mod_cast List.length_pos_iff.2 hne
  have e1 := List.card_nsmul_le_sum l lo h1
  have e2 := List.sum_le_card_nsmul l hi h2
  simp only [nsmul_eq_mul] at e1 e2
  unfold meanOf
  rw [le_div_iff₀ hl, div_le_iff₀ hl]
  constructor <;> linarith

theorem varianceOf_nonneg (l : List ℚ) : 0 ≤ varianceOf l := by
  unfold varianceOf
  split_ifs with h
  · exact le_refl _
  · apply div_nonneg
    · apply List.sum_nonneg
      intro x hx
      obtain ⟨y, _, rfl⟩ := List.mem_map.1 hx
      positivity
    · have : (2 : ℚ) ≤ l.length := by exact_mod_cast (by omega : 2 ≤ l.length)
      linarith

variable [Exact]

theorem round6_near (q : ℚ) : ∃ r, round6 (.fin q) = .fin r ∧ Near6 r q :=
  ⟨_, by rw [round6, Exact.rnd_eq], near6 q⟩

theorem round6_nat (n : Nat) : round6 (.fin (n : ℚ)) = .fin (n : ℚ) := by
  rw [round6, Exact.rnd_eq]
  have : roundHalfAway ((n : ℚ) * 1000000) = (n : ℤ) * 1000000 := by
    unfold roundHalfAway
    have h0 : (0 : ℚ) ≤ n * 1000000 := by positivity
    first
      | (rw [if_pos h0]
         rw [Int.floor_eq_iff]; push_cast; constructor <;> linarith)
      | (rw [if_neg (by linarith)]
         rw [Int.floor_eq_iff]; push_cast; constructor <;> linarith)
  rw [this]; congr 1; push_cast; field_simp

/-- The score function of C32, read on the values themselves. -/
theorem timer_percentiles {h : List TimerOp} {sops : List (StreamOp PyFloat)}
    (h2 : streamValues sops = (period h).map PyFloat.fin) (hne : period h ≠ []) {lo hi : ℚ}
    (hlo : IsLeast' (period h) lo) (hhi : IsGreatest' (period h) hi) :
    ∃ ps : List PyFloat, ((Histogram.init 1028).runOps sops).percentiles timerPercentiles = .ok ps ∧
      ∃ p99 p999, ps.getD 5 (.fin 0) = .fin p999 ∧ ps.getD 4 (.fin 0) = .fin p99 ∧ lo ≤ p99 ∧ p99 ≤ p999 ∧ p999 ≤ hi := by
  obtain ⟨held', e1, e2, e3⟩ := Histogram.held_fin 1028 sops _ h2
  obtain ⟨held, g1, g2, score, g3, g4, g5, _⟩ := C32_percentiles 1028 (by norm_num) sops _ h2 hne
  rw [e1] at g2
  have hh : held' = held := List.map_injective_iff.2 (fun a b h => by simpa using h) g2
  subst hh
  refine ⟨_, g3 _, score (4458563631096791/4503599627370496), score (8998192055486251/9007199254740992), rfl, rfl, ?_, g5 _ _ (by norm_num), ?_⟩
  · obtain ⟨a, ha, b, hb, h1, _⟩ := g4 (4458563631096791/4503599627370496)
    exact le_trans (hlo.2 a (e3 a ha)) h1
  · obtain ⟨a, ha, b, hb, _, h1⟩ := g4 (8998192055486251/9007199254740992)
    exact le_trans h1 (hhi.2 b (e3 b hb))

theorem timer_reportItems {name pre : Str} {start : ℚ} {h : List TimerOp} {t : TimerRep} (ht : TimerInv name pre start h t)
    (ts : ℤ) :
    ∃ lo hi p99 p999 : ℚ,
      (period h = [] → lo = 0 ∧ hi = 0) ∧ (period h ≠ [] → IsLeast' (period h) lo ∧ IsGreatest' (period h) hi) ∧
      lo ≤ p99 ∧ p99 ≤ p999 ∧ p999 ≤ hi ∧
      t.reportItems ts = .ok [(c!".999percentile", .fin p999), (c!".99percentile", .fin p99),
        (c!".count", .fin ((durations h).length : ℚ)), (c!".max", .fin hi), (c!".mean", .fin (meanOf (period h))),
        (c!".min", .fin lo),
        (c!".rate", .fin (if ((ts : ℚ) - periodStart start h) = 0 then 0
          else (period h).length / ((ts : ℚ) - periodStart start h))),
        (c!".stddev", if period h = [] then .fin 0 else Rounding.sqrt (varianceOf (period h)))] := by
  obtain ⟨⟨sops, h1, h2⟩, h3, h4, h5, h6⟩ := ht
  have hc := Histogram.count_runOps 1028 sops
  rw [h2, List.length_map] at hc
  have hmean := C34_mean 1028 sops _ h2
  have hvar := C31_nonnegative 1028 sops _ h2 (period_nonneg h)
  have hx := C34_extremes 1028 sops (by rw [h2]; simp)
  have hrate : ∃ r, t.rate ts = .ok r ∧ r.toFloat = .fin (if ((ts : ℚ) - periodStart start h) = 0 then 0
      else (period h).length / ((ts : ℚ) - periodStart start h)) := by
    unfold TimerRep.rate
    simp only [h4, h1, hc, Exact.rnd_eq, PyFloat.sub, PyFloat.fin.injEq]
    split_ifs with hz
    · exact ⟨_, rfl, by simp [Num.toFloat, Exact.rnd_eq]⟩
    · simp only [PyFloat.div, hz, if_false, Exact.rnd_eq]
      exact ⟨_, rfl, rfl⟩
  obtain ⟨r, hr, hr'⟩ := hrate
  unfold TimerRep.reportItems
  rw [hr, h3, h1]
  by_cases hne : period h = []
  · rw [hne] at h2
    have h0 : ((Histogram.init 1028).runOps sops).count = 0 := by rw [hc, hne]; rfl
    refine ⟨0, 0, 0, 0, fun _ => ⟨rfl, rfl⟩, fun h => absurd hne h, le_refl _, le_refl _, le_refl _, ?_⟩
    have hp : ((Histogram.init 1028).runOps sops).percentiles timerPercentiles = .ok (List.replicate 6 (.fin 0)) := by
      unfold Histogram.percentiles; rw [h0]; rfl
    have hs : ((Histogram.init 1028).runOps sops).stdDev = .ok (.fin 0) := by
      unfold Histogram.stdDev; rw [h0]; rfl
    obtain ⟨x1, x2⟩ := hx.1 (by rw [h2]; rfl)
    rw [hp, hs, x1, x2, hmean, if_pos hne, ← hr', Exact.rnd_eq]
    rfl
  · obtain ⟨x1, x2, x3⟩ := hx.2 (by rw [h2]; simpa using hne)
    rw [h2] at x1 x2 x3
    obtain ⟨hi, hi1, hi2⟩ := List.mem_map.1 x1
    obtain ⟨lo, lo1, lo2⟩ := List.mem_map.1 x2
    have hhi : IsGreatest' (period h) hi := ⟨hi1, fun v hv => by
      have := (x3 _ (List.mem_map_of_mem hv)).1
      rw [← hi2] at this
      simpa [PyFloat.lt] using this⟩
    have hlo : IsLeast' (period h) lo := ⟨lo1, fun v hv => by
      have := (x3 _ (List.mem_map_of_mem hv)).2
      rw [← lo2] at this
      simpa [PyFloat.lt] using this⟩
    obtain ⟨ps, hps, p99, p999, a1, a2, a3, a4, a5⟩ := timer_percentiles h2 hne hlo hhi
    refine ⟨lo, hi, p99, p999, fun h => absurd h hne, fun _ => ⟨hlo, hhi⟩, a3, a4, a5, ?_⟩
    have hs : ((Histogram.init 1028).runOps sops).stdDev = .ok (Rounding.sqrt (varianceOf (period h))) := by
      unfold Histogram.stdDev
      rw [hc, if_pos (List.length_pos_iff.2 hne), hvar, Histogram.sqrtF,
        if_neg (not_lt.2 (varianceOf_nonneg _))]
    rw [hps, hs, ← hi2, ← lo2, hmean, if_neg hne, ← hr', Exact.rnd_eq, ← a1, ← a2]
    rfl

theorem timerInv_report_ok {name pre : Str} {start : ℚ} {h : List TimerOp} {t : TimerRep} (ht : TimerInv name pre start h t)
    (ts : ℤ) : ∃ pts, (t.report ts).2 = .ok pts ∧
      TimerReport pre name (period h) (durations h).length ((ts : ℚ) - periodStart start h) ts pts := by
  obtain ⟨lo, hi, p99, p999, h1, h2, h3, h4, h5, h6⟩ := timer_reportItems ht ts
  unfold TimerRep.report
  rw [h6]
  refine ⟨_, rfl, ?_⟩
  obtain ⟨a, a1, a2⟩ := round6_near p999
  obtain ⟨b, b1, b2⟩ := round6_near p99
  obtain ⟨c, c1, c2⟩ := round6_near hi
  obtain ⟨d, d1, d2⟩ := round6_near (meanOf (period h))
  obtain ⟨e, e1, e2⟩ := round6_near lo
  obtain ⟨f, f1, f2⟩ := round6_near (if ((ts : ℚ) - periodStart start h) = 0 then 0
          else (period h).length / ((ts : ℚ) - periodStart start h))
  have hm : lo ≤ meanOf (period h) ∧ meanOf (period h) ≤ hi := by
    by_cases hne : period h = []
    · obtain ⟨rfl, rfl⟩ := h1 hne
      rw [hne]; simp [meanOf]
    · obtain ⟨g1, g2⟩ := h2 hne
      exact meanOf_between hne g1.2 g2.2
  refine ⟨lo, hi, p99, p999, a, b, c, d, e, f, h1, h2, h3, h4, h5, hm.1, hm.2, a2, b2, c2, d2, e2, f2, ?_⟩
  simp only [List.map_cons, List.map_nil, ht.name, ht.pre, dotted_eq, a1, b1, c1, d1, e1, f1, round6_nat]

theorem timerInv_report {name pre : Str} {start : ℚ} {h : List TimerOp} {t : TimerRep} (ht : TimerInv name pre start h t)
    (ts : ℤ) : TimerInv name pre start (h ++ [.report ts]) (t.report ts).1 := by
  obtain ⟨lo, hi, p99, p999, _, _, _, _, _, h6⟩ := timer_reportItems ht ts
  unfold TimerRep.report
  rw [h6]
  obtain ⟨⟨sops, h1, h2⟩, h3, h4, h5, h6⟩ := ht
  refine ⟨⟨sops ++ [.clear], ?_, ?_⟩, ?_, ?_, h5, h6⟩
  · rw [Histogram.runOps_snoc, ← h1]; rfl
  · rw [UniformSample.streamValues_snoc, period_report]; rfl
  · rw [durations_report]; exact h3
  · rw [periodStart_report]; simp only [TimerRep.clear, Exact.rnd_eq]

theorem timerInv_run {name pre : Str} {start : ℚ} {h : List TimerOp} {t : TimerRep}
    (hr : TimerRun (TimerRep.init name pre start) h t) : TimerInv name pre start h t := by
  induction hr with
  | nil => exact timerInv_init name pre start
  | add _ ih => exact timerInv_add ih _ _
  | report _ ih => exact timerInv_report ih _

end

section
variable [Rounding] {PF PM : Type}

theorem timerHistory_no_durations {C T G : Type} {I : Impl C T G PF PM} {w : World} {key : Str} {s : PS C T G PF PM}
    {os : List Op} {h : List TimerOp} (hh : TimerHistory I w key s os h) :
    durations h = [] ↔ ¬ Received c!"ms" key (messages os) := by
  induction hh with
  | nil => simp [durations, messages, Received]
  | add _ hr ih =>
    rw [durations_add, messages_snoc_msg, received_snoc]
    simp only [List.append_eq_nil_iff, List.cons_ne_nil, and_false, false_iff, not_not]
    exact Or.inr ⟨_, hr⟩
  | skip _ hr ih =>
    rw [messages_snoc_msg, received_snoc, ih]
    simp only [not_or, not_exists]
    exact ⟨fun h => ⟨h, hr⟩, fun h => h.1⟩
  | flush _ _ ih => rw [durations_report, messages_snoc_flush, ih]

theorem firstReading_snoc {key : Str} {os os1 : List Op} (o : Op) (h : FirstReading key os os1) :
    FirstReading key (os ++ [o]) os1 := by
  obtain ⟨m, os2, h1, h2⟩ := h
  exact ⟨m, os2 ++ [o], by rw [h1]; simp, h2⟩

theorem find_runElems {V : Type} {f : Str → V → V} {g : Str → V → VisitResult} {d : Dict V} (h : (runElems f g d).2.2 = none)
    (k : Str) : Dict.find (runElems f g d).1 k = (Dict.find d k).map (f k) := by
  induction d with
  | nil => rfl
  | cons p rest ih =>
    obtain ⟨k', v⟩ := p
    rw [runElems] at h ⊢
    cases hg : g k' v with
    | error e => simp [hg] at h
    | ok o =>
      simp only [hg] at h ⊢
      simp only [Dict.find]
      split_ifs with hk
      · subst hk; rfl
      · exact ih h

theorem stored_timer (ops : PluginOps PF PM) (pre int : Str) (plugins : List PF) (w : World) (key : Str) {os : List Op}
    {h : List TimerOp} (hh : TimerHistory (configurable ops pre int) w key (CPState.init ops plugins) os h) :
    let s := (runOps (configurable ops pre int) w (CPState.init ops plugins) os).1
    (durations h = [] ∧ s.timers.find key = none) ∨
    ∃ os1 h0 h1 t, FirstReading key os os1 ∧ h = h0 ++ h1 ∧ durations h0 = [] ∧ durations h1 ≠ [] ∧
      (∃ q h2, h1 = .add q :: h2) ∧
      s.timers.find key = some t ∧
      TimerRun (TimerRep.init key pre
        (w.clk ((runOps (configurable ops pre int) w (CPState.init ops plugins) os1).1.ticks + 1))) h1 t := by
  induction hh with
  | nil => exact Or.inl ⟨rfl, rfl⟩
  | @add msg q os h hprev hr ih =>
    obtain ⟨_, _, ⟨draw, e3⟩, _⟩ := effect ops pre int w (runOps (configurable ops pre int) w (CPState.init ops plugins) os).1 msg
    rw [runOps_snoc]; simp only [Op.apply]
    rw [e3, readEffect_iff.2 hr]
    simp only [applyRead]
    right
    rcases ih with ⟨hd, hf⟩ | ⟨os1, h0, h1, t, i1, i2, i3, i4, ⟨q', h2, i5⟩, i6, i7⟩
    · refine ⟨os, h, [.add q], _, ⟨msg, [], rfl, ⟨_, hr⟩, (timerHistory_no_durations hprev).1 hd⟩, rfl, hd,
        by simp [durations], ⟨q, [], rfl⟩, Dict.find_put_self _ _ _, ?_⟩
      rw [hf, Option.getD_none]
      exact TimerRun.add TimerRun.nil
    · refine ⟨os1, h0, h1 ++ [.add q], _, firstReading_snoc _ i1, by rw [i2, List.append_assoc], i3,
        by rw [durations_add]; simp, ⟨q', h2 ++ [.add q], by rw [i5]; rfl⟩, Dict.find_put_self _ _ _, ?_⟩
      rw [i6, Option.getD_some]
      exact TimerRun.add i7
  | @skip msg os h hprev hr ih =>
    obtain ⟨_, _, ⟨draw, e3⟩, _⟩ := effect ops pre int w (runOps (configurable ops pre int) w (CPState.init ops plugins) os).1 msg
    rw [runOps_snoc]; simp only [Op.apply]
    rw [e3]
    have hf : ∀ (new : Str → TimerRep) (mark), (applyRead new mark
        (runOps (configurable ops pre int) w (CPState.init ops plugins) os).1.timers (readEffect c!"ms" msg)).find key =
        (runOps (configurable ops pre int) w (CPState.init ops plugins) os).1.timers.find key := by
      intro new mark
      rcases applyRead_find (new := new) (mark := mark)
        (d := (runOps (configurable ops pre int) w (CPState.init ops plugins) os).1.timers) (t := c!"ms") (msg := msg) (k := key)
        with ⟨v, hv, _⟩ | ⟨_, he⟩
      · exact absurd hv (hr v)
      · exact he
    rw [hf]
    rcases ih with ih | ⟨os1, h0, h1, t, i1, i2⟩
    · exact Or.inl ih
    · exact Or.inr ⟨os1, h0, h1, t, firstReading_snoc _ i1, i2⟩
  | @flush i p os h hprev hok ih =>
    have hwf := cpwf_runOps ops pre int w (cpwf_init ops pre plugins) os
    have hk := (flush_keepsC ops pre int w i p hwf).2.2.2.2.2.2 hok
    have hc := (flush_completeC ops pre int w i p hwf hok).2.1
    rw [runOps_snoc]; simp only [Op.apply]
    rw [hk]
    unfold timerResC at hc ⊢
    rw [find_runElems hc]
    rcases ih with ⟨hd, hf⟩ | ⟨os1, h0, h1, t, i1, i2, i3, i4, ⟨q', h2, i5⟩, i6, i7⟩
    · exact Or.inl ⟨by rw [durations_report]; exact hd, by rw [hf]; rfl⟩
    · right
      refine ⟨os1, h0, h1 ++ [.report _], _, firstReading_snoc _ i1, by rw [i2, List.append_assoc], i3,
        by rw [durations_report]; exact i4, ⟨q', h2 ++ [.report _], by rw [i5]; rfl⟩, by rw [i6]; rfl, ?_⟩
      exact TimerRun.report i7

theorem runElems_section {V : Type} {f : Str → V → V} {g : Str → V → VisitResult} {d : Dict V}
    (h : (runElems f g d).2.2 = none) {k : Str} {v : V} (hk : (k, v) ∈ d) {pts : List Datapoint} (hg : g k v = .ok (some pts)) :
    ∃ a b, (runElems f g d).2.1.flatten = a ++ pts ++ b := by
  induction d with
  | nil => simp at hk
  | cons p rest ih =>
    obtain ⟨k', v'⟩ := p
    rw [runElems] at h ⊢
    cases hg' : g k' v' with
    | error e => simp [hg'] at h
    | ok o =>
      simp only [hg'] at h ⊢
      rcases List.mem_cons.1 hk with he | hk
      · obtain ⟨rfl, rfl⟩ := Prod.mk.inj he
        rw [hg] at hg'
        obtain rfl := Except.ok.inj hg'
        exact ⟨[], (runElems f g rest).2.1.flatten, by simp⟩
      · obtain ⟨a, b, hab⟩ := ih h hk
        exact ⟨o.toList.flatten ++ a, b, by rw [List.flatten_append, hab]; simp⟩

theorem period_append_noadd {h0 h1 : List TimerOp} (h : durations h0 = []) :
    period (h0 ++ h1) = period h1 ∧ durations (h0 ++ h1) = durations h1 := by
  have e : period h0 = [] := by
    induction h0 using List.reverseRecOn with
    | nil => rfl
    | append_singleton l o ih =>
      cases o with
      | add q => rw [durations_add] at h; simp at h
      | report ts => exact period_report _ _
  constructor
  · unfold period at e ⊢
    rw [List.foldl_append, e]
  · unfold durations at h ⊢
    rw [List.filterMap_append, h]; rfl

/-- The timers of a reachable state have histories, if all durations are finite. -/
theorem timers_have_runs (ops : PluginOps PF PM) (pre int : Str) (plugins : List PF) (w : World) (os : List Op)
    (hfin : ∀ m ∈ messages os, ∀ k v, Reading c!"ms" k m v → ∃ q, v = .fin q) :
    ∀ p ∈ (runOps (configurable ops pre int) w (CPState.init ops plugins) os).1.timers,
      ∃ start h, TimerRun (TimerRep.init p.1 pre start) h p.2 := by
  induction os using List.reverseRecOn with
  | nil => intro p hp; simp [runOps, CPState.init] at hp
  | append_singleton os o ih =>
    have hwf := cpwf_runOps ops pre int w (cpwf_init ops pre plugins) os
    rw [runOps_snoc]
    cases o with
    | msg m =>
      rw [messages_snoc_msg] at hfin
      have ih := ih fun m' hm' => hfin m' (by simp [hm'])
      obtain ⟨_, _, ⟨draw, e3⟩, _⟩ := effect ops pre int w (runOps (configurable ops pre int) w (CPState.init ops plugins) os).1 m
      simp only [Op.apply]
      rw [e3]
      intro p hp
      rcases he : readEffect c!"ms" m with _ | ⟨k, v⟩
      · rw [he] at hp; exact ih p hp
      · rw [he] at hp
        obtain ⟨q, rfl⟩ := hfin m (by simp) k v (readEffect_iff.1 he)
        rcases Dict.mem_put hp with rfl | hp
        · cases hf : Dict.find (runOps (configurable ops pre int) w (CPState.init ops plugins) os).1.timers k with
          | none => exact ⟨_, _, TimerRun.add TimerRun.nil⟩
          | some t =>
            obtain ⟨start, h, hr⟩ := ih _ (Dict.mem_of_find hf)
            exact ⟨start, _, TimerRun.add hr⟩
        · exact ih p hp
    | flush i p =>
      rw [messages_snoc_flush] at hfin
      have ih := ih hfin
      simp only [Op.apply]
      rw [flush_cp ops pre int w i p hwf]
      generalize truncQ (w.clk _) = ts
      generalize (runOps (configurable ops pre int) w (CPState.init ops plugins) os).1 = s at *
      obtain ⟨_, _, _, h4, _⟩ := flushForm_state (configurable ops pre int) w (Int.fdiv i 1000) ts
        (counterResC ts s.counters) (timerResC ts s.timers) (s.gauges.map fun p => p.2.report ts)
        (meterRes ts s.meters) s hwf.shared (runElems_keys _ _ _)
      rw [h4]
      split_ifs
      · refine runElems_forall _ _ (fun p : Str × TimerRep => ∃ start h, TimerRun (TimerRep.init p.1 pre start) h p.2) ?_ _ ih
        rintro k v ⟨start, h, hr⟩
        exact ⟨start, _, TimerRun.report hr⟩
      · exact ih

end
end Txstatsd
