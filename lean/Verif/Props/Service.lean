import Verif.Lemmas.Service
import Verif.Model.Http
import Verif.Props.Histograms

/-!
# C76, C85, C87, C88: the service and its information pages
-/

set_option linter.unusedVariables false

namespace Txstatsd
open Spec

/-! ## C85: the flush period -/

/-- C85: the task flushes every whole number of seconds contained in the interval. -/
theorem C85_period (i : ℤ) : flushPeriod i * 1000 ≤ i ∧ i < flushPeriod i * 1000 + 1000 := by
  unfold flushPeriod
  rw [Int.fdiv_eq_ediv_of_nonneg _ (by norm_num)]
  omega

/-- C85 (partial): for intervals of whole seconds the period is the interval the rates are computed with.
Missing for the full claim (`C85_refuted`): other intervals. -/
theorem C85_whole_seconds_partial (i : ℤ) (h : 1000 ∣ i) : flushPeriod i * 1000 = i := by
  have := C85_period i
  omega

/-- C85: an interval below a second makes a task without any delay. -/
theorem C85_zero (i : ℤ) (h0 : 0 ≤ i) (h1 : i < 1000) : flushPeriod i = 0 := by
  have := C85_period i
  omega

/-- C85, refuted: with `--flush-interval 1500` flushes happen every second, while the rates are computed for a
second and a half. -/
theorem C85_refuted : ¬ ∀ i : ℤ, 0 < i → flushPeriod i * 1000 = i := by
  intro h
  have := h 1500 (by norm_num)
  revert this
  decide

example : flushPeriod 60000 = 60 := by decide

/-! ## C87: the carbon client's statistics -/

/-- C87: if no two statistics of destinations get the same name, a run reports exactly those, with colons
replaced, and sets every statistic to zero; it cannot fail. -/
theorem C87_report {names : Str → Prop} (hu : Unambiguous names) (stats : Dict ℤ)
    (hn : ∀ n ∈ stats.keys, names n) (hw : stats.Wf) :
    ∃ rep stats', reportClientStats stats = .ok (rep, stats') ∧
      (∀ r v, rep.find r = some v ↔ ∃ n, stats.find n = some v ∧ OfDestination n ∧
        n.map (fun c => if c = ':' then '_' else c) = r) ∧
      ∀ n, stats'.find n = (stats.find n).map fun _ => 0 := reportClientStats_spec hu stats hn hw

/-- C87: over any number of runs nothing that carbon counts for a destination is lost or reported twice. -/
theorem C87_total {names : Str → Prop} (hu : Unambiguous names) {n : Str} (hd : OfDestination n) (hnn : names n)
    (rounds : List (List (Str × ℤ))) (hr : ∀ r ∈ rounds, ∀ b ∈ r, names b.1) :
    ∃ reps final, statRounds [] rounds = .ok (reps, final) ∧
      (reps.map fun rep => (rep.find (n.map fun c => if c = ':' then '_' else c)).getD 0).sum + (final.find n).getD 0
        = (rounds.map (counted n)).sum := by
  obtain ⟨reps, fin, h1, h2⟩ := statRounds_spec hu hd rounds [] Dict.wf_nil (by simp) hnn hr
  refine ⟨reps, fin, h1, ?_⟩
  have h3 : ((Dict.find ([] : Dict ℤ) n)).getD 0 = 0 := rfl
  rw [h3, zero_add] at h2
  exact h2

/-- Without that condition a statistic can be lost: `a:1` and `a_1`. -/
theorem C87_ambiguous : (reportClientStats [(c!"destinations.a:1.sent", 5), (c!"destinations.a_1.sent", 7)]).toOption
    = some ([(c!"destinations.a_1.sent", 7)], [(c!"destinations.a:1.sent", 0), (c!"destinations.a_1.sent", 0)]) := by
  decide +kernel

example : Unambiguous (fun n => n = c!"destinations.a:1.sent" ∨ n = c!"destinations.b:1.sent") := by
  rintro n n' (rfl | rfl) (rfl | rfl) - -
  · intro _; rfl
  · decide
  · decide
  · intro _; rfl

example : (reportClientStats [(c!"cpu", 3), (c!"destinations.a:1.sent", 5)]).toOption
    = some ([(c!"destinations.a_1.sent", 5)], [(c!"cpu", 0), (c!"destinations.a:1.sent", 0)]) := by decide +kernel

/-! ## C76: the status page -/

section
variable [Rounding] [Exact]

/-- C76: with exact arithmetic the page says ERROR iff the two durations (in seconds) together exceed 0.7
times the interval *in milliseconds*, as numbers. -/
theorem C76_threshold (i : ℤ) (p f : ℚ) :
    statusError i (.flt (.fin p)) (.flt (.fin f)) = true ↔ (7 / 10 : ℚ) * i < p + f := by
  unfold statusError
  simp only [Num.mul, Num.add, Num.toFloat, Exact.rnd_eq, PyFloat.mul, PyFloat.add, Num.exact, PyFloat.lt]
  simp [mul_comm]

/-- C76 (partial): an ERROR means that the durations exceed 0.7 times the interval in seconds. Missing for
the full claim (`C76_refuted`): the page stays OK far beyond that. -/
theorem C76_sound_partial (i : ℤ) (hi : 0 ≤ i) (p f : ℚ)
    (h : statusError i (.flt (.fin p)) (.flt (.fin f)) = true) : (7 / 10 : ℚ) * (i / 1000) < p + f := by
  rw [C76_threshold] at h
  have : (0 : ℚ) ≤ i := by exact_mod_cast hi
  linarith

/-- C76: the page cannot say ERROR before the durations exceed 700 times the interval. -/
theorem C76_lax (i : ℤ) (p f : ℚ) (h : p + f ≤ 700 * ((i : ℚ) / 1000)) :
    statusError i (.flt (.fin p)) (.flt (.fin f)) = false := by
  rw [← Bool.not_eq_true, C76_threshold]
  intro h'
  linarith

end

attribute [local instance] ratRounding

/-- C76, refuted: an interval of 10 seconds and 20 seconds of work, and the page says OK. -/
theorem C76_refuted : ¬ ∀ (i : ℤ) (p f : ℚ), 0 < i →
    (statusError i (.flt (.fin p)) (.flt (.fin f)) = true ↔ (7 / 10 : ℚ) * (i / 1000) < p + f) := by
  intro h
  have h1 := (h 10000 10 10 (by norm_num)).mpr (by norm_num)
  rw [C76_threshold] at h1
  norm_num at h1

example : statusError 10 (.flt (.fin 4)) (.flt (.fin 4)) = true := by decide +kernel
example : statusError 10000 (.int 0) (.int 0) = false := by decide +kernel

/-! ## C88: the pages of timers -/

section
variable {PF PM : Type}

/-- C88 (partial): on the configurable processor every timer has a page. Missing for the full claim
(`C88_default`, `C88_refuted`): the default processor. -/
theorem C88_configurable_partial (hasPage : PM → Bool) (s : CPState PF PM) (name : Str) (h : name ∈ s.timers.keys) :
    getChildC hasPage s name = .timer := by
  unfold getChildC
  have := (Dict.find_isSome_iff s.timers name).mpr h
  rcases hf : s.timers.find name with _ | t
  · rw [hf] at this; simp at this
  · rfl

/-- C88: a page is shown only for a timer or a plugin metric with one, on either processor. -/
theorem C88_only (hasPage : PM → Bool) (s : CPState PF PM) (name : Str) (h : getChildC hasPage s name = .timer) :
    name ∈ s.timers.keys ∨ ∃ m, s.pluginMetrics.find name = some m ∧ hasPage m = true := by
  unfold getChildC at h
  split at h
  · rename_i t ht
    exact Or.inl (Dict.mem_keys_of_mem (Dict.mem_of_find ht))
  · split at h
    · rename_i m hm
      split at h
      · rename_i hp
        exact Or.inr ⟨m, hm, hp⟩
      · cases h
    · cases h

/-- C88: on the default processor no timer that received durations has a page; none has if no plugin's
metrics have. -/
theorem C88_default (hasPage : PM → Bool) (s : MPState PF PM) (name : Str) :
    (∀ d ds, s.timers.find name = some (d :: ds) → getChildM hasPage s name = .notFound) ∧
    ((∀ m, hasPage m = false) → getChildM hasPage s name = .notFound) := by
  constructor
  · intro d ds h
    unfold getChildM
    rw [h]
  · intro h
    unfold getChildM
    split
    · rfl
    · split
      · rw [if_neg (by simp [h])]
      · rfl

/-- C88, refuted: on the default processor a timer with durations has no page. -/
theorem C88_refuted : ¬ ∀ (s : MPState Unit Unit) (name : Str), name ∈ s.timers.keys →
    getChildM (fun _ => false) s name = .timer := by
  intro h
  have := h { gauges := [], timers := [(c!"t", [.fin 1])], plugins := [] } c!"t" (by decide)
  revert this
  decide

example : getChildC (fun _ : Unit => false) ({ gauges := [], timers := [], plugins := [] } : CPState Unit Unit) c!"t"
    = .notFound := by decide

end

end Txstatsd
