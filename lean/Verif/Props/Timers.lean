import Verif.Lemmas.Timer
import Verif.Props.Counters

/-!
# C12, C13, C79: timers of the MessageProcessor
-/

namespace Txstatsd
open Spec
section
variable [Rounding] {PF PM : Type}

/-- C12: after any history of messages and flushes, a flush emits (after the counters) exactly one group of
five datapoints for each timer that received durations since the last flush, nothing for other timers, and
the group of a timer with finite durations is their order-statistic summary. -/
theorem C12_timer_section [Exact] (ops : PluginOps PF PM) (plugins : List PF) (w : World) (os : List Op)
    (hw : WholeSeconds os) (hp : Percents os) (interval percent : ℤ) (hi : 1000 ≤ interval) (h50 : 50 ≤ percent)
    (h100 : percent ≤ 100) (ds : Str → List PyFloat)
    (hds : ∀ k, Collect (Reading c!"ms" k) (sinceFlush os) (ds k)) :
    let s := (runOps (messageProcessor ops) w (MPState.init ops plugins) os).1
    let ts := truncQ (w.clk s.ticks)
    ∃ (counters : List Datapoint) (ks : List Str) (group : Str → List Datapoint) (rest : List Datapoint),
      (flush (messageProcessor ops) w interval percent s).2.1 = counters ++ ks.flatMap group ++ rest ∧
      (∀ d ∈ counters, ∃ k ∈ s.counters.keys, d.name = c!"stats." ++ k ∨ d.name = c!"stats_counts." ++ k) ∧
      ks.Nodup ∧ (∀ k, k ∈ ks ↔ ds k ≠ []) ∧
      (∀ k ∈ ks, ∀ qs : List ℚ, ds k = qs.map PyFloat.fin → TimerSummary percent ts k qs (group k)) := by
  intro s ts
  have hwf : MPWf ops s := mpwf_runOps ops w (mpwf_init ops plugins) os
  have hst : ∀ k, (s.timers.find k).getD [] = ds k := fun k =>
    collect_unique (P := Reading c!"ms" k) (fun _ _ _ h h' => reading_unique h h')
      (stored_timers ops plugins w os hw hp k) (hds k)
  have hce := counter_elems (fdiv_pos hi) (ts := ts) s.counters
  obtain ⟨rest, hr⟩ := flushForm_prefix (messageProcessor ops) w (Int.fdiv interval 1000) ts
    (runElems (fun _ _ => Num.int 0) (counterGroup (Int.fdiv interval 1000) ts) s.counters)
    (runElems (fun _ _ => []) (timerGroup percent ts) s.timers)
    (s.gauges.map fun p => [⟨c!"stats.gauge." ++ p.2 ++ c!".value", Num.flt p.1, ts⟩])
    (meterRes ts s.meters) s (by rw [hce])
  let group : Str → List Datapoint := fun k =>
    match timerGroup percent ts k (ds k) with
    | .ok (some g) => g
    | _ => []
  refine ⟨(s.counters.map fun p => ([⟨c!"stats." ++ p.1, quot p.2 (Int.fdiv interval 1000), ts⟩,
      ⟨c!"stats_counts." ++ p.1, p.2, ts⟩] : List Datapoint)).flatten,
    (s.timers.filter fun p => decide (p.2 ≠ [])).map Prod.fst, group, rest, ?_, ?_, ?_, ?_, ?_⟩
  · rw [flush_mp ops w interval percent hwf]
    rw [← hr, hce, timer_elems h50 h100]
    simp only [List.append_assoc]
    congr 2
    have hwt := hwf.timers
    have : ∀ d : Dict (List PyFloat), (∀ p ∈ d, ds p.1 = p.2) →
        (d.filterMap fun p => (match timerGroup percent ts p.1 p.2 with | .ok o => o | .error _ => none)).flatten =
        ((d.filter fun p => decide (p.2 ≠ [])).map Prod.fst).flatMap group := by
      intro d
      induction d with
      | nil => intro _; rfl
      | cons p d ih =>
        intro hd
        obtain ⟨k, v⟩ := p
        have ih := ih (fun p hp => hd p (by simp [hp]))
        have hv : ds k = v := hd (k, v) (by simp)
        obtain ⟨o, ho, hon⟩ := timerGroup_ok h50 h100 ts k v
        by_cases hve : v = []
        · have : o = none := hon.2 hve
          simp only [List.filterMap_cons, ho, this, hve, List.filter_cons, ne_eq, not_true_eq_false, decide_false,
            Bool.false_eq_true, if_false]
          exact ih
        · cases o with
          | none => exact absurd (hon.1 rfl) hve
          | some g =>
            simp only [List.filterMap_cons, ho, List.filter_cons, ne_eq, hve, not_false_eq_true, decide_true, if_true,
              List.map_cons, List.flatMap_cons, List.flatten_cons]
            rw [ih]
            congr 1
            simp only [group, hv, ho]
    apply this
    rintro ⟨k, v⟩ hp
    have := hst k
    rw [Dict.find_of_mem hwt hp] at this
    simpa using this.symm
  · intro d hd
    obtain ⟨gr, hgr, hd⟩ := List.mem_flatten.1 hd
    obtain ⟨⟨k, v⟩, hp, rfl⟩ := List.mem_map.1 hgr
    simp only [List.mem_cons, List.not_mem_nil, or_false] at hd
    rcases hd with rfl | rfl
    · exact ⟨k, Dict.mem_keys_of_mem hp, Or.inl rfl⟩
    · exact ⟨k, Dict.mem_keys_of_mem hp, Or.inr rfl⟩
  · exact List.Nodup.sublist (List.Sublist.map _ List.filter_sublist) hwf.timers
  · intro k
    rw [← hst k]
    constructor
    · intro h
      obtain ⟨⟨k', v⟩, hp, rfl⟩ := List.mem_map.1 h
      obtain ⟨hp, hv⟩ := List.mem_filter.1 hp
      rw [Dict.find_of_mem hwf.timers hp]
      simpa using hv
    · intro h
      cases hf : s.timers.find k with
      | none => simp [hf] at h
      | some v =>
        rw [hf] at h
        exact List.mem_map.2 ⟨(k, v), List.mem_filter.2 ⟨Dict.mem_of_find hf, by simpa using h⟩, rfl⟩
  · intro k hk qs hq
    have hne : qs ≠ [] := by
      rintro rfl
      obtain ⟨⟨k', v⟩, hp, rfl⟩ := List.mem_map.1 hk
      obtain ⟨hp, hv⟩ := List.mem_filter.1 hp
      have := hst k'
      rw [Dict.find_of_mem hwf.timers hp, hq] at this
      simp at this hv
      exact hv this
    obtain ⟨g, hg, hs⟩ := timerGroup_summary h50 h100 ts k qs hne
    have : group k = g := by simp only [group, hq, hg]
    rw [this]; exact hs

omit [Rounding] in
/-- C12: in such a summary the values are ordered: lower ≤ mean ≤ upper_pct ≤ upper; every duration lies between
lower and upper; and as many durations as are kept lie at or below upper_pct. -/
theorem C12_ordered (percent ts : ℤ) (h50 : 50 ≤ percent) (h100 : percent ≤ 100) (key : Str) (qs : List ℚ)
    (hne : qs ≠ []) (points : List Datapoint) (h : TimerSummary percent ts key qs points) :
    ∃ lower mean upper threshold : ℚ,
      points.map Datapoint.value = [.int qs.length, .flt (.fin lower), .flt (.fin mean), .flt (.fin upper),
        .flt (.fin threshold)] ∧
      lower ≤ mean ∧ mean ≤ threshold ∧ threshold ≤ upper ∧ lower ∈ qs ∧ upper ∈ qs ∧ threshold ∈ qs ∧
      (∀ q ∈ qs, lower ≤ q ∧ q ≤ upper) ∧
      keep percent qs.length ≤ (qs.filter fun q => decide (q ≤ threshold)).length := by
  obtain ⟨sorted, kept, lower, upper, threshold, hperm, hpw, hkept, hlow, hup, hthr, rfl⟩ := h
  let _ := ratRounding
  have : Exact := ⟨fun _ => rfl⟩
  have hlen := hperm.length_eq
  have hpos : 0 < qs.length := List.length_pos_iff.2 hne
  have hk : 1 ≤ keep percent qs.length ∧ keep percent qs.length ≤ qs.length := by
    by_cases h1 : qs.length = 1
    · simp [keep, h1]
    · obtain ⟨_, e2, e3, _⟩ := threshold_index h50 h100 (n := qs.length) (by omega)
      exact ⟨e2, e3⟩
  have hklen : kept.length = keep percent qs.length := by rw [hkept, List.length_take]; omega
  have hsub : kept.Sublist sorted := by rw [hkept]; exact List.take_sublist _ _
  have hlmem : lower ∈ sorted := List.mem_of_head? hlow
  have humem : upper ∈ sorted := List.mem_of_getLast? hup
  have htmem : threshold ∈ kept := List.mem_of_getLast? hthr
  have hle : ∀ q ∈ sorted, lower ≤ q := by
    cases sorted with
    | nil => simp at hlow
    | cons a l =>
      simp at hlow; subst hlow
      intro q hq
      rcases List.mem_cons.1 hq with rfl | hq
      · exact le_refl _
      · exact List.rel_of_pairwise_cons hpw hq
  have hlast : ∀ (l : List ℚ) (x : ℚ), l.Pairwise (· ≤ ·) → l.getLast? = some x → ∀ q ∈ l, q ≤ x := by
    intro l x hl hx q hq
    have hne : l ≠ [] := by rintro rfl; simp at hx
    have e : l = l.dropLast ++ [x] := by
      rw [List.getLast?_eq_some_getLast hne] at hx
      simp only [Option.some.injEq] at hx
      rw [← hx]; exact (List.dropLast_append_getLast hne).symm
    rw [e] at hl hq
    rcases List.mem_append.1 hq with h | h
    · exact (List.pairwise_append.1 hl).2.2 q h x (by simp)
    · simp at h; exact le_of_eq h
  have hkpw : kept.Pairwise (· ≤ ·) := hpw.sublist hsub
  have hkthr := hlast kept threshold hkpw hthr
  have hupp := hlast sorted upper hpw hup
  have hsum : ∀ l : List ℚ, (∀ q ∈ l, lower ≤ q) → (∀ q ∈ l, q ≤ threshold) →
      lower * l.length ≤ l.sum ∧ l.sum ≤ threshold * l.length := by
    intro l
    induction l with
    | nil => intro _ _; simp
    | cons a l ih =>
      intro h1 h2
      obtain ⟨e1, e2⟩ := ih (fun q hq => h1 q (by simp [hq])) (fun q hq => h2 q (by simp [hq]))
      have a1 := h1 a (by simp)
      have a2 := h2 a (by simp)
      simp only [List.sum_cons, List.length_cons, Nat.cast_add, Nat.cast_one]
      constructor <;> linarith
  obtain ⟨s1, s2⟩ := hsum kept (fun q hq => hle q (hsub.subset hq)) hkthr
  have hkpos : (0 : ℚ) < kept.length := by rw [hklen]; exact_mod_cast hk.1
  refine ⟨lower, kept.sum / kept.length, upper, threshold, rfl, ?_, ?_, hupp _ (hsub.subset htmem),
    hperm.mem_iff.1 hlmem, hperm.mem_iff.1 humem, hperm.mem_iff.1 (hsub.subset htmem), ?_, ?_⟩
  · rw [le_div_iff₀ hkpos]; exact s1
  · rw [div_le_iff₀ hkpos]; exact s2
  · intro q hq
    have hq := hperm.mem_iff.2 hq
    exact ⟨hle q hq, hupp q hq⟩
  · have h1 := (hperm.filter fun q => decide (q ≤ threshold)).length_eq
    rw [← h1, ← hklen]
    have h2 : (kept.filter fun q => decide (q ≤ threshold)).Sublist (sorted.filter fun q => decide (q ≤ threshold)) :=
      hsub.filter _
    have h3 : (kept.filter fun q => decide (q ≤ threshold)) = kept := by
      rw [List.filter_eq_self]; intro q hq; simpa using hkthr q hq
    rw [h3] at h2
    exact h2.length_le

omit [Rounding] in
/-- C12: the number kept at the default percentage 90 is the count minus a tenth of it, rounded. -/
theorem C12_keep_90 (n : Nat) (hn : 1 < n) : keep 90 n = n - (n + 5) / 10 := by
  unfold keep
  rw [if_neg (by omega)]
  have : ⌊((100 - 90 : ℤ) : ℚ) / 100 * n + 1 / 2⌋ = ((n + 5) / 10 : ℕ) := by
    have h := Nat.div_add_mod (n + 5) 10
    have hlt := Nat.mod_lt (n + 5) (by norm_num : 10 > 0)
    have hq : (10 : ℚ) * ((n + 5) / 10 : ℕ) + ((n + 5) % 10 : ℕ) = n + 5 := by exact_mod_cast h
    have hlt' : (((n + 5) % 10 : ℕ) : ℚ) < 10 := by exact_mod_cast hlt
    have hge : (0 : ℚ) ≤ ((n + 5) % 10 : ℕ) := by positivity
    rw [Int.floor_eq_iff, Int.cast_natCast]
    have h10 : ((100 - 90 : ℤ) : ℚ) = 10 := by norm_num
    rw [h10]
    constructor <;> linarith
  rw [this]
  omega

/-- C13: after any history of messages and flushes the durations held for a timer are exactly those received since
the last flush, in order; so each duration is part of exactly one flush. -/
theorem C13_stored_since_flush [Exact] (ops : PluginOps PF PM) (plugins : List PF) (w : World) (os : List Op)
    (hw : WholeSeconds os) (hp : Percents os) (key : Str) (ds : List PyFloat)
    (hds : Collect (Reading c!"ms" key) (sinceFlush os) ds) :
    ((runOps (messageProcessor ops) w (MPState.init ops plugins) os).1.timers.find key).getD [] = ds :=
  collect_unique (P := Reading c!"ms" key) (fun _ _ _ h h' => reading_unique h h')
    (stored_timers ops plugins w os hw hp key) hds

/-- C13: right after a flush every timer is empty. -/
theorem C13_empty_after_flush [Exact] (ops : PluginOps PF PM) (plugins : List PF) (w : World) (os : List Op)
    (interval percent : ℤ) (hi : 1000 ≤ interval) (h50 : 50 ≤ percent) (h100 : percent ≤ 100) (key : Str) :
    let s := (runOps (messageProcessor ops) w (MPState.init ops plugins) os).1
    ((flush (messageProcessor ops) w interval percent s).1.timers.find key).getD [] = [] := by
  intro s
  have hwf : MPWf ops s := mpwf_runOps ops w (mpwf_init ops plugins) os
  rw [flush_timers ops w hi h50 h100 hwf]
  have := Dict.find_map s.timers (fun _ _ => ([] : List PyFloat)) key
  rw [this]
  cases s.timers.find key <;> rfl

/-- C79: with a percentage of at most 25, a timer that received exactly two durations makes the flush raise
`IndexError` in the timer phase (here: it is the first timer), after emitting only counters; its durations are
gone. -/
theorem C79_low_percentage [Exact] (ops : PluginOps PF PM) (plugins : List PF) (w : World) (os : List Op)
    (interval percent : ℤ) (hi : 1000 ≤ interval) (h0 : 0 ≤ percent) (h25 : percent ≤ 25) (k : Str) (a b : PyFloat)
    (rest : Dict (List PyFloat)) :
    let s := (runOps (messageProcessor ops) w (MPState.init ops plugins) os).1
    s.timers = (k, [a, b]) :: rest →
    let r := flush (messageProcessor ops) w interval percent s
    r.2.2 = some .indexError ∧ r.1.timers.find k = some [] ∧
      ∀ d ∈ r.2.1, ∃ c ∈ s.counters.keys, d.name = c!"stats." ++ c ∨ d.name = c!"stats_counts." ++ c := by
  intro s hs r
  have hwf : MPWf ops s := mpwf_runOps ops w (mpwf_init ops plugins) os
  have hidx : toIntF ((rnd ((100 - percent : ℤ) / 100 : ℚ)).mul (rnd ((2 : ℕ) : ℚ)) |>.roundF) = .ok 2 := by
    simp only [Exact.rnd_eq, PyFloat.mul, PyFloat.roundF, toIntF]
    rw [truncQ_int]
    have hq : (75 : ℚ) ≤ ((100 - percent : ℤ) : ℚ) := by exact_mod_cast (by omega : (75 : ℤ) ≤ 100 - percent)
    have hq' : ((100 - percent : ℤ) : ℚ) ≤ 100 := by exact_mod_cast (by omega : (100 : ℤ) - percent ≤ 100)
    congr 1
    unfold roundHalfAway
    rw [if_pos (by push_cast at *; linarith), Int.floor_eq_iff]
    push_cast at *
    constructor <;> linarith
  have hg : timerGroup percent (truncQ (w.clk s.ticks)) k [a, b] = .error .indexError := by
    have hl : (sortFloats [a, b]).length = 2 := (List.mergeSort_perm _ _).length_eq
    unfold timerGroup timerThreshold
    simp only [hl, hidx]
    simp [sliceTo]
  have ht : runElems (fun _ _ => []) (timerGroup percent (truncQ (w.clk s.ticks))) s.timers =
      ((k, []) :: rest, [], some .indexError) := by
    rw [hs, runElems, hg]
  have hr : r = flush (messageProcessor ops) w interval percent s := rfl
  rw [flush_mp ops w interval percent hwf, ht, counter_elems (fdiv_pos hi)] at hr
  unfold flushForm at hr
  simp only at hr
  rw [hr]
  refine ⟨rfl, by simp [Dict.find], ?_⟩
  intro d hd
  simp only [List.flatten_nil, List.append_nil] at hd
  obtain ⟨gr, hgr, hd⟩ := List.mem_flatten.1 hd
  obtain ⟨⟨c, v⟩, hp, rfl⟩ := List.mem_map.1 hgr
  simp only [List.mem_cons, List.not_mem_nil, or_false] at hd
  rcases hd with rfl | rfl
  · exact ⟨c, Dict.mem_keys_of_mem hp, Or.inl rfl⟩
  · exact ⟨c, Dict.mem_keys_of_mem hp, Or.inr rfl⟩

end

/-! ## The hypotheses can be met -/

section
attribute [local instance] ratRounding

example : Percents [.msg c!"a:3|ms", .flush 10000 90] := by
  intro i p h; simp at h; omega

example : Collect (Reading c!"ms" c!"a") (sinceFlush [.msg c!"a:9|ms", .flush 1000 90, .msg c!"a:3|ms", .msg c!"a:x|ms"])
    [.fin 3] := by
  have e : sinceFlush [.msg c!"a:9|ms", .flush 1000 90, .msg c!"a:3|ms", .msg c!"a:x|ms"] = [c!"a:3|ms", c!"a:x|ms"] := rfl
  rw [e]
  refine .hit (timerEffect_iff.1 (by decide +kernel)) (.skip (fun v hv => ?_) .nil)
  have := timerEffect_iff.2 hv
  have e : timerEffect c!"a:x|ms" = none := by decide +kernel
  rw [e] at this; cases this

example : TimerSummary 90 7 c!"a" [3, 1, 2] [⟨c!"stats.timers.a.count", .int 3, 7⟩,
    ⟨c!"stats.timers.a.lower", .flt (.fin 1), 7⟩, ⟨c!"stats.timers.a.mean", .flt (.fin 2), 7⟩,
    ⟨c!"stats.timers.a.upper", .flt (.fin 3), 7⟩, ⟨c!"stats.timers.a.upper_90", .flt (.fin 3), 7⟩] := by
  refine ⟨[1, 2, 3], [1, 2, 3], 1, 3, 3, by decide, by simp; norm_num, by decide +kernel, rfl, rfl, rfl, ?_⟩
  decide +kernel

example : ∃ k a b rest, (runOps (messageProcessor noPlugins) exWorld (MPState.init noPlugins [])
    [.msg c!"a:3|ms", .msg c!"a:1|ms"]).1.timers = (k, [a, b]) :: rest :=
  ⟨c!"a", .fin 3, .fin 1, [], by decide +kernel⟩

end
end Txstatsd
