import Verif.Lemmas.CounterFlush
import Verif.Spec.Timer
import Mathlib.Algebra.Order.BigOperators.Group.List

set_option linter.unusedSectionVars false
set_option linter.unusedSimpArgs false
set_option linter.unusedVariables false

namespace Txstatsd
open Spec

section
/-! ## Collect -/
variable {α : Type}

theorem collect_exists (P : Str → α → Prop) (msgs : List Str) : ∃ vs, Collect P msgs vs := by
  induction msgs with
  | nil => exact ⟨[], .nil⟩
  | cons m ms ih =>
    obtain ⟨vs, h⟩ := ih
    by_cases hm : ∃ v, P m v
    · obtain ⟨v, hm⟩ := hm; exact ⟨_, .hit hm h⟩
    · exact ⟨_, .skip (fun v hv => hm ⟨v, hv⟩) h⟩

theorem collect_unique {P : Str → α → Prop} (hP : ∀ m v v', P m v → P m v' → v = v') {msgs : List Str} {a b : List α}
    (ha : Collect P msgs a) (hb : Collect P msgs b) : a = b := by
  induction ha generalizing b with
  | nil => cases hb; rfl
  | hit h1 _ ih =>
    cases hb with
    | hit h2 h3 => rw [hP _ _ _ h1 h2, ih h3]
    | skip h2 _ => exact absurd h1 (h2 _)
  | skip h1 _ ih =>
    cases hb with
    | hit h2 h3 => exact absurd h2 (h1 _)
    | skip h2 h3 => exact ih h3

theorem collect_append {P : Str → α → Prop} {ms ms' : List Str} {a b : List α}
    (ha : Collect P ms a) (hb : Collect P ms' b) : Collect P (ms ++ ms') (a ++ b) := by
  induction ha with
  | nil => exact hb
  | hit h _ ih => exact .hit h ih
  | skip h _ ih => exact .skip h ih

theorem sinceFlush_msg (os : List Op) (m : Str) : sinceFlush (os ++ [.msg m]) = sinceFlush os ++ [m] := by
  simp [sinceFlush, List.foldl_append]

theorem sinceFlush_flush (os : List Op) (i p : ℤ) : sinceFlush (os ++ [.flush i p]) = [] := by
  simp [sinceFlush, List.foldl_append]

end

section
variable [Rounding] {PF PM : Type}

theorem reading_iff {t k msg : Str} {v : PyFloat} :
    Reading t k msg v ↔ ∃ m, parseMessage msg = some m ∧ m.mtype = t ∧ m.key = k ∧
      parseFloat (m.fields.headD []) = some v := by
  constructor
  · rintro ⟨f0, rest, hp, hv⟩
    exact ⟨_, parsed_iff.1 hp, rfl, rfl, hv⟩
  · rintro ⟨m, hp, rfl, rfl, hv⟩
    rcases parse_fields hp with ⟨f0, hf⟩ | ⟨f0, f2, hf⟩
    · exact ⟨f0, [m.mtype], parsed_iff.2 (by rw [hp, ← hf]), by simpa [hf] using hv⟩
    · exact ⟨f0, [m.mtype, f2], parsed_iff.2 (by rw [hp, ← hf]), by simpa [hf] using hv⟩

theorem reading_unique {t k msg : Str} {v v' : PyFloat} (h : Reading t k msg v) (h' : Reading t k msg v') : v = v' := by
  obtain ⟨m, hp, _, _, hv⟩ := reading_iff.1 h
  obtain ⟨m', hp', _, _, hv'⟩ := reading_iff.1 h'
  rw [hp] at hp'; simp only [Option.some.injEq] at hp'; subst hp'
  rw [hv] at hv'; simpa using hv'

theorem timerEffect_iff {msg k : Str} {d : PyFloat} :
    timerEffect msg = some (k, d) ↔ Reading c!"ms" k msg d := by
  rw [reading_iff]
  unfold timerEffect timerEffectM
  cases hp : parseMessage msg with
  | none => simp
  | some m =>
    simp only
    split_ifs with h
    · cases hv : parseFloat (m.fields.headD []) with
      | none =>
        simp only [Option.map_none, reduceCtorEq, false_iff, not_exists, not_and]
        intro m' hm _ _ hv'; simp only [Option.some.injEq] at hm; subst hm; rw [hv] at hv'; cases hv'
      | some v =>
        simp only [Option.map_some, Option.some.injEq, Prod.mk.injEq]
        constructor
        · rintro ⟨rfl, rfl⟩; exact ⟨m, rfl, h, rfl, hv⟩
        · rintro ⟨m', rfl, _, rfl, hv'⟩; rw [hv] at hv'; exact ⟨rfl, by simpa using hv'⟩
    · simp only [reduceCtorEq, false_iff, not_exists, not_and]
      intro m' hm ht; simp only [Option.some.injEq] at hm; subst hm; exact absurd ht h

theorem applyTimer_find {d : Dict (List PyFloat)} {msg k : Str} :
    (∃ v, Reading c!"ms" k msg v ∧
      (applyTimer d (timerEffect msg)).find k = some ((d.find k).getD [] ++ [v])) ∨
    ((∀ v, ¬ Reading c!"ms" k msg v) ∧ (applyTimer d (timerEffect msg)).find k = d.find k) := by
  rcases he : timerEffect msg with _ | ⟨k', x⟩
  · right
    refine ⟨fun v hv => ?_, rfl⟩
    rw [timerEffect_iff.2 hv] at he; simp at he
  · by_cases hk : k = k'
    · subst hk
      exact Or.inl ⟨x, timerEffect_iff.1 he, Dict.find_put_self _ _ _⟩
    · right
      refine ⟨fun v hv => ?_, Dict.find_put_ne _ _ hk⟩
      rw [timerEffect_iff.2 hv] at he; simp at he; exact hk he.1

/-! ## The threshold -/

theorem truncQ_int (z : ℤ) : truncQ (z : ℚ) = z := by
  unfold truncQ
  split_ifs
  · simp
  · have : (-(z : ℚ)) = ((-z : ℤ) : ℚ) := by push_cast; rfl
    rw [this, Int.floor_intCast]; ring

theorem threshold_index [Exact] {percent : ℤ} (h50 : 50 ≤ percent) (h100 : percent ≤ 100) {n : Nat} (hn : 1 < n) :
    toIntF ((rnd ((100 - percent : ℤ) / 100 : ℚ)).mul (rnd (n : ℚ)) |>.roundF) =
      .ok (⌊((100 - percent : ℤ) : ℚ) / 100 * n + 1 / 2⌋) ∧
    1 ≤ keep percent n ∧ keep percent n ≤ n ∧
    ((keep percent n : ℤ) = (n : ℤ) - ⌊((100 - percent : ℤ) : ℚ) / 100 * n + 1 / 2⌋) := by
  have hq0 : (0 : ℚ) ≤ ((100 - percent : ℤ) : ℚ) / 100 := by
    apply div_nonneg _ (by norm_num); exact_mod_cast (by omega : (0 : ℤ) ≤ 100 - percent)
  have hq1 : ((100 - percent : ℤ) : ℚ) / 100 ≤ 1 / 2 := by
    rw [div_le_div_iff₀ (by norm_num) (by norm_num)]
    exact_mod_cast (by omega : (100 - percent) * 2 ≤ 1 * 100)
  have hn0 : (0 : ℚ) ≤ n := by positivity
  set x : ℚ := ((100 - percent : ℤ) : ℚ) / 100 * n with hx
  have hx0 : 0 ≤ x := mul_nonneg hq0 hn0
  have hx1 : x ≤ n / 2 := by
    have := mul_le_mul_of_nonneg_right hq1 hn0
    rw [hx]; linarith
  have hf0 : 0 ≤ ⌊x + 1 / 2⌋ := Int.floor_nonneg.2 (by linarith)
  have hf1 : ⌊x + 1 / 2⌋ < n := by
    rw [Int.floor_lt]
    have : (2 : ℚ) ≤ n := by exact_mod_cast hn
    push_cast
    linarith
  refine ⟨?_, ?_, ?_, ?_⟩
  · simp only [Exact.rnd_eq, PyFloat.mul, PyFloat.roundF, toIntF]
    rw [← hx, truncQ_int]
    simp only [roundHalfAway, hx0, if_true]
  all_goals unfold keep; rw [if_neg (by omega)]; rw [← hx]; omega

theorem sum_fold [Exact] (l : List ℚ) (a : ℚ) :
    (l.map PyFloat.fin).foldl (fun x y => Num.add x (.flt y)) (.flt (.fin a)) = .flt (.fin (a + l.sum)) := by
  induction l generalizing a with
  | nil => simp
  | cons b l ih =>
    simp only [List.map_cons, List.foldl_cons, List.sum_cons]
    have : Num.add (.flt (.fin a)) (.flt (.fin b)) = .flt (.fin (a + b)) := by
      simp [Num.add, Num.toFloat, PyFloat.add, Exact.rnd_eq]
    rw [this, ih]; ring_nf

theorem sum_fold0 [Exact] (l : List ℚ) (hl : l ≠ []) :
    (l.map PyFloat.fin).foldl (fun x y => Num.add x (.flt y)) (.int 0) = .flt (.fin l.sum) := by
  cases l with
  | nil => exact absurd rfl hl
  | cons b l =>
    simp only [List.map_cons, List.foldl_cons, List.sum_cons]
    have : Num.add (.int 0) (.flt (.fin b)) = .flt (.fin b) := by
      simp [Num.add, Num.toFloat, PyFloat.add, Exact.rnd_eq]
    rw [this, sum_fold]

theorem sortFloats_fin (qs : List ℚ) :
    sortFloats (qs.map PyFloat.fin) = (qs.mergeSort (fun a b => decide (a ≤ b))).map PyFloat.fin := by
  unfold sortFloats
  rw [List.map_mergeSort]
  intro a _ b _
  by_cases h : a ≤ b
  · simp [PyFloat.lt, h]
  · simp [PyFloat.lt, h, not_le.1 h]

theorem getLastD_of_getLast? {α : Type} {l : List α} {d x : α} (h : l.getLast? = some x) : l.getLastD d = x := by
  rw [List.getLastD_eq_getLast?, h]; rfl

/-- The summary of a timer with finite durations. -/
theorem timerGroup_summary [Exact] {percent : ℤ} (h50 : 50 ≤ percent) (h100 : percent ≤ 100) (ts : ℤ) (key : Str)
    (qs : List ℚ) (hne : qs ≠ []) :
    ∃ g, timerGroup percent ts key (qs.map PyFloat.fin) = .ok (some g) ∧ TimerSummary percent ts key qs g := by
  set sorted := qs.mergeSort (fun a b => decide (a ≤ b)) with hs
  have hperm : sorted.Perm qs := List.mergeSort_perm _ _
  have hlen : sorted.length = qs.length := hperm.length_eq
  have hpw : sorted.Pairwise (· ≤ ·) := by
    have := List.pairwise_mergeSort (le := fun a b : ℚ => decide (a ≤ b))
      (fun a b c h1 h2 => by simp at *; exact le_trans h1 h2)
      (fun a b => by simp; exact le_total a b) qs
    simpa [hs] using this
  have hsne : sorted ≠ [] := by
    intro h; rw [h] at hlen; exact hne (List.length_eq_zero_iff.1 hlen.symm)
  obtain ⟨lower, hlow⟩ : ∃ x, sorted.head? = some x := by
    rw [← Option.isSome_iff_exists]; simpa using hsne
  obtain ⟨upper, hup⟩ : ∃ x, sorted.getLast? = some x := by
    rw [← Option.isSome_iff_exists]; simpa using hsne
  have hpos : 0 < qs.length := List.length_pos_iff.2 hne
  have hhd : (sorted.map PyFloat.fin).headD (.fin 0) = .fin lower := by
    rw [List.headD_eq_head?_getD, List.head?_map, hlow]; rfl
  have htl : (sorted.map PyFloat.fin).getLastD (.fin 0) = .fin upper := by
    apply getLastD_of_getLast?; rw [List.getLast?_map, hup]; rfl
  have htg : ∀ m t, timerThreshold percent (sorted.map PyFloat.fin) (.fin lower) (.fin upper) = .ok (m, t) →
      timerGroup percent ts key (qs.map PyFloat.fin) =
      .ok (some [⟨c!"stats.timers." ++ key ++ c!".count", .int qs.length, ts⟩,
       ⟨c!"stats.timers." ++ key ++ c!".lower", .flt (.fin lower), ts⟩,
       ⟨c!"stats.timers." ++ key ++ c!".mean", .flt m, ts⟩,
       ⟨c!"stats.timers." ++ key ++ c!".upper", .flt (.fin upper), ts⟩,
       ⟨c!"stats.timers." ++ key ++ c!".upper_" ++ intStr percent, .flt t, ts⟩]) := by
    intro m t h
    unfold timerGroup
    rw [if_pos (by simpa using hpos), sortFloats_fin, ← hs]
    simp only
    rw [hhd, htl, h]
    simp
  by_cases h1 : qs.length = 1
  · -- a single duration
    have hl1 : sorted.length = 1 := by rw [hlen, h1]
    obtain ⟨x, hx⟩ := List.length_eq_one_iff.1 hl1
    rw [hx] at hlow hup
    simp at hlow hup
    subst hlow
    subst hup
    refine ⟨_, htg (.fin x) (.fin x) ?_, sorted, [x], x, x, x, hperm, hpw, ?_, by rw [hx]; rfl, by rw [hx]; rfl, rfl, ?_⟩
    · unfold timerThreshold; rw [if_neg (by simp [hl1])]
    · rw [hx]; simp [keep, h1]
    · simp
  · have hn : 1 < qs.length := by omega
    obtain ⟨e1, e2, e3, e4⟩ := threshold_index h50 h100 hn
    set k := keep percent qs.length with hk
    have hklen : (sorted.take k).length = k := by rw [List.length_take, hlen]; omega
    have hkne : sorted.take k ≠ [] := by intro h; rw [h] at hklen; simp at hklen; omega
    obtain ⟨thr, hthr⟩ : ∃ x, (sorted.take k).getLast? = some x := by
      exact ⟨_, List.getLast?_eq_some_getLast hkne⟩
    refine ⟨_, htg (.fin ((sorted.take k).sum / (sorted.take k).length)) (.fin thr) ?_, sorted, sorted.take k, lower,
      upper, thr, hperm, hpw, rfl, hlow, hup, hthr, rfl⟩
    unfold timerThreshold
    have hml : (sorted.map PyFloat.fin).length = qs.length := by simp [hlen]
    simp only [hml]
    rw [if_pos hn, e1]
    simp only
    rw [← e4]
    have hsl : sliceTo (sorted.map PyFloat.fin) (k : ℤ) = (sorted.take k).map PyFloat.fin := by
      unfold sliceTo; rw [if_pos (by positivity)]; simp
    rw [hsl, List.getLast?_map, hthr]
    simp only [Option.map_some]
    rw [sum_fold0 _ hkne]
    have hkz : (k : ℤ) ≠ 0 := by omega
    simp only [Num.divInt, hkz, if_false, PyFloat.divInt, Exact.rnd_eq, Num.toFloat, hklen]
    simp

/-- With exact arithmetic and a percentage between 50 and 100 the timer phase never raises, whatever the
durations (nan and infinities included). -/
theorem timerGroup_ok [Exact] {percent : ℤ} (h50 : 50 ≤ percent) (h100 : percent ≤ 100) (ts : ℤ) (key : Str)
    (ds : List PyFloat) :
    ∃ o, timerGroup percent ts key ds = .ok o ∧ (o = none ↔ ds = []) := by
  unfold timerGroup
  by_cases hl : ds.length > 0
  · rw [if_pos hl]
    have hlen : (sortFloats ds).length = ds.length := (List.mergeSort_perm _ _).length_eq
    have : ∃ x, timerThreshold percent (sortFloats ds) ((sortFloats ds).headD (.fin 0)) ((sortFloats ds).getLastD (.fin 0)) = .ok x := by
      unfold timerThreshold
      simp only [hlen]
      by_cases hn : ds.length > 1
      · rw [if_pos hn]
        obtain ⟨e1, e2, e3, e4⟩ := threshold_index h50 h100 hn
        rw [e1]
        simp only
        rw [← e4]
        have hsl : sliceTo (sortFloats ds) (keep percent ds.length : ℤ) = (sortFloats ds).take (keep percent ds.length) := by
          unfold sliceTo; rw [if_pos (by positivity)]; simp
        rw [hsl]
        have hkl : ((sortFloats ds).take (keep percent ds.length)).length = keep percent ds.length := by
          rw [List.length_take, hlen]; omega
        cases hg : ((sortFloats ds).take (keep percent ds.length)).getLast? with
        | none =>
          rw [List.getLast?_eq_none_iff] at hg
          rw [hg] at hkl; simp at hkl; omega
        | some tu =>
          simp only
          obtain ⟨y, hy⟩ := divInt_ok (n := (keep percent ds.length : ℤ)) (by omega)
            (((sortFloats ds).take (keep percent ds.length)).foldl (fun a x => Num.add a (.flt x)) (.int 0))
          rw [hy]
          exact ⟨_, rfl⟩
      · rw [if_neg hn]; exact ⟨_, rfl⟩
    obtain ⟨⟨m, t⟩, h⟩ := this
    simp only [h]
    refine ⟨_, rfl, ?_⟩
    simp
    intro e; subst e; simp at hl
  · rw [if_neg hl]
    refine ⟨none, rfl, ?_⟩
    simp
    cases ds with
    | nil => rfl
    | cons a b => simp at hl

/-- All percentages of a history are between 50 and 100. -/
def Percents (os : List Op) : Prop := ∀ i p, Op.flush i p ∈ os → 50 ≤ p ∧ p ≤ 100

theorem timer_elems [Exact] {percent : ℤ} (h50 : 50 ≤ percent) (h100 : percent ≤ 100) (ts : ℤ)
    (d : Dict (List PyFloat)) :
    runElems (fun _ _ => []) (timerGroup percent ts) d =
      (d.map fun p => (p.1, []),
       d.filterMap fun p => (match timerGroup percent ts p.1 p.2 with | .ok o => o | .error _ => none), none) := by
  rw [runElems_ok (fun _ _ => []) (timerGroup percent ts)
    (fun k v => (match timerGroup percent ts k v with | .ok o => o | .error _ => none))]
  intro p _
  obtain ⟨o, ho, _⟩ := timerGroup_ok h50 h100 ts p.1 p.2
  rw [ho]

theorem flush_timers [Exact] (ops : PluginOps PF PM) (w : World) {interval : ℤ} (hi : 1000 ≤ interval) {percent : ℤ}
    (h50 : 50 ≤ percent) (h100 : percent ≤ 100) {s : MPState PF PM} (hs : MPWf ops s) :
    (flush (messageProcessor ops) w interval percent s).1.timers = s.timers.map fun p => (p.1, []) := by
  rw [flush_mp ops w interval percent hs]
  obtain ⟨_, _, _, h4, _⟩ := flushForm_state (messageProcessor ops) w (Int.fdiv interval 1000)
    (truncQ (w.clk s.ticks))
    (runElems (fun _ _ => Num.int 0) (counterGroup (Int.fdiv interval 1000) (truncQ (w.clk s.ticks))) s.counters)
    (runElems (fun _ _ => []) (timerGroup percent (truncQ (w.clk s.ticks))) s.timers)
    (s.gauges.map fun p => [⟨c!"stats.gauge." ++ p.2 ++ c!".value", Num.flt p.1, truncQ (w.clk s.ticks)⟩])
    (meterRes (truncQ (w.clk s.ticks)) s.meters) s hs.shared (runElems_keys _ _ _)
  rw [h4, counter_elems (fdiv_pos hi)]
  simp only [if_true]
  rw [timer_elems h50 h100]

/-- The stored durations are those received since the last flush. -/
theorem stored_timers [Exact] (ops : PluginOps PF PM) (plugins : List PF) (w : World) (os : List Op)
    (hw : WholeSeconds os) (hp : Percents os) (key : Str) :
    Collect (Reading c!"ms" key) (sinceFlush os)
      (((runOps (messageProcessor ops) w (MPState.init ops plugins) os).1.timers.find key).getD []) := by
  induction os using List.reverseRecOn with
  | nil => exact .nil
  | append_singleton os o ih =>
    have ih := ih (fun i p h => hw i p (by simp [h])) (fun i p h => hp i p (by simp [h]))
    have hwf := mpwf_runOps ops w (mpwf_init ops plugins) os
    rw [runOps_snoc]
    generalize runOps (messageProcessor ops) w (MPState.init ops plugins) os = c0 at ih hwf
    cases o with
    | msg m =>
      rw [sinceFlush_msg]
      simp only [Op.apply]
      rw [process_timers]
      rcases applyTimer_find (d := c0.1.timers) (msg := m) (k := key) with ⟨v, hv, hf⟩ | ⟨hn, hf⟩
      · rw [hf]; exact collect_append ih (.hit hv .nil)
      · rw [hf]; have := collect_append ih (.skip hn .nil); simpa using this
    | flush i p =>
      rw [sinceFlush_flush]
      simp only [Op.apply]
      obtain ⟨h50, h100⟩ := hp i p (by simp)
      rw [flush_timers ops w (hw i p (by simp)) h50 h100 hwf]
      have := Dict.find_map c0.1.timers (fun _ _ => ([] : List PyFloat)) key
      rw [this]
      cases c0.1.timers.find key <;> exact .nil

theorem flushForm_prefix {C T G : Type} (I : Impl C T G PF PM) (w : World) (secs ts : ℤ) (c : PhaseRes C) (t : PhaseRes T)
    (g : List (List Datapoint)) (m : PhaseRes Meter) (s : PS C T G PF PM) (hc : c.2.2 = none) :
    c.2.1.flatten ++ t.2.1.flatten <+: (flushForm I w secs ts c t g m s).2.1 := by
  unfold flushForm
  simp only [hc]
  split
  · exact List.prefix_rfl
  · split
    · exact (List.prefix_append _ _).trans (List.prefix_append _ _)
    · split
      · exact ((List.prefix_append _ _).trans (List.prefix_append _ _)).trans (List.prefix_append _ _)
      · exact (((List.prefix_append _ _).trans (List.prefix_append _ _)).trans (List.prefix_append _ _)).trans
          (List.prefix_append _ _)

end
end Txstatsd
