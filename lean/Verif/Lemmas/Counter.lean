import Verif.Lemmas.Sections
import Verif.Spec.Counter

set_option linter.unusedSectionVars false
set_option linter.unusedSimpArgs false
set_option linter.unusedVariables false

namespace Txstatsd
open Spec
section
variable [Rounding] {PF PM : Type}

theorem div_ok {a r : PyFloat} (h : r ≠ .fin 0) : ∃ x, PyFloat.div a r = .ok x := by
  cases a <;> cases r <;> simp only [PyFloat.div] <;> (try exact ⟨_, rfl⟩)
  all_goals (rename_i q; have : q ≠ 0 := fun e => h (by rw [e]); simp [this])

theorem div_zero (a : PyFloat) : PyFloat.div a (.fin 0) = .error .zeroDivisionError := by
  cases a <;> simp [PyFloat.div]

theorem rate_char (c : Char) : ((isDigit c || c == '.') = true) ↔ (c.isDigit = true ∨ c = '.') := by
  simp [isDigit, Char.isDigit, Char.le_def]

theorem rateMatch_some {f g : Str} :
    rateMatch f = some g ↔ ∃ rest, f = '@' :: (g ++ rest) ∧ g ≠ [] ∧
      (∀ c ∈ g, c.isDigit = true ∨ c = '.') ∧
      (∀ c, rest.head? = some c → ¬ (c.isDigit = true ∨ c = '.')) := by
  constructor
  · intro h
    unfold rateMatch at h
    split at h
    · rename_i r
      simp only at h
      split_ifs at h with h1
      simp only [Option.some.injEq] at h
      subst h
      refine ⟨r.dropWhile (fun c => isDigit c || c == '.'), ?_, by simpa using h1, ?_, ?_⟩
      · rw [List.takeWhile_append_dropWhile]
      · intro c hc; exact (rate_char c).1 (List.mem_takeWhile_imp (p := fun c => isDigit c || c == '.') hc)
      · intro c hc hcc
        have := List.head?_dropWhile_not (fun c => isDigit c || c == '.') r
        rw [hc] at this
        rw [← rate_char] at hcc
        simp only at this; rw [hcc] at this; simp at this
    · simp at h
  · rintro ⟨rest, rfl, hne, hg, hr⟩
    have ht : (g ++ rest).takeWhile (fun c => isDigit c || c == '.') = g := by
      rw [List.takeWhile_append_of_pos (fun c hc => (rate_char c).2 (hg c hc))]
      cases rest with
      | nil => simp
      | cons d ds =>
        have := hr d rfl
        rw [← rate_char] at this
        simp [this]
    simp only [rateMatch, ht]
    rw [if_neg (by simpa using hne)]

/-- The fields of a parsed message. -/
theorem parse_fields {msg : Str} {m : Metric} (h : parseMessage msg = some m) :
    (∃ f0, m.fields = [f0, m.mtype]) ∨ (∃ f0 f2, m.fields = [f0, m.mtype, f2]) := by
  obtain ⟨_, ⟨_, _, _, _, hc⟩, _⟩ := (parseMessage_spec msg m).1 h
  rcases hc with ⟨f0, h, _⟩ | ⟨f0, f2, h, _⟩
  · exact Or.inl ⟨f0, h⟩
  · exact Or.inr ⟨f0, f2, h⟩

theorem parsed_iff {msg t k : Str} {fs : List Str} :
    Parsed msg t k fs ↔ parseMessage msg = some ⟨t, k, fs⟩ :=
  (parseMessage_spec msg ⟨t, k, fs⟩).symm

theorem increment_iff {msg key : Str} {value rate : PyFloat} :
    Increment msg key value rate ↔
      ∃ f0 extra, parseMessage msg = some ⟨c!"c", key, f0 :: c!"c" :: extra⟩ ∧
        parseFloat f0 = some value ∧ Rate extra rate ∧ rate ≠ .fin 0 := by
  simp only [Increment, parsed_iff]

theorem counterEffect_add {msg k : Str} {c : PyFloat} :
    counterEffect msg = some (k, some c) ↔
      ∃ v r, Increment msg k v r ∧ c = v.mul (inverse r) := by
  simp only [increment_iff]
  unfold counterEffect
  cases hp : parseMessage msg with
  | none => simp
  | some m =>
    obtain ⟨t, key, fs⟩ := m
    have hf := parse_fields hp
    simp only [counterEffectM]
    by_cases ht : t = c!"c"
    · subst ht
      simp only [if_true]
      rcases hf with ⟨f0, hf⟩ | ⟨f0, f2, hf⟩
      · simp only at hf; subst hf
        simp only [List.headD_cons, List.length_cons, List.length_nil]
        constructor
        · intro h
          cases hv : parseFloat f0 with
          | none => simp [hv] at h
          | some v =>
            simp only [hv, show (0 + 1 + 1 = 3) = False by simp, if_false] at h
            cases hd : PyFloat.div (rnd 1) (rnd 1) with
            | error e => simp [hd] at h
            | ok inv =>
              simp only [hd, Option.some.injEq, Prod.mk.injEq] at h
              obtain ⟨rfl, rfl⟩ := h
              refine ⟨v, rnd 1, ⟨f0, [], rfl, hv, Or.inl ⟨rfl, rfl⟩, ?_⟩, by simp [inverse, hd]⟩
              intro e; rw [e, div_zero] at hd; simp at hd
        · rintro ⟨v, r, ⟨f0', extra, hp', hv, hr, hr0⟩, rfl⟩
          simp only [Option.some.injEq, Metric.mk.injEq, List.cons.injEq] at hp'
          obtain ⟨-, rfl, rfl, -, rfl⟩ := hp'
          rcases hr with ⟨-, rfl⟩ | ⟨_, _, h, _⟩
          · obtain ⟨x, hx⟩ := div_ok (a := rnd 1) hr0
            simp [hv, hx, inverse]
          · simp at h
      · simp only at hf; subst hf
        simp only [List.headD_cons, List.length_cons, List.length_nil]
        constructor
        · intro h
          cases hv : parseFloat f0 with
          | none => simp [hv] at h
          | some v =>
            simp only [hv, if_true, List.getD_cons_succ, List.getD_cons_zero] at h
            cases hrm : rateMatch f2 with
            | none => simp [hrm] at h
            | some g =>
              simp only [hrm] at h
              cases hg : parseFloat g with
              | none => simp [hg] at h
              | some r =>
                simp only [hg] at h
                cases hd : PyFloat.div (rnd 1) r with
                | error e => simp [hd] at h
                | ok inv =>
                  simp only [hd, Option.some.injEq, Prod.mk.injEq] at h
                  obtain ⟨rfl, rfl⟩ := h
                  obtain ⟨rest, e1, e2, e3, e4⟩ := rateMatch_some.1 hrm
                  refine ⟨v, r, ⟨f0, [f2], rfl, hv, Or.inr ⟨g, rest, by rw [e1], e2, e3, e4, hg⟩, ?_⟩,
                    by simp [inverse, hd]⟩
                  intro e; rw [e, div_zero] at hd; simp at hd
        · rintro ⟨v, r, ⟨f0', extra, hp', hv, hr, hr0⟩, rfl⟩
          simp only [Option.some.injEq, Metric.mk.injEq, List.cons.injEq] at hp'
          obtain ⟨-, rfl, rfl, -, rfl⟩ := hp'
          rcases hr with ⟨h, -⟩ | ⟨g, rest, h, e2, e3, e4, hg⟩
          · simp at h
          · simp only [List.cons.injEq, and_true] at h
            have hrm : rateMatch f2 = some g := rateMatch_some.2 ⟨rest, h, e2, e3, e4⟩
            obtain ⟨x, hx⟩ := div_ok (a := rnd 1) hr0
            simp [hv, hrm, hg, hx, inverse]
    · simp only [ht, if_false, reduceCtorEq, false_iff, not_exists, not_and]
      rintro v r ⟨f0', extra, hp', _⟩
      simp only [Option.some.injEq, Metric.mk.injEq] at hp'
      exact absurd hp'.1 ht

theorem increment_unique {msg k k' : Str} {v r v' r' : PyFloat} (h : Increment msg k v r)
    (h' : Increment msg k' v' r') : k = k' ∧ v = v' ∧ r = r' := by
  obtain ⟨f0, ex, hp, hv, hr, h0⟩ := increment_iff.1 h
  obtain ⟨f0', ex', hp', hv', hr', h0'⟩ := increment_iff.1 h'
  rw [hp] at hp'
  simp only [Option.some.injEq, Metric.mk.injEq, List.cons.injEq, true_and] at hp'
  obtain ⟨rfl, rfl, rfl⟩ := hp'
  rw [hv] at hv'; simp only [Option.some.injEq] at hv'
  refine ⟨rfl, hv', ?_⟩
  rcases hr with ⟨rfl, rfl⟩ | ⟨g, rest, rfl, e2, e3, e4, hg⟩
  · rcases hr' with ⟨-, rfl⟩ | ⟨_, _, h, _⟩
    · rfl
    · simp at h
  · rcases hr' with ⟨h, -⟩ | ⟨g', rest', h, e2', e3', e4', hg'⟩
    · simp at h
    · have h1 := rateMatch_some.2 ⟨rest, rfl, e2, e3, e4⟩
      have h2 := rateMatch_some.2 ⟨rest', rfl, e2', e3', e4'⟩
      simp only [List.cons.injEq, and_true, true_and] at h
      rw [h, h2] at h1
      simp only [Option.some.injEq] at h1; subst h1
      rw [hg] at hg'; simpa using hg'

/-- Every history has its list of increments. -/
theorem increments_exist (key : Str) (msgs : List Str) : ∃ incs, Increments key msgs incs := by
  induction msgs with
  | nil => exact ⟨[], .nil⟩
  | cons m ms ih =>
    obtain ⟨incs, h⟩ := ih
    by_cases hm : ∃ v r, Increment m key v r
    · obtain ⟨v, r, hm⟩ := hm; exact ⟨_, .hit hm h⟩
    · exact ⟨_, .skip (fun v r hv => hm ⟨v, r, hv⟩) h⟩

theorem increments_unique {key : Str} {msgs : List Str} {a b : List (PyFloat × PyFloat)}
    (ha : Increments key msgs a) (hb : Increments key msgs b) : a = b := by
  induction ha generalizing b with
  | nil => cases hb; rfl
  | hit h1 _ ih =>
    cases hb with
    | hit h2 h3 =>
      obtain ⟨_, rfl, rfl⟩ := increment_unique h1 h2
      rw [ih h3]
    | skip h2 _ => exact absurd h1 (h2 _ _)
  | skip h1 _ ih =>
    cases hb with
    | hit h2 _ => exact absurd h2 (h1 _ _)
    | skip _ h3 => exact ih h3

theorem increments_append {key : Str} {ms ms' : List Str} {a b : List (PyFloat × PyFloat)}
    (ha : Increments key ms a) (hb : Increments key ms' b) : Increments key (ms ++ ms') (a ++ b) := by
  induction ha with
  | nil => exact hb
  | hit h _ ih => exact .hit h ih
  | skip h _ ih => exact .skip h ih

/-- Adding the increments to a running total. -/
def addTo (x : Num) (incs : List (PyFloat × PyFloat)) : Num :=
  incs.foldl (fun acc p => acc.add (.flt (p.1.mul (inverse p.2)))) x

theorem addTo_nil (x : Num) : addTo x [] = x := rfl

theorem addTo_append (x : Num) (a b) : addTo x (a ++ b) = addTo (addTo x a) b := by
  simp [addTo, List.foldl_append]

theorem addTo_total (incs) : addTo (.int 0) incs = total incs := rfl

/-- The value stored for a key after one message. -/
theorem applyCounter_find {d : Dict Num} {msg k : Str} :
    (∃ v r, Increment msg k v r ∧
      (applyCounter d (counterEffect msg)).find k = some (addTo ((d.find k).getD (.int 0)) [(v, r)])) ∨
    ((∀ v r, ¬ Increment msg k v r) ∧
      ((applyCounter d (counterEffect msg)).find k).getD (.int 0) = (d.find k).getD (.int 0) ∧
      (k ∈ d.keys → (applyCounter d (counterEffect msg)).find k = d.find k)) := by
  rcases he : counterEffect msg with _ | ⟨k', _ | c⟩
  · right
    refine ⟨?_, by simp [applyCounter], by simp [applyCounter]⟩
    intro v r hv
    have := counterEffect_add.2 ⟨v, r, hv, rfl⟩; rw [he] at this; simp at this
  · right
    refine ⟨?_, ?_, ?_⟩
    · intro v r hv
      have := counterEffect_add.2 ⟨v, r, hv, rfl⟩; rw [he] at this; simp at this
    · simp only [applyCounter]
      split_ifs with h
      · rfl
      · rw [Dict.find_put]; split_ifs with hk
        · subst hk
          have : d.find k = none := by rw [Dict.find_eq_none, ← Dict.has_iff]; exact h
          simp [this]
        · rfl
    · intro hk
      simp only [applyCounter]
      split_ifs with h
      · rfl
      · rw [Dict.find_put]; split_ifs with hkk
        · subst hkk; exact absurd ((Dict.has_iff d k).2 hk) h
        · rfl
  · by_cases hk : k' = k
    · subst hk
      left
      obtain ⟨v, r, hv, rfl⟩ := counterEffect_add.1 he
      exact ⟨v, r, hv, by simp [applyCounter, addTo]⟩
    · right
      refine ⟨?_, ?_, ?_⟩
      · intro v r hv
        have := counterEffect_add.2 ⟨v, r, hv, rfl⟩; rw [he] at this
        simp only [Option.some.injEq, Prod.mk.injEq] at this; exact hk this.1
      · simp [applyCounter, Dict.find_put, Ne.symm hk]
      · simp [applyCounter, Dict.find_put, Ne.symm hk]

theorem applyCounter_keys_mono {d : Dict Num} {e} {k : Str} (h : k ∈ d.keys) :
    k ∈ (applyCounter d e).keys := by
  unfold applyCounter; split
  · exact h
  · split_ifs
    · exact h
    · rw [Dict.mem_keys_put]; exact Or.inr h
  · rw [Dict.mem_keys_put]; exact Or.inr h

/-- The value stored for a key after any history. -/
theorem processAll_find (ops : PluginOps PF PM) (w : World) {key : Str} {msgs : List Str}
    {incs : List (PyFloat × PyFloat)} (h : Increments key msgs incs) (s : MPState PF PM) :
    ((processAll (messageProcessor ops) w s msgs).counters.find key).getD (.int 0)
      = addTo ((s.counters.find key).getD (.int 0)) incs ∧
    (incs ≠ [] ∨ key ∈ s.counters.keys → key ∈ (processAll (messageProcessor ops) w s msgs).counters.keys) := by
  induction h generalizing s with
  | nil => exact ⟨rfl, by simp [processAll]⟩
  | @hit msg msgs v r incs hi hm ih =>
    have := ih (process (messageProcessor ops) w s msg).1
    rw [process_counters] at this
    rcases applyCounter_find (d := s.counters) (msg := msg) (k := key) with ⟨v', r', hi', hf⟩ | ⟨hn, _⟩
    · obtain ⟨_, rfl, rfl⟩ := increment_unique hi hi'
      rw [hf] at this
      refine ⟨?_, fun _ => this.2 (Or.inr ?_)⟩
      · have e := this.1
        simp only [Option.getD_some] at e
        rw [← addTo_append] at e
        exact e
      · rw [← Dict.find_isSome_iff, hf]; rfl
    · exact absurd hi (hn _ _)
  | @skip msg msgs incs hn hm ih =>
    have := ih (process (messageProcessor ops) w s msg).1
    rw [process_counters] at this
    rcases applyCounter_find (d := s.counters) (msg := msg) (k := key) with ⟨v', r', hi', hf⟩ | ⟨_, h2, h3⟩
    · exact absurd hi' (hn _ _)
    · rw [h2] at this
      exact ⟨this.1, fun h => this.2 (h.imp id applyCounter_keys_mono)⟩

/-! ## The counter section of a flush -/

theorem fdiv_pos {interval : ℤ} (h : 1000 ≤ interval) : Int.fdiv interval 1000 ≠ 0 := by
  rw [Int.fdiv_eq_ediv_of_nonneg _ (by norm_num)]; omega

theorem divInt_ok {n : ℤ} (h : n ≠ 0) (x : Num) : ∃ y, x.divInt n = .ok y := by
  unfold Num.divInt; rw [if_neg h]; cases x <;> exact ⟨_, rfl⟩

/-- The quotient of a counter value by the interval. -/
def quot (x : Num) (n : ℤ) : Num :=
  match x.divInt n with
  | .ok y => y
  | .error _ => .int 0

theorem divInt_quot {n : ℤ} (h : n ≠ 0) (x : Num) : x.divInt n = .ok (quot x n) := by
  obtain ⟨y, hy⟩ := divInt_ok h x; simp [quot, hy]

theorem counter_elems {secs ts : ℤ} (h : secs ≠ 0) (d : Dict Num) :
    runElems (fun _ _ => Num.int 0) (counterGroup secs ts) d =
      (d.map fun p => (p.1, Num.int 0),
       d.map fun p => [⟨c!"stats." ++ p.1, quot p.2 secs, ts⟩, ⟨c!"stats_counts." ++ p.1, p.2, ts⟩], none) := by
  rw [runElems_ok (fun _ _ => Num.int 0) (counterGroup secs ts)
    (fun k v => some [⟨c!"stats." ++ k, quot v secs, ts⟩, ⟨c!"stats_counts." ++ k, v, ts⟩])]
  · simp [List.filterMap_eq_map']
  · intro p _; simp [counterGroup, divInt_quot h]

theorem stats_ne_counts (a b : Str) : c!"stats." ++ a ≠ c!"stats_counts." ++ b := by simp

theorem counter_filter {secs ts : ℤ} {d : Dict Num} (hd : Dict.Wf d) (k : Str) (c : Bool) :
    ((d.map fun p => ([⟨c!"stats." ++ p.1, quot p.2 secs, ts⟩, ⟨c!"stats_counts." ++ p.1, p.2, ts⟩] : List Datapoint)).flatten).filter
        (fun x => decide (x.name = (if c then c!"stats." else c!"stats_counts.") ++ k)) =
      ((d.find k).map fun v => (⟨(if c then c!"stats." else c!"stats_counts.") ++ k, if c then quot v secs else v, ts⟩ : Datapoint)).toList := by
  induction d with
  | nil => rfl
  | cons p rest ih =>
    obtain ⟨k', v⟩ := p
    simp only [Dict.Wf, Dict.keys_cons, List.nodup_cons] at hd
    have ih' := ih hd.2
    simp only [List.map_cons, List.flatten_cons, List.filter_append]
    rw [ih']
    by_cases h : k' = k
    · subst h
      have hn : Dict.find rest k' = none := (Dict.find_eq_none rest k').2 hd.1
      cases c <;> simp [Dict.find, hn]
    · cases c <;> simp [Dict.find, h]

end
end Txstatsd
