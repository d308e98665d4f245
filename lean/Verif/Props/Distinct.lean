import Verif.Lemmas.Distinct
import Mathlib.Tactic.Positivity

/-!
# The distinct counter: C40–C43
-/

namespace Txstatsd
open Spec
section
variable [Power]

/-! ## C40 -/

/-- C40: after any history made with a clock that does not run backwards, the count since `since` is the one of a fresh counter
that was given only the sightings after `since`. -/
theorem C40_window (n : Nat) (hn : 0 < n) (tables : List (Nat → Nat)) (since : ℚ) (hs : 0 ≤ since)
    (h : List (ℚ × Str)) (ho : Ordered h) :
    ∃ c c', feed (.init n tables) h = .ok c ∧ feed (.init n tables) (within since h) = .ok c' ∧
      c.distinct since = c'.distinct since := by
  refine ⟨_, _, feed_init hn tables h, feed_init hn tables _, ?_⟩
  unfold DistinctCounter.distinct
  simp only [List.length_map, List.map_map]
  have ho' : Ordered (within since h) := ho.filter _
  have hseen : ∀ item, SeenAfter since h item ↔ SeenAfter since (within since h) item := by
    intro item
    simp only [SeenAfter, within, List.mem_filter, decide_eq_true_eq]
    exact ⟨fun ⟨t, a, b⟩ => ⟨t, a, b, a⟩, fun ⟨t, a, b, _⟩ => ⟨t, a, b⟩⟩
  have : tables.map (HashRow.least0 since ∘ fun t => HashRow.after n { table := t, buckets := List.replicate n 0 } h) =
      tables.map (HashRow.least0 since ∘ fun t => HashRow.after n { table := t, buckets := List.replicate n 0 } (within since h)) := by
    apply List.map_congr_left
    intro t _
    have h1 := least0_isRun hn t since hs h ho
    have h2 := least0_isRun hn t since hs _ ho'
    exact le_antisymm (isRun_le h1 h2 fun i => (hseen i).1) (isRun_le h2 h1 fun i => (hseen i).2)
  rw [this]

/-- C40: what the count is. Each hash function contributes the length of the unbroken run of levels, from 0, that some item seen
after `since` falls into; the estimate is computed from the mean of these runs. -/
theorem C40_value (n : Nat) (hn : 0 < n) (tables : List (Nat → Nat)) (hne : tables ≠ []) (since : ℚ) (hs : 0 ≤ since)
    (h : List (ℚ × Str)) (ho : Ordered h) :
    ∃ c runs, feed (.init n tables) h = .ok c ∧
      List.Forall₂ (fun t r => IsRun n t since h r) tables runs ∧
      c.distinct since = .ok (truncQ (Power.pow2 ((runs.sum : ℚ) / tables.length) / (77351 / 100000))) := by
  refine ⟨_, (tables.map fun t => HashRow.least0 since (HashRow.after n { table := t, buckets := List.replicate n 0 } h)),
    feed_init hn tables h, ?_, ?_⟩
  · rw [List.forall₂_map_right_iff]
    exact List.forall₂_same.2 fun t _ => least0_isRun hn t since hs h ho
  · have h0 : tables.length ≠ 0 := fun e => hne (List.length_eq_zero_iff.1 e)
    simp [DistinctCounter.distinct, h0, estimate, Function.comp_def]

/-- C40: without hash functions there is no mean: ZeroDivisionError. -/
theorem C40_no_hashes (n : Nat) (h : List (ℚ × Str)) (since : ℚ) :
    ∃ c, feed (.init n []) h = .ok c ∧ c.distinct since = .error .zeroDivisionError := by
  refine ⟨.init n [], ?_, by simp [DistinctCounter.distinct, DistinctCounter.init]⟩
  induction h with
  | nil => rfl
  | cons p h ih => simpa [feed, DistinctCounter.init, DistinctCounter.add, addRows] using ih

/-! ## C41 -/

/-- C41: only the set of items seen in the window matters, neither their order nor their number of sightings. -/
theorem C41_set_only (n : Nat) (hn : 0 < n) (tables : List (Nat → Nat)) (since : ℚ) (hs : 0 ≤ since)
    (h h' : List (ℚ × Str)) (ho : Ordered h) (ho' : Ordered h')
    (hset : ∀ item, SeenAfter since h item ↔ SeenAfter since h' item) :
    ∃ c c', feed (.init n tables) h = .ok c ∧ feed (.init n tables) h' = .ok c' ∧
      c.distinct since = c'.distinct since := by
  refine ⟨_, _, feed_init hn tables h, feed_init hn tables h', ?_⟩
  unfold DistinctCounter.distinct
  simp only [List.length_map, List.map_map]
  have : tables.map (HashRow.least0 since ∘ fun t => HashRow.after n { table := t, buckets := List.replicate n 0 } h) =
      tables.map (HashRow.least0 since ∘ fun t => HashRow.after n { table := t, buckets := List.replicate n 0 } h') := by
    apply List.map_congr_left
    intro t _
    have h1 := least0_isRun hn t since hs h ho
    have h2 := least0_isRun hn t since hs h' ho'
    exact le_antisymm (isRun_le h1 h2 fun i => (hset i).1) (isRun_le h2 h1 fun i => (hset i).2)
  rw [this]

/-- C41: more items never make the estimate smaller. -/
theorem C41_monotone [PowerLaws] (n : Nat) (hn : 0 < n) (tables : List (Nat → Nat)) (hne : tables ≠ []) (since : ℚ)
    (hs : 0 ≤ since) (h h' : List (ℚ × Str)) (ho : Ordered h) (ho' : Ordered h')
    (hsub : ∀ item, SeenAfter since h item → SeenAfter since h' item) :
    ∃ c c' x x', feed (.init n tables) h = .ok c ∧ feed (.init n tables) h' = .ok c' ∧
      c.distinct since = .ok x ∧ c'.distinct since = .ok x' ∧ x ≤ x' := by
  have h0 : tables.length ≠ 0 := fun e => hne (List.length_eq_zero_iff.1 e)
  refine ⟨_, _, _, _, feed_init hn tables h, feed_init hn tables h', if_neg (by simpa using h0), if_neg (by simpa using h0), ?_⟩
  · apply estimate_mono
    simp only [List.length_map, List.map_map]
    have := sum_map_le tables
      (HashRow.least0 since ∘ fun t => HashRow.after n { table := t, buckets := List.replicate n 0 } h)
      (HashRow.least0 since ∘ fun t => HashRow.after n { table := t, buckets := List.replicate n 0 } h')
      fun t _ => isRun_le (least0_isRun hn t since hs h ho) (least0_isRun hn t since hs h' ho') hsub
    have : (((tables.map (HashRow.least0 since ∘ fun t =>
        HashRow.after n { table := t, buckets := List.replicate n 0 } h)).sum : ℕ) : ℚ) ≤ ((tables.map (HashRow.least0 since ∘ fun t =>
        HashRow.after n { table := t, buckets := List.replicate n 0 } h')).sum : ℕ) := by exact_mod_cast this
    gcongr

/-- C41: a longer window never counts less, whatever the state of the counter. -/
theorem C41_windows [PowerLaws] (c : DistinctCounter) (a b : ℚ) (hab : a ≤ b) (x y : ℤ) (hx : c.distinct a = .ok x)
    (hy : c.distinct b = .ok y) : y ≤ x := distinct_since_mono c hab x y hx hy

/-- C41: every flush reports the total, the day, the hour and the minute in this order, none smaller than the next (from one day
after the epoch on). -/
theorem C41_flush [PowerLaws] (r : DistinctReporter) (hr : r.counter.rows ≠ []) (now : ℚ) (hnow : 86400 ≤ now) (ts : ℤ) :
    ∃ all day hour min1 : ℤ, r.flush now ts = .ok
      [⟨r.pre ++ r.name ++ c!".count", .int all, ts⟩, ⟨r.pre ++ r.name ++ c!".count_1day", .int day, ts⟩,
       ⟨r.pre ++ r.name ++ c!".count_1hour", .int hour, ts⟩, ⟨r.pre ++ r.name ++ c!".count_1min", .int min1, ts⟩] ∧
      r.counter.distinct (now - 86400) = .ok day ∧ r.counter.distinct (now - 3600) = .ok hour ∧
      r.counter.distinct (now - 60) = .ok min1 ∧ r.counter.distinct 0 = .ok all ∧
      min1 ≤ hour ∧ hour ≤ day ∧ day ≤ all := by
  have h0 : r.counter.rows.length ≠ 0 := fun e => hr (List.length_eq_zero_iff.1 e)
  have hd : ∀ since, ∃ x, r.counter.distinct since = .ok x := fun since => ⟨_, if_neg h0⟩
  obtain ⟨all, ha⟩ := hd 0
  obtain ⟨day, hday⟩ := hd (now - 86400)
  obtain ⟨hour, hhour⟩ := hd (now - 3600)
  obtain ⟨min1, hmin⟩ := hd (now - 60)
  refine ⟨all, day, hour, min1, ?_, hday, hhour, hmin, ha, ?_, ?_, ?_⟩
  · have e1 : now - 60 * 60 = now - 3600 := by norm_num
    have e2 : now - 60 * 60 * 24 = now - 86400 := by norm_num
    simp [DistinctReporter.flush, ha, hmin, e1, e2, hhour, hday, bind, Except.bind]
  · exact distinct_since_mono _ (by linarith) _ _ hhour hmin
  · exact distinct_since_mono _ (by linarith) _ _ hday hhour
  · exact distinct_since_mono _ (by linarith) _ _ ha hday

/-! ## C42 -/

omit [Power] in
/-- C42: hashes have 32 bits. -/
theorem C42_hash (table : Nat → Nat) (item : Str) : sboxHash table item < 2 ^ 32 := sboxHash_lt table item

omit [Power] in
/-- C42: `zeros` counts the trailing zero bits. -/
theorem C42_zeros (n : Nat) : TrailingZeros n (zeros n) := zeros_spec n

omit [Power] in
/-- C42: and no other number is that count. -/
theorem C42_zeros_unique (n k : Nat) (h : TrailingZeros n k) : k = zeros n := trailingZeros_unique h (zeros_spec n)

omit [Power] in
/-- C42: with at least one bucket, any sequence of additions to a fresh counter succeeds, and the shape of the counter stays. -/
theorem C42_add (n : Nat) (hn : 0 < n) (tables : List (Nat → Nat)) (h : List (ℚ × Str)) :
    ∃ c, feed (.init n tables) h = .ok c ∧ WellSized c ∧ c.nBuckets = n ∧ c.rows.map HashRow.table = tables := by
  refine ⟨_, feed_init hn tables h, ⟨hn, ?_⟩, rfl, ?_⟩
  · intro r hr
    simp only [List.mem_map] at hr
    obtain ⟨t, _, rfl⟩ := hr
    rw [after_length]; simp
  · simp [Function.comp_def, after_table]

omit [Power] in
/-- C42: without buckets every addition raises IndexError. -/
theorem C42_no_buckets (tables : List (Nat → Nat)) (hne : tables ≠ []) (t : ℚ) (item : Str) :
    (DistinctCounter.init 0 tables).add t item = .error .indexError := by
  cases tables with
  | nil => exact absurd rfl hne
  | cons f tables => simp [DistinctCounter.init, DistinctCounter.add, addRows, HashRow.add]

omit [Power] in
/-- C42: an addition sets, for each hash function, the bucket of the item's level to the time, and nothing else. -/
theorem C42_one_bucket (c : DistinctCounter) (hc : WellSized c) (t : ℚ) (item : Str) :
    ∃ c', c.add t item = .ok c' ∧ c'.nBuckets = c.nBuckets ∧ List.Forall₂ (fun r r' : HashRow => r'.table = r.table ∧
      ∀ j x, r'.buckets[j]? = some x ↔ (∃ y, r.buckets[j]? = some y) ∧
        ((FallsInto c.nBuckets (sboxHash r.table item) j ∧ x = t) ∨
         (¬ FallsInto c.nBuckets (sboxHash r.table item) j ∧ r.buckets[j]? = some x))) c.rows c'.rows := by
  refine ⟨_, add_eq c hc t item, rfl, ?_⟩
  rw [List.forall₂_map_right_iff]
  apply List.forall₂_same.2
  intro r hr
  refine ⟨rfl, fun j x => ?_⟩
  have hl := level_iff hc.1 r item j
  rw [← hl]
  simp only [HashRow.hit, List.getElem?_set]
  by_cases hj : r.level c.nBuckets item = j
  · subst hj
    by_cases hlt : r.level c.nBuckets item < r.buckets.length
    · simp [hlt, eq_comm]
    · simp [hlt]
  · simp only [hj, if_false, false_and, not_false_eq_true, true_and, false_or]
    exact ⟨fun h => ⟨⟨_, h⟩, h⟩, fun h => h.2⟩

omit [Power] in
/-- C42: a reporter never fails on a message, however many it has seen before. -/
theorem C42_reporter (name pre : Str) (tables : Nat → Nat → Nat) (h : List (ℚ × Str)) (now : ℚ) (item : Str) (rest : List Str) :
    ∃ c, feed (DistinctReporter.init name pre tables).counter h = .ok c ∧
      (DistinctReporter.process { DistinctReporter.init name pre tables with counter := c } now (item :: rest)).2.2 = none := by
  obtain ⟨c, hc, hw, _, _⟩ := C42_add 32 (by norm_num) ((List.range 32).map tables) h
  refine ⟨c, hc, ?_⟩
  simp [DistinctReporter.process, DistinctReporter.update, add_eq c hw]

/-! ## C43 -/

/-- C43 (what holds instead of "an empty window counts 0"): a window without any sighting is always estimated as 1. -/
theorem C43_empty_window_partial [PowerLaws] (n : Nat) (hn : 0 < n) (tables : List (Nat → Nat)) (hne : tables ≠ []) (since : ℚ)
    (hs : 0 ≤ since) (h : List (ℚ × Str)) (ho : Ordered h) (hempty : ∀ e ∈ h, e.1 ≤ since) :
    ∃ c, feed (.init n tables) h = .ok c ∧ c.distinct since = .ok 1 := by
  obtain ⟨c, runs, hc, hr, hd⟩ := C40_value n hn tables hne since hs h ho
  refine ⟨c, hc, ?_⟩
  have hz : runs.sum = 0 := by
    clear hd hne hc
    induction hr with
    | nil => rfl
    | @cons t r ts rs h1 _ ih =>
      rw [List.sum_cons, ih]
      by_contra h0
      obtain ⟨item, ⟨t', h2, h3⟩, _⟩ := h1.2.1 0 (by omega)
      exact absurd (hempty _ h3) (not_le.2 h2)
  rw [hd, hz]
  simp only [Nat.cast_zero, zero_div, PowerLaws.pow2_zero]
  have : truncQ (1 / (77351 / 100000)) = 1 := by decide +kernel
  rw [this]

end

/-- Powers of two at the next lower integer (for examples). -/
@[reducible] def exPower : Power := ⟨fun v => 2 ^ ⌊v⌋.toNat⟩

section
attribute [local instance] exPower

instance : PowerLaws where
  pow2_zero := by decide +kernel
  pow2_mono a b h := by
    show (2:ℚ) ^ ⌊a⌋.toNat ≤ 2 ^ ⌊b⌋.toNat
    apply pow_le_pow_right₀ (by norm_num)
    exact Int.toNat_le_toNat (Int.floor_le_floor h)

/-- C43 is false: a counter that never saw anything reports 1 distinct item. -/
theorem C43_refuted : ¬ ∀ (since : ℚ) (c : DistinctCounter), feed (.init 32 [fun b => b]) [] = .ok c →
    c.distinct since = .ok 0 := by
  intro h
  have := h 0 _ rfl
  revert this
  decide +kernel

/-- A small counter with three sightings, two of them in the window. -/
example : (0 : Nat) < 4 ∧ (0:ℚ) ≤ 5 ∧ Ordered [(1, c!"a"), (6, c!"b"), (7, c!"a")] ∧
    within 5 [(1, c!"a"), (6, c!"b"), (7, c!"a")] = [(6, c!"b"), (7, c!"a")] ∧
    ((feed (.init 4 [fun b => b, fun b => b + 1]) [(1, c!"a"), (6, c!"b"), (7, c!"a")]).toOption.bind
      fun c => (c.distinct 5).toOption) = some 5 := by
  refine ⟨by decide, by decide, ?_, by decide +kernel, by decide +kernel⟩
  unfold Ordered
  decide +kernel

example : ∀ item, SeenAfter 0 [(1, c!"a"), (2, c!"b"), (3, c!"a")] item ↔ SeenAfter 0 [(1, c!"b"), (2, c!"a")] item := by
  intro item
  simp [SeenAfter]
  constructor
  · rintro ⟨t, ht, ⟨rfl, rfl⟩ | ⟨rfl, rfl⟩ | ⟨rfl, rfl⟩⟩
    · exact ⟨2, by norm_num, by simp⟩
    · exact ⟨1, by norm_num, by simp⟩
    · exact ⟨2, by norm_num, by simp⟩
  · rintro ⟨t, ht, ⟨rfl, rfl⟩ | ⟨rfl, rfl⟩⟩
    · exact ⟨2, by norm_num, by simp⟩
    · exact ⟨1, by norm_num, by simp⟩

example : zeros 40 = 3 ∧ zeros 0 = 0 ∧ zeros 7 = 0 := by decide +kernel

example : (DistinctReporter.init c!"users" c!"stats.pdistinct" fun _ b => b).counter.rows ≠ [] ∧
    (86400:ℚ) ≤ 100000 := ⟨by simp [DistinctReporter.init, DistinctCounter.init], by norm_num⟩

example : ∀ e ∈ ([(1, c!"a"), (2, c!"b")] : List (ℚ × Str)), e.1 ≤ 2 := by decide +kernel

example : WellSized (.init 4 [fun b => b]) := wellSized_init (by norm_num) _

end
end Txstatsd
