import Verif.Spec.Distinct
import Mathlib.Data.List.Induction
import Mathlib.Tactic.Linarith
import Mathlib.Tactic.GCongr
import Mathlib.Algebra.Order.Field.Basic
import Mathlib.Data.Rat.Floor
import Mathlib.Tactic.NormNum

set_option linter.unusedSectionVars false
set_option linter.unusedSimpArgs false
set_option linter.unusedVariables false

namespace Txstatsd
open Spec

theorem sboxHash_lt (table : Nat → Nat) (s : Str) : sboxHash table s < 2 ^ 32 := by
  unfold sboxHash
  induction s using List.reverseRecOn with
  | nil => simp
  | append_singleton s c ih =>
    rw [List.foldl_append]
    simp only [List.foldl_cons, List.foldl_nil]
    have := Nat.and_le_right (n := (s.foldl (fun value c => ((value ^^^ table c.toNat) * 3) &&& 0xFFFFFFFF) 0
      ^^^ table c.toNat) * 3) (m := 0xFFFFFFFF)
    omega

theorem zeros_spec (n : Nat) : TrailingZeros n (zeros n) := by
  induction n using Nat.strongRecOn with
  | _ n ih =>
    rw [zeros]
    by_cases h0 : n = 0
    · simp [h0, TrailingZeros]
    · by_cases h1 : n % 2 = 1
      · rw [if_neg h0, if_pos h1]
        right
        refine ⟨h0, by simp, ?_⟩
        simp only [zero_add, pow_one]
        omega
      · rw [if_neg h0, if_neg h1]
        have hd : n = 2 * (n / 2) := by omega
        rcases ih (n / 2) (by omega) with h | ⟨h2, h3, h4⟩
        · omega
        · right
          refine ⟨h0, ?_, ?_⟩
          · rw [hd, pow_succ, mul_comm]
            have : 2 * (n / 2) / 2 = n / 2 := by omega
            rw [this]
            exact Nat.mul_dvd_mul_left 2 h3
          · intro hc
            apply h4
            rw [hd, pow_succ, mul_comm] at hc
            have : 2 * (n / 2) / 2 = n / 2 := by omega
            rw [this] at hc
            exact Nat.dvd_of_mul_dvd_mul_left (by omega) hc

theorem trailingZeros_unique {n k l : Nat} (h : TrailingZeros n k) (h' : TrailingZeros n l) : k = l := by
  rcases h with ⟨h0, h1⟩ | ⟨h0, h1, h2⟩ <;> rcases h' with ⟨g0, g1⟩ | ⟨g0, g1, g2⟩
  · omega
  · omega
  · omega
  · by_contra hne
    rcases Nat.lt_or_gt_of_ne hne with hl | hl
    · exact h2 (dvd_trans (pow_dvd_pow 2 hl) g1)
    · exact g2 (dvd_trans (pow_dvd_pow 2 hl) h1)

theorem level_iff {n : Nat} (hn : 0 < n) (r : HashRow) (item : Str) (j : Nat) :
    r.level n item = j ↔ FallsInto n (sboxHash r.table item) j := by
  unfold HashRow.level FallsInto
  constructor
  · intro h
    refine ⟨_, zeros_spec _, ?_⟩
    omega
  · rintro ⟨k, hk, h⟩
    rw [trailingZeros_unique (zeros_spec _) hk]
    omega

/-- Setting one bucket. -/
def HashRow.hit (n : Nat) (r : HashRow) (e : ℚ × Str) : HashRow :=
  { r with buckets := r.buckets.set (r.level n e.2) e.1 }

theorem HashRow.add_eq {n : Nat} (hn : 0 < n) (r : HashRow) (hr : r.buckets.length = n) (t : ℚ) (item : Str) :
    r.add n t item = .ok (r.hit n (t, item)) := by
  unfold HashRow.add HashRow.hit
  have : r.level n item < r.buckets.length := by rw [hr]; unfold HashRow.level; omega
  simp [this]

theorem addRows_eq {n : Nat} (hn : 0 < n) (t : ℚ) (item : Str) (rs : List HashRow)
    (hr : ∀ r ∈ rs, r.buckets.length = n) :
    addRows n t item rs = .ok (rs.map fun r => r.hit n (t, item)) := by
  induction rs with
  | nil => rfl
  | cons r rs ih =>
    rw [addRows, HashRow.add_eq hn r (hr r (by simp))]
    simp only
    rw [ih fun r h => hr r (by simp [h])]
    rfl

theorem add_eq (c : DistinctCounter) (hc : WellSized c) (t : ℚ) (item : Str) :
    c.add t item = .ok { c with rows := c.rows.map fun r => r.hit c.nBuckets (t, item) } := by
  unfold DistinctCounter.add
  rw [addRows_eq hc.1 t item c.rows hc.2]

theorem wellSized_hit (c : DistinctCounter) (hc : WellSized c) (e : ℚ × Str) :
    WellSized { c with rows := c.rows.map fun r => r.hit c.nBuckets e } := by
  refine ⟨hc.1, ?_⟩
  intro r hr
  simp only [List.mem_map] at hr
  obtain ⟨r0, h0, rfl⟩ := hr
  simp [HashRow.hit, hc.2 r0 h0]

/-- All sightings on one row. -/
def HashRow.after (n : Nat) (r : HashRow) (h : List (ℚ × Str)) : HashRow := h.foldl (HashRow.hit n) r

theorem feed_eq (h : List (ℚ × Str)) (c : DistinctCounter) (hc : WellSized c) :
    feed c h = .ok { c with rows := c.rows.map fun r => r.after c.nBuckets h } := by
  induction h generalizing c with
  | nil => simp [feed, HashRow.after]
  | cons e h ih =>
    rw [feed, add_eq c hc]
    simp only
    rw [ih _ (wellSized_hit c hc e)]
    simp [HashRow.after, Function.comp_def]

theorem wellSized_init {n : Nat} (hn : 0 < n) (ts : List (Nat → Nat)) : WellSized (.init n ts) := by
  refine ⟨hn, ?_⟩
  intro r hr
  simp only [DistinctCounter.init, List.mem_map] at hr
  obtain ⟨t, _, rfl⟩ := hr
  simp [DistinctCounter.init]

theorem feed_init {n : Nat} (hn : 0 < n) (ts : List (Nat → Nat)) (h : List (ℚ × Str)) :
    feed (.init n ts) h = .ok { nBuckets := n, rows := ts.map (fun t =>
      HashRow.after n { table := t, buckets := List.replicate n 0 } h) } := by
  rw [feed_eq h _ (wellSized_init hn ts)]
  simp [DistinctCounter.init, Function.comp_def]

theorem after_table (n : Nat) (r : HashRow) (h : List (ℚ × Str)) : (r.after n h).table = r.table := by
  unfold HashRow.after
  induction h generalizing r with
  | nil => rfl
  | cons e h ih => rw [List.foldl_cons, ih]; rfl

theorem after_length (n : Nat) (r : HashRow) (h : List (ℚ × Str)) :
    (r.after n h).buckets.length = r.buckets.length := by
  unfold HashRow.after
  induction h generalizing r with
  | nil => rfl
  | cons e h ih => rw [List.foldl_cons, ih]; simp [HashRow.hit]

theorem level_table (n : Nat) (r r' : HashRow) (h : r.table = r'.table) (item : Str) :
    r.level n item = r'.level n item := by simp [HashRow.level, h]

/-- Which buckets are inside the window after an ordered history. -/
theorem bucket_iff {n : Nat} (hn : 0 < n) (t : Nat → Nat) (since : ℚ) (hs : 0 ≤ since)
    (h : List (ℚ × Str)) (ho : Ordered h) (j : Nat) :
    since < ((HashRow.after n { table := t, buckets := List.replicate n 0 } h).buckets.getD j 0) ↔
      j < n ∧ Hit n t since h j := by
  induction h using List.reverseRecOn with
  | nil =>
    have : (List.replicate n (0:ℚ)).getD j 0 = 0 := by
      simp only [List.getD_eq_getElem?_getD, List.getElem?_replicate]
      split <;> rfl
    simp only [HashRow.after, List.foldl_nil, this]
    constructor
    · intro h; exact absurd h (not_lt.mpr hs)
    · rintro ⟨_, item, ⟨_, _, h⟩, _⟩; simp at h
  | append_singleton h e ih =>
    have ho' : Ordered h := (List.pairwise_append.1 ho).1
    have hle : ∀ a ∈ h, a.1 ≤ e.1 := fun a ha => (List.pairwise_append.1 ho).2.2 a ha e (by simp)
    have ih := ih ho'
    have hstep : HashRow.after n { table := t, buckets := List.replicate n 0 } (h ++ [e]) =
        (HashRow.after n { table := t, buckets := List.replicate n 0 } h).hit n e := by
      simp [HashRow.after]
    rw [hstep]
    set r := HashRow.after n { table := t, buckets := List.replicate n 0 } h with hrdef
    have hlen : r.buckets.length = n := by rw [hrdef, after_length]; simp
    have htab : r.table = t := by rw [hrdef, after_table]
    have hfall := level_iff hn r e.2 j
    rw [htab] at hfall
    have hlt : r.level n e.2 < n := by unfold HashRow.level; omega
    by_cases hj : r.level n e.2 = j
    · have hv : (r.hit n e).buckets.getD j 0 = e.1 := by
        subst hj
        simp [HashRow.hit, List.getD_eq_getElem?_getD, List.getElem?_set, hlen, hlt]
      rw [hv]
      constructor
      · intro hlt'
        exact ⟨by omega, e.2, ⟨e.1, hlt', by simp⟩, hfall.1 hj⟩
      · rintro ⟨_, item, ⟨t', ht', hm⟩, _⟩
        rcases List.mem_append.1 hm with hm | hm
        · exact lt_of_lt_of_le ht' (hle _ hm)
        · simp at hm; rw [← hm]; exact ht'
    · have hv : (r.hit n e).buckets.getD j 0 = r.buckets.getD j 0 := by
        simp [HashRow.hit, List.getD_eq_getElem?_getD, List.getElem?_set, hj]
      rw [hv, ih]
      constructor
      · rintro ⟨h1, item, ⟨t', ht', hm⟩, hf⟩
        exact ⟨h1, item, ⟨t', ht', List.mem_append_left _ hm⟩, hf⟩
      · rintro ⟨h1, item, ⟨t', ht', hm⟩, hf⟩
        rcases List.mem_append.1 hm with hm | hm
        · exact ⟨h1, item, ⟨t', ht', hm⟩, hf⟩
        · simp at hm
          exfalso
          apply hj
          rw [hfall, ← hm]
          exact hf

theorem takeWhile_run (p : ℚ → Bool) (l : List ℚ) (d : ℚ) :
    (∀ j < (l.takeWhile p).length, p (l.getD j d) = true) ∧
    ((l.takeWhile p).length < l.length → p (l.getD (l.takeWhile p).length d) = false) := by
  induction l with
  | nil => simp
  | cons a l ih =>
    by_cases ha : p a = true
    · rw [List.takeWhile_cons_of_pos ha]
      refine ⟨?_, ?_⟩
      · intro j hj
        cases j with
        | zero => simpa using ha
        | succ j => simpa using ih.1 j (by simpa using hj)
      · intro h
        simpa using ih.2 (by simpa using h)
    · rw [List.takeWhile_cons_of_neg ha]
      simp at ha
      simp [ha]

theorem least0_le_length (since : ℚ) (r : HashRow) : r.least0 since ≤ r.buckets.length :=
  List.Sublist.length_le (List.takeWhile_sublist _)

theorem least0_run (since : ℚ) (r : HashRow) :
    (∀ j < r.least0 since, since < r.buckets.getD j 0) ∧
    (r.least0 since < r.buckets.length → ¬ since < r.buckets.getD (r.least0 since) 0) := by
  have h := takeWhile_run (fun t => !(decide (t ≤ since))) r.buckets 0
  unfold HashRow.least0
  refine ⟨fun j hj => ?_, fun hl => ?_⟩
  · have := h.1 j hj
    simpa using this
  · have := h.2 hl
    simpa using this

theorem least0_mono {since since' : ℚ} {r r' : HashRow} (hl : r.buckets.length = r'.buckets.length)
    (h : ∀ j < r.buckets.length, since < r.buckets.getD j 0 → since' < r'.buckets.getD j 0) :
    r.least0 since ≤ r'.least0 since' := by
  by_contra hc
  push Not at hc
  have h1 := (least0_run since r).1 _ hc
  have hlen := least0_le_length since r
  have h2 := (least0_run since' r').2 (by omega)
  exact h2 (h _ (by omega) h1)

theorem least0_isRun {n : Nat} (hn : 0 < n) (t : Nat → Nat) (since : ℚ) (hs : 0 ≤ since)
    (h : List (ℚ × Str)) (ho : Ordered h) :
    IsRun n t since h ((HashRow.after n { table := t, buckets := List.replicate n 0 } h).least0 since) := by
  have hlen : (HashRow.after n { table := t, buckets := List.replicate n 0 } h).buckets.length = n := by
    rw [after_length]; simp
  have hr := least0_run since (HashRow.after n { table := t, buckets := List.replicate n 0 } h)
  refine ⟨?_, ?_, ?_⟩
  · have := least0_le_length since (HashRow.after n { table := t, buckets := List.replicate n 0 } h)
    omega
  · intro j hj
    exact ((bucket_iff hn t since hs h ho j).1 (hr.1 j hj)).2
  · intro hl hh
    exact hr.2 (by omega) ((bucket_iff hn t since hs h ho _).2 ⟨hl, hh⟩)

theorem isRun_le {n : Nat} {t : Nat → Nat} {since since' : ℚ} {h h' : List (ℚ × Str)} {r r' : Nat}
    (hr : IsRun n t since h r) (hr' : IsRun n t since' h' r')
    (hsub : ∀ item, SeenAfter since h item → SeenAfter since' h' item) : r ≤ r' := by
  by_contra hc
  push Not at hc
  obtain ⟨item, h1, h2⟩ := hr.2.1 r' hc
  exact hr'.2.2 (by have := hr.1; omega) ⟨item, hsub item h1, h2⟩

variable [Power]

omit [Power] in
theorem truncQ_mono {a b : ℚ} (h : a ≤ b) : truncQ a ≤ truncQ b := by
  unfold truncQ
  split
  · rename_i ha
    rw [if_pos (le_trans ha h)]
    exact Int.floor_le_floor h
  · rename_i ha
    split
    · rename_i hb
      have h1 : (0:ℤ) ≤ ⌊b⌋ := Int.floor_nonneg.2 hb
      have h2 : (0:ℤ) ≤ ⌊-a⌋ := Int.floor_nonneg.2 (by linarith)
      linarith
    · have := Int.floor_le_floor (neg_le_neg h)
      linarith

theorem estimate_mono [PowerLaws] {a b : ℚ} (h : a ≤ b) : estimate a ≤ estimate b := by
  unfold estimate
  apply truncQ_mono
  have := PowerLaws.pow2_mono a b h
  gcongr

omit [Power] in
theorem sum_map_le {α : Type} (l : List α) (f g : α → Nat) (h : ∀ x ∈ l, f x ≤ g x) :
    (l.map f).sum ≤ (l.map g).sum := by
  induction l with
  | nil => simp
  | cons x l ih =>
    have h1 := h x (by simp)
    have h2 := ih fun y hy => h y (by simp [hy])
    simp only [List.map_cons, List.sum_cons]
    omega

theorem distinct_since_mono [PowerLaws] (c : DistinctCounter) {a b : ℚ} (hab : a ≤ b) (x y : ℤ)
    (hx : c.distinct a = .ok x) (hy : c.distinct b = .ok y) : y ≤ x := by
  unfold DistinctCounter.distinct at hx hy
  split at hx
  · cases hx
  · rename_i h0
    rw [if_neg h0] at hy
    cases hx; cases hy
    apply estimate_mono
    have := sum_map_le c.rows (HashRow.least0 b) (HashRow.least0 a)
      (fun r _ => least0_mono rfl fun j _ hj => lt_of_le_of_lt hab hj)
    have : (((c.rows.map (HashRow.least0 b)).sum : ℕ) : ℚ) ≤ ((c.rows.map (HashRow.least0 a)).sum : ℕ) := by
      exact_mod_cast this
    gcongr

end Txstatsd
