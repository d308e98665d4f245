import Verif.Spec.Sample
import Mathlib.Data.Nat.Choose.Basic
import Mathlib.Algebra.BigOperators.Group.List.Basic
import Mathlib.Data.Finset.Card
import Mathlib.Algebra.BigOperators.Group.Finset.Basic
import Mathlib.Tactic.Ring
import Mathlib.Tactic.Linarith

set_option linter.unusedSectionVars false
set_option linter.unusedSimpArgs false
set_option linter.unusedVariables false

namespace Txstatsd
namespace UniformSample
variable {α : Type}

theorem runOps_snoc (zero : α) (s : UniformSample α) (ops : List (StreamOp α)) (o : StreamOp α) :
    s.runOps zero (ops ++ [o]) =
      match o with | .update d v => (s.runOps zero ops).update d v | .clear => (s.runOps zero ops).clear zero := by
  unfold runOps; rw [List.foldl_append]; rfl

theorem streamValues_snoc (ops : List (StreamOp α)) (o : StreamOp α) :
    streamValues (ops ++ [o]) = match o with | .update _ v => streamValues ops ++ [v] | .clear => [] := by
  unfold streamValues; rw [List.foldl_append]; rfl

/-- The reservoir holds the stream values at distinct positions. -/
structure Holds (n : Nat) (s : UniformSample α) (vs : List α) (idx : List Nat) : Prop where
  len : s.values.length = n
  cnt : s.count = vs.length
  il : idx.length = min n vs.length
  nd : idx.Nodup
  lt : ∀ i ∈ idx, i < vs.length
  at' : ∀ k, k < idx.length → s.values[k]? = (idx[k]?.bind fun i => vs[i]?)
  early : vs.length ≤ n → idx = List.range vs.length

theorem Holds.init (zero : α) (n : Nat) : Holds n (UniformSample.init zero n) ([] : List α) [] := by
  refine ⟨by simp [UniformSample.init], rfl, by simp, List.nodup_nil, by simp, by simp, by simp⟩

theorem Holds.clear (zero : α) {n : Nat} {s : UniformSample α} {vs idx} (h : Holds n s vs idx) :
    Holds n (s.clear zero) ([] : List α) [] := by
  refine ⟨by simp [UniformSample.clear, h.len], rfl, by simp, List.nodup_nil, by simp, by simp, by simp⟩

theorem nodup_set {l : List Nat} (h : l.Nodup) {r : Nat} {x : Nat} (hx : x ∉ l) : (l.set r x).Nodup := by
  by_cases hr : r < l.length
  · have h1 : (l.take r).Nodup := h.sublist (List.take_sublist _ _)
    have h2 : (l.drop (r+1)).Nodup := h.sublist (List.drop_sublist _ _)
    rw [List.set_eq_take_append_cons_drop, if_pos hr]
    rw [List.nodup_append] 
    refine ⟨h1, ?_, ?_⟩
    · rw [List.nodup_cons]; exact ⟨fun h => hx (List.mem_of_mem_drop h), h2⟩
    · intro a ha b hb
      rcases List.mem_cons.1 hb with rfl | hb
      · rintro rfl; exact hx (List.mem_of_mem_take ha)
      · rintro rfl
        have h3 : l = l.take r ++ l.drop r := (List.take_append_drop _ _).symm
        rw [h3, List.nodup_append] at h
        exact h.2.2 a ha a (List.drop_subset_drop_left l (Nat.le_succ r) hb) rfl
  · rw [List.set_eq_of_length_le (by omega)]; exact h

/-- The new positions after one more value. -/
def nextPositions (n N r : Nat) (idx : List Nat) : List Nat :=
  if N + 1 ≤ n then idx ++ [N] else if r % (N + 1) < n then idx.set (r % (N + 1)) N else idx

theorem Holds.update {n : Nat} {s : UniformSample α} {vs idx} (h : Holds n s vs idx) (d : Nat) (v : α) :
    Holds n (s.update d v) (vs ++ [v]) (nextPositions n vs.length d idx) := by
  unfold UniformSample.update nextPositions
  simp only [h.cnt, h.len]
  have hlast : (vs ++ [v])[vs.length]? = some v := by simp
  have hold : ∀ i, i < vs.length → (vs ++ [v])[i]? = vs[i]? := fun i hi => List.getElem?_append_left hi
  by_cases h1 : vs.length + 1 ≤ n
  · simp only [h1, if_true]
    have hi : idx.length = vs.length := by rw [h.il]; omega
    refine ⟨by simp [h.len], by simp, by simp; omega, ?_, ?_, ?_, ?_⟩
    · rw [List.nodup_append]
      refine ⟨h.nd, by simp, ?_⟩
      intro a ha b hb
      have := h.lt a ha
      simp at hb; omega
    · intro i hi
      simp at hi ⊢
      rcases hi with hi | hi
      · have := h.lt i hi; omega
      · omega
    · intro k hk
      simp at hk
      simp only [Nat.add_sub_cancel]
      rw [List.getElem?_set]
      by_cases hkv : vs.length = k
      · subst hkv
        simp only [if_true, h.len]
        rw [if_pos (by omega), List.getElem?_append_right (by omega), hi]
        simp
      · rw [if_neg hkv, h.at' k (by omega), List.getElem?_append_left (by omega)]
        cases hk' : idx[k]? with
        | none => rfl
        | some i =>
          simp only [Option.bind_some]
          exact (hold i (h.lt i (List.mem_of_getElem? hk'))).symm
    · intro _
      rw [h.early (by omega)]
      simp [List.range_succ]
  · simp only [h1, if_false]
    have hi : idx.length = n := by rw [h.il]; omega
    by_cases h2 : d % (vs.length + 1) < n
    · simp only [h2, if_true]
      have hni : vs.length ∉ idx := fun hm => by have := h.lt _ hm; omega
      refine ⟨by simp [h.len], by simp, by simp [hi]; omega, nodup_set h.nd hni, ?_, ?_, ?_⟩
      · intro i hi
        simp
        rcases List.mem_or_eq_of_mem_set hi with hm | rfl
        · have := h.lt _ hm; omega
        · omega
      · intro k hk
        simp only [List.length_set] at hk
        rw [List.getElem?_set, List.getElem?_set]
        by_cases hkv : d % (vs.length + 1) = k
        · simp only [hkv, if_true, h.len, hi]
          rw [if_pos (by omega), if_pos (by omega)]
          simp
        · rw [if_neg hkv, if_neg hkv, h.at' k hk]
          cases hk' : idx[k]? with
          | none => rfl
          | some i =>
            simp only [Option.bind_some]
            exact (hold i (h.lt i (List.mem_of_getElem? hk'))).symm
      · intro hle; simp at hle; omega
    · simp only [h2, if_false]
      refine ⟨h.len, by simp, by simp [hi]; omega, h.nd, ?_, ?_, ?_⟩
      · intro i hi; have := h.lt i hi; simp; omega
      · intro k hk
        rw [h.at' k hk]
        cases hk' : idx[k]? with
        | none => rfl
        | some i =>
          simp only [Option.bind_some]
          exact (hold i (h.lt i (List.mem_of_getElem? hk'))).symm
      · intro hle; simp at hle; omega

theorem holds_runOps (zero : α) (n : Nat) (ops : List (StreamOp α)) :
    ∃ idx, Holds n ((UniformSample.init zero n).runOps zero ops) (streamValues ops) idx := by
  induction ops using List.reverseRecOn with
  | nil => exact ⟨[], Holds.init zero n⟩
  | append_singleton os o ih =>
    obtain ⟨idx, h⟩ := ih
    rw [runOps_snoc, streamValues_snoc]
    cases o with
    | update d v => exact ⟨_, h.update d v⟩
    | clear => exact ⟨_, h.clear zero⟩

theorem Holds.getValues {n : Nat} {s : UniformSample α} {vs idx} (h : Holds n s vs idx) :
    List.Forall₂ (fun i v => vs[i]? = some v) idx s.getValues := by
  have hsz : s.size = idx.length := by
    unfold UniformSample.size; rw [h.cnt, h.len, h.il]; split_ifs <;> omega
  have hlen : s.getValues.length = idx.length := by
    unfold UniformSample.getValues; rw [List.length_take, hsz, h.len, h.il]; omega
  rw [List.forall₂_iff_get]
  refine ⟨hlen.symm, ?_⟩
  intro i h1 h2
  have h3 := h.at' i h1
  have h4 : s.getValues[i]? = s.values[i]? := by
    unfold UniformSample.getValues; rw [List.getElem?_take, hsz, if_pos h1]
  rw [h3] at h4
  simp only [List.get_eq_getElem]
  rw [List.getElem?_eq_getElem h2, List.getElem?_eq_getElem h1] at h4
  simpa using h4.symm

/-! ## Uniformity -/

theorem forall₂_range {N : Nat} {idx vs : List Nat} (h : List.Forall₂ (fun i v => (List.range N)[i]? = some v) idx vs) :
    vs = idx := by
  induction h with
  | nil => rfl
  | cons h1 _ ih =>
    obtain ⟨_, h2⟩ := List.getElem?_eq_some_iff.1 h1
    rw [List.getElem_range] at h2
    rw [ih, h2]

def posOps (ds : List Nat) : List (StreamOp Nat) := ds.zipIdx.map fun p => StreamOp.update p.1 p.2

theorem posOps_snoc (ds : List Nat) (r : Nat) : posOps (ds ++ [r]) = posOps ds ++ [.update r ds.length] := by
  simp [posOps, List.zipIdx_append]

theorem kept_holds (n : Nat) (ds : List Nat) :
    Holds n ((UniformSample.init 0 n).runOps 0 (posOps ds)) (List.range ds.length) (keptPositions n ds) := by
  induction ds using List.reverseRecOn with
  | nil => exact Holds.init 0 n
  | append_singleton ds r ih =>
    have h := ih.update r ds.length
    have e : (UniformSample.init 0 n).runOps 0 (posOps (ds ++ [r])) =
        ((UniformSample.init 0 n).runOps 0 (posOps ds)).update r ds.length := by
      rw [posOps_snoc, runOps_snoc]
    rw [← e, List.length_range, show List.range ds.length ++ [ds.length] = List.range (ds ++ [r]).length by
      simp [List.range_succ]] at h
    have h2 : keptPositions n (ds ++ [r]) = _ := forall₂_range h.getValues
    rw [h2]; exact h

theorem keptPositions_snoc (n : Nat) (ds : List Nat) (r : Nat) :
    keptPositions n (ds ++ [r]) = nextPositions n ds.length r (keptPositions n ds) := by
  have h := (kept_holds n ds).update r ds.length
  have e : (UniformSample.init 0 n).runOps 0 (posOps (ds ++ [r])) =
      ((UniformSample.init 0 n).runOps 0 (posOps ds)).update r ds.length := by
    rw [posOps_snoc, runOps_snoc]
  rw [← e, List.length_range, show List.range ds.length ++ [ds.length] = List.range (ds ++ [r]).length by
    simp [List.range_succ]] at h
  exact forall₂_range h.getValues

theorem mem_drawSequences {N : Nat} {ds : List Nat} :
    ds ∈ drawSequences N ↔ ds.length = N ∧ ∀ (k r : Nat), ds[k]? = some r → r ≤ k := by
  induction N generalizing ds with
  | zero =>
    simp [drawSequences]
    rintro rfl; simp
  | succ N ih =>
    simp only [drawSequences, List.mem_flatMap, List.mem_map, List.mem_range]
    constructor
    · rintro ⟨es, hes, r, hr, rfl⟩
      obtain ⟨h1, h2⟩ := ih.1 hes
      refine ⟨by simp [h1], ?_⟩
      intro k r' hk
      by_cases hkl : k < es.length
      · rw [List.getElem?_append_left hkl] at hk; exact h2 k r' hk
      · have : k < (es ++ [r]).length := (List.getElem?_eq_some_iff.1 hk).1
        simp at this
        have : k = es.length := by omega
        subst this
        simp at hk; omega
    · rintro ⟨h1, h2⟩
      rcases List.eq_nil_or_concat ds with rfl | ⟨es, r, rfl⟩
      · simp at h1
      · simp only [List.concat_eq_append] at *
        simp at h1
        refine ⟨es, ih.2 ⟨h1, ?_⟩, r, ?_, rfl⟩
        · intro k r' hk
          have hkl := (List.getElem?_eq_some_iff.1 hk).1
          exact h2 k r' (by rw [List.getElem?_append_left hkl]; exact hk)
        · have := h2 es.length r (by simp)
          omega

theorem drawSequences_nodup (N : Nat) : (drawSequences N).Nodup := by
  induction N with
  | zero => simp [drawSequences]
  | succ N ih =>
    simp only [drawSequences]
    rw [List.nodup_flatMap]
    refine ⟨?_, ?_⟩
    · intro ds _
      refine List.Nodup.map ?_ List.nodup_range
      intro a b h; simpa using h
    · refine ih.imp ?_
      intro a b hab
      simp only [Function.onFun, List.disjoint_left, List.mem_map, not_exists, not_and]
      rintro x ⟨r, _, rfl⟩ r' _ h
      have := List.append_inj_left' h rfl
      exact hab this.symm

theorem length_drawSequences (N : Nat) : (drawSequences N).length = N.factorial := by
  induction N with
  | zero => rfl
  | succ N ih =>
    simp only [drawSequences, List.length_flatMap, List.length_map, List.length_range, List.map_const', List.sum_replicate,
      ih, Nat.factorial_succ, nsmul_eq_mul, Nat.cast_id]
    ring

theorem countP_drawSequences (N : Nat) (p : List Nat → Bool) :
    (drawSequences (N + 1)).countP p =
      ((drawSequences N).map fun ds => (List.range (N + 1)).countP fun r => p (ds ++ [r])).sum := by
  simp only [drawSequences, List.countP_flatMap]
  congr 1
  apply List.map_congr_left
  intro ds _
  simp only [Function.comp, List.countP_map]
  rfl

theorem sum_ite_countP {β : Type} (l : List β) (p : β → Bool) (c : Nat) :
    (l.map fun b => if p b then c else 0).sum = l.countP p * c := by
  induction l with
  | nil => simp
  | cons a l ih => by_cases h : p a <;> simp [h, ih, Nat.add_mul, Nat.add_comm]

theorem sum_congr_list {β : Type} {l : List β} {f g : β → Nat} (h : ∀ b ∈ l, f b = g b) :
    (l.map f).sum = (l.map g).sum := by
  rw [List.map_congr_left h]

theorem countP_range_ge (n N : Nat) (h : n ≤ N) : (List.range N).countP (fun r => decide (n ≤ r)) = N - n := by
  induction N with
  | zero => simp
  | succ N ih =>
    rw [List.range_succ, List.countP_append]
    by_cases hn : n ≤ N
    · rw [ih hn]; simp [hn]; omega
    · have : n = N + 1 := by omega
      subst this
      simp
      intro a ha; omega

theorem countP_range_lt (n N : Nat) (h : n ≤ N) : (List.range N).countP (fun r => decide (r < n)) = n := by
  have h1 := List.length_eq_countP_add_countP (fun r => decide (n ≤ r)) (l := List.range N)
  rw [countP_range_ge n N h, List.length_range] at h1
  have h2 : (fun a => decide ¬ (decide (n ≤ a)) = true) = fun r => decide (r < n) := by
    funext a; simp
  have h3 : (List.range N).countP (fun r => decide (r < n)) = (List.range N).countP (fun a => decide ¬ (decide (n ≤ a)) = true) := by
    rw [h2]
  omega


theorem countP_range_getElem (idx : List Nat) (q : Nat → Bool) (M : Nat) (h : idx.length ≤ M) :
    (List.range M).countP (fun r => (idx[r]?.map q).getD false) = idx.countP q := by
  induction idx using List.reverseRecOn generalizing M with
  | nil => simp
  | append_singleton l x ih =>
    have hM : l.length ≤ M := by simp at h; omega
    have h0 := ih l.length le_rfl
    obtain ⟨k, rfl⟩ : ∃ k, M = l.length + 1 + k := ⟨M - (l.length + 1), by simp at h; omega⟩
    rw [List.range_add, List.countP_append, List.range_succ, List.countP_append, List.countP_append]
    have e1 : (List.range l.length).countP (fun r => ((l ++ [x])[r]?.map q).getD false) =
        (List.range l.length).countP (fun r => (l[r]?.map q).getD false) := by
      apply List.countP_congr
      intro r hr
      rw [List.getElem?_append_left (by simpa using hr)]
    rw [e1, h0]
    have e2 : (List.map (fun x => l.length + 1 + x) (List.range k)).countP
        (fun r => ((l ++ [x])[r]?.map q).getD false) = 0 := by
      rw [List.countP_eq_zero]
      intro r hr
      simp at hr
      obtain ⟨j, _, rfl⟩ := hr
      rw [List.getElem?_eq_none (by simp)]
      simp
    rw [e2]
    simp

/-- What is known of the kept positions after `N ≥ n` draws. -/
theorem kept_facts {n N : Nat} {ds : List Nat} (hn : n ≤ N) (hds : ds ∈ drawSequences N) :
    ds.length = N ∧ (keptPositions n ds).length = n ∧ (keptPositions n ds).Nodup ∧ ∀ i ∈ keptPositions n ds, i < N := by
  have h := kept_holds n ds
  have hl := (mem_drawSequences.1 hds).1
  refine ⟨hl, ?_, h.nd, ?_⟩
  · rw [h.il, List.length_range]; omega
  · intro i hi; have := h.lt i hi; rw [List.length_range] at this; omega

theorem kept_next {n N r : Nat} {ds : List Nat} (hn : n ≤ N) (hds : ds ∈ drawSequences N) (hr : r < N + 1) :
    keptPositions n (ds ++ [r]) = if r < n then (keptPositions n ds).set r N else keptPositions n ds := by
  rw [keptPositions_snoc, nextPositions, (mem_drawSequences.1 hds).1, if_neg (by omega), Nat.mod_eq_of_lt hr]

theorem mem_set_self {idx : List Nat} {r x : Nat} (hr : r < idx.length) : x ∈ idx.set r x := by
  rw [List.mem_iff_getElem?]; exact ⟨r, by simp [hr]⟩

theorem mem_set_nodup {idx : List Nat} (h : idx.Nodup) {r x i : Nat} (hr : r < idx.length) (hi : i ≠ x) :
    i ∈ idx.set r x ↔ i ∈ idx ∧ idx[r]? ≠ some i := by
  constructor
  · intro hm
    rw [List.mem_iff_getElem?] at hm
    obtain ⟨k, hk⟩ := hm
    rw [List.getElem?_set] at hk
    split_ifs at hk with h1 h2
    · exact absurd (Option.some.inj hk).symm hi
    · refine ⟨List.mem_of_getElem? hk, ?_⟩
      intro hc
      obtain ⟨k1, e1⟩ := List.getElem?_eq_some_iff.1 hk
      obtain ⟨k2, e2⟩ := List.getElem?_eq_some_iff.1 hc
      exact h1 (h.getElem_inj_iff.1 (e2.trans e1.symm))
  · rintro ⟨hm, hne⟩
    rw [List.mem_iff_getElem?] at hm ⊢
    obtain ⟨k, hk⟩ := hm
    refine ⟨k, ?_⟩
    rw [List.getElem?_set, if_neg]
    · exact hk
    · rintro rfl; exact hne hk

theorem marginal (n N i : Nat) (hn : n ≤ N) (hi : i < N) :
    (drawSequences N).countP (fun ds => decide (i ∈ keptPositions n ds)) * N = n * N.factorial := by
  induction N, hn using Nat.le_induction generalizing i with
  | base =>
    have : (drawSequences n).countP (fun ds => decide (i ∈ keptPositions n ds)) = (drawSequences n).length := by
      rw [List.countP_eq_length]
      intro ds hds
      have h := kept_holds n ds
      have hl := (mem_drawSequences.1 hds).1
      rw [h.early (by simp [hl])]
      simp [hl, hi]
    rw [this, length_drawSequences, Nat.mul_comm]
  | succ N hn ih =>
    rw [countP_drawSequences]
    by_cases hiN : i = N
    · subst hiN
      have e : ∀ ds ∈ drawSequences i, ((List.range (i + 1)).countP fun r => decide (i ∈ keptPositions n (ds ++ [r]))) = n := by
        intro ds hds
        obtain ⟨h1, h2, h3, h4⟩ := kept_facts hn hds
        conv_rhs => rw [← countP_range_lt n (i + 1) (by omega)]
        apply List.countP_congr
        intro r hr
        rw [kept_next hn hds (by simpa using hr)]
        simp only [decide_eq_true_eq]
        split_ifs with hrn
        · simp only [hrn, iff_true]
          exact mem_set_self (by omega)
        · simp only [hrn, iff_false]
          intro hm; have := h4 i hm; omega
      rw [sum_congr_list e, List.map_const', List.sum_replicate, length_drawSequences, nsmul_eq_mul, Nat.cast_id,
        Nat.factorial_succ]
      ring
    · have hiN' : i < N := by omega
      have e : ∀ ds ∈ drawSequences N, ((List.range (N + 1)).countP fun r => decide (i ∈ keptPositions n (ds ++ [r]))) =
          if decide (i ∈ keptPositions n ds) then N else 0 := by
        intro ds hds
        obtain ⟨h1, h2, h3, h4⟩ := kept_facts hn hds
        have e1 : ∀ r ∈ List.range (N + 1), decide (i ∈ keptPositions n (ds ++ [r])) = true ↔
            (decide (i ∈ keptPositions n ds) && !(((keptPositions n ds)[r]?.map (· == i)).getD false)) = true := by
          intro r hr
          rw [kept_next hn hds (by simpa using hr)]
          split_ifs with hrn
          · have hrl : r < (keptPositions n ds).length := by omega
            rw [decide_eq_true_eq, mem_set_nodup h3 hrl hiN]
            simp only [List.getElem?_eq_getElem hrl, Option.map_some, Option.getD_some, Bool.and_eq_true, decide_eq_true_eq,
              Bool.not_eq_true', beq_eq_false_iff_ne, ne_eq, Option.some.injEq]
          · rw [List.getElem?_eq_none (by omega)]; simp
        rw [List.countP_congr e1]
        by_cases hm : i ∈ keptPositions n ds
        · simp only [hm, decide_true, Bool.true_and, if_true]
          have h5 := List.length_eq_countP_add_countP (fun r => ((keptPositions n ds)[r]?.map (· == i)).getD false) (l := List.range (N + 1))
          rw [countP_range_getElem _ _ _ (by omega), List.length_range] at h5
          have h6 : (keptPositions n ds).countP (· == i) = 1 := by
            have := List.count_eq_one_of_mem h3 hm
            exact this
          rw [h6] at h5
          have h7 : (List.range (N+1)).countP (fun r => !(((keptPositions n ds)[r]?.map (· == i)).getD false)) =
            (List.range (N+1)).countP (fun r => decide ¬ (((keptPositions n ds)[r]?.map (· == i)).getD false) = true) := by
            apply List.countP_congr; intro r _; simp
          omega
        · simp [hm]
      rw [sum_congr_list e, sum_ite_countP, ih i hiN', Nat.factorial_succ]
      ring

theorem toFinset_set {idx : List Nat} (h : idx.Nodup) {r x : Nat} (hr : r < idx.length) (hx : x ∉ idx) :
    (idx.set r x).toFinset = insert x (idx.toFinset.erase idx[r]) := by
  ext i
  simp only [List.mem_toFinset, Finset.mem_insert, Finset.mem_erase]
  by_cases hi : i = x
  · subst hi; simp [mem_set_self hr]
  · rw [mem_set_nodup h hr hi, List.getElem?_eq_getElem hr]
    simp only [hi, false_or, ne_eq, Option.some.injEq]
    constructor
    · rintro ⟨a, b⟩; exact ⟨fun e => b e.symm, a⟩
    · rintro ⟨a, b⟩; exact ⟨b, fun e => a e.symm⟩

theorem subset_count (n N : Nat) (S : Finset Nat) (hn : n ≤ N) (hS : S ⊆ Finset.range N) (hc : S.card = n) :
    (drawSequences N).countP (fun ds => decide ((keptPositions n ds).toFinset = S)) = n.factorial * (N - n).factorial := by
  induction N, hn using Nat.le_induction generalizing S with
  | base =>
    have hS' : S = Finset.range n := Finset.eq_of_subset_of_card_le hS (by simp [hc])
    have : (drawSequences n).countP (fun ds => decide ((keptPositions n ds).toFinset = S)) = (drawSequences n).length := by
      rw [List.countP_eq_length]
      intro ds hds
      have h := kept_holds n ds
      have hl := (mem_drawSequences.1 hds).1
      rw [h.early (by simp [hl]), hS']
      simp only [List.length_range, hl, decide_eq_true_eq]
      ext; simp
    rw [this, length_drawSequences]; simp
  | succ N hn ih =>
    rw [countP_drawSequences]
    have hfac : (N + 1 - n).factorial = (N + 1 - n) * (N - n).factorial := by
      rw [Nat.succ_sub hn, Nat.factorial_succ]
    by_cases hN : N ∈ S
    · have hTN : N ∉ S.erase N := Finset.notMem_erase N S
      have hTc : (S.erase N).card + 1 = n := by rw [Finset.card_erase_add_one hN, hc]
      have hTS : S.erase N ⊆ Finset.range N := by
        intro x hx
        have h1 := hS (Finset.mem_of_mem_erase hx)
        have h2 := Finset.ne_of_mem_erase hx
        simp at h1 ⊢; omega
      have hins : insert N (S.erase N) = S := Finset.insert_erase hN
      generalize hT : S.erase N = T at *
      have e : ∀ ds ∈ drawSequences N,
          ((List.range (N + 1)).countP fun r => decide ((keptPositions n (ds ++ [r])).toFinset = S)) =
          ∑ x ∈ Finset.range N \ T, if decide ((keptPositions n ds).toFinset = insert x T) then 1 else 0 := by
        intro ds hds
        obtain ⟨h1, h2, h3, h4⟩ := kept_facts hn hds
        have hNk : N ∉ keptPositions n ds := fun hm => by have := h4 _ hm; omega
        have hkc : (keptPositions n ds).toFinset.card = n := by rw [List.toFinset_card_of_nodup h3, h2]
        have hkN : (keptPositions n ds).toFinset ⊆ Finset.range N := by
          intro x hx; simp at hx ⊢; exact h4 x hx
        have e1 : ∀ r ∈ List.range (N + 1), decide ((keptPositions n (ds ++ [r])).toFinset = S) = true ↔
            (((keptPositions n ds)[r]?.map fun y => decide (T ⊆ (keptPositions n ds).toFinset ∧ y ∉ T)).getD false) = true := by
          intro r hr
          rw [kept_next hn hds (by simpa using hr)]
          split_ifs with hrn
          · have hrl : r < (keptPositions n ds).length := by omega
            rw [decide_eq_true_eq, toFinset_set h3 hrl hNk, ← hins, List.getElem?_eq_getElem hrl]
            simp only [Option.map_some, Option.getD_some, decide_eq_true_eq]
            have hmem : (keptPositions n ds)[r] ∈ (keptPositions n ds).toFinset := by simp
            constructor
            · intro heq
              have : (keptPositions n ds).toFinset.erase (keptPositions n ds)[r] = T := by
                ext y
                by_cases hy : y = N
                · subst hy; simp [hNk, hTN]
                · have := congrArg (fun s => y ∈ s) heq
                  simp only [Finset.mem_insert, hy, false_or] at this
                  rw [this]
              rw [← this]
              exact ⟨Finset.erase_subset _ _, Finset.notMem_erase _ _⟩
            · rintro ⟨hsub, hny⟩
              congr 1
              symm
              apply Finset.eq_of_subset_of_card_le
              · intro y hy
                rw [Finset.mem_erase]
                exact ⟨fun e => hny (e ▸ hy), hsub hy⟩
              · rw [Finset.card_erase_of_mem hmem, hkc]; omega
          · rw [List.getElem?_eq_none (by omega)]
            simp only [Option.map_none, Option.getD_none, Bool.false_eq_true, iff_false, decide_eq_true_eq]
            intro heq
            rw [← heq] at hN
            exact hNk (List.mem_toFinset.1 hN)
        rw [List.countP_congr e1, countP_range_getElem _ _ _ (by omega)]
        by_cases hsub : T ⊆ (keptPositions n ds).toFinset
        · have hd : ((keptPositions n ds).toFinset \ T).card = 1 := by
            rw [Finset.card_sdiff_of_subset hsub, hkc]; omega
          obtain ⟨x0, hx0⟩ := Finset.card_eq_one.1 hd
          have hx0' : ∀ y, y ∈ keptPositions n ds ∧ y ∉ T ↔ y = x0 := by
            intro y
            have := congrArg (fun s => y ∈ s) hx0
            simpa using this
          have hl : (keptPositions n ds).countP (fun y => decide (T ⊆ (keptPositions n ds).toFinset ∧ y ∉ T)) = 1 := by
            have hx0m : x0 ∈ keptPositions n ds := ((hx0' x0).2 rfl).1
            have := List.count_eq_one_of_mem h3 hx0m
            rw [← this, List.count]
            apply List.countP_congr
            intro y hy
            simp only [hsub, true_and, decide_eq_true_eq, beq_iff_eq]
            rw [← hx0' y]; simp [hy]
          rw [hl]
          have hx0R : x0 ∈ Finset.range N \ T := by
            have := (hx0' x0).2 rfl
            simp only [Finset.mem_sdiff, Finset.mem_range]
            exact ⟨h4 _ this.1, this.2⟩
          rw [Finset.sum_eq_single_of_mem x0 hx0R]
          · have : (keptPositions n ds).toFinset = insert x0 T := by
              rw [← Finset.sdiff_union_of_subset hsub, hx0]; rfl
            rw [if_pos (by simpa using this)]
          · intro b hb hbx
            rw [if_neg]
            simp only [decide_eq_true_eq]
            intro heq
            apply hbx
            rw [← hx0' b]
            refine ⟨?_, (Finset.mem_sdiff.1 hb).2⟩
            rw [← List.mem_toFinset, heq]; exact Finset.mem_insert_self _ _
        · rw [Finset.sum_eq_zero]
          · rw [List.countP_eq_zero]
            intro y _; simp [hsub]
          · intro x _
            rw [if_neg]
            simp only [decide_eq_true_eq]
            intro heq
            exact hsub (heq ▸ Finset.subset_insert _ _)
      rw [sum_congr_list e]
      have swap : ∀ (l : List (List Nat)) (R : Finset Nat) (f : List Nat → Nat → Nat),
          (l.map fun ds => ∑ x ∈ R, f ds x).sum = ∑ x ∈ R, (l.map fun ds => f ds x).sum := by
        intro l R f
        induction l with
        | nil => simp
        | cons a l ih => simp [ih, Finset.sum_add_distrib]
      rw [swap]
      have e2 : ∀ x ∈ Finset.range N \ T,
          ((drawSequences N).map fun ds => if decide ((keptPositions n ds).toFinset = insert x T) then 1 else 0).sum =
          n.factorial * (N - n).factorial := by
        intro x hx
        rw [sum_ite_countP, Nat.mul_one]
        rw [Finset.mem_sdiff] at hx
        apply ih
        · intro y hy
          rcases Finset.mem_insert.1 hy with rfl | hy
          · exact hx.1
          · exact hTS hy
        · rw [Finset.card_insert_of_notMem hx.2]; omega
      rw [Finset.sum_congr rfl e2, Finset.sum_const, Finset.card_sdiff_of_subset hTS, Finset.card_range, hfac,
        nsmul_eq_mul, Nat.cast_id]
      have : N - T.card = N + 1 - n := by omega
      rw [this]; ring
    · have hS' : S ⊆ Finset.range N := by
        intro x hx
        have h1 := hS hx
        simp at h1 ⊢
        rcases Nat.lt_or_eq_of_le (Nat.lt_succ_iff.1 h1) with h | h
        · exact h
        · subst h; exact absurd hx hN
      have e : ∀ ds ∈ drawSequences N,
          ((List.range (N + 1)).countP fun r => decide ((keptPositions n (ds ++ [r])).toFinset = S)) =
          if decide ((keptPositions n ds).toFinset = S) then N + 1 - n else 0 := by
        intro ds hds
        obtain ⟨h1, h2, h3, h4⟩ := kept_facts hn hds
        have e1 : ∀ r ∈ List.range (N + 1), decide ((keptPositions n (ds ++ [r])).toFinset = S) = true ↔
            (decide ((keptPositions n ds).toFinset = S) && decide (n ≤ r)) = true := by
          intro r hr
          rw [kept_next hn hds (by simpa using hr)]
          split_ifs with hrn
          · have hm : N ∈ ((keptPositions n ds).set r N).toFinset := by
              rw [List.mem_toFinset]; exact mem_set_self (by omega)
            simp only [decide_eq_true_eq, Bool.and_eq_true]
            constructor
            · intro heq; rw [heq] at hm; exact absurd hm hN
            · rintro ⟨_, hle⟩; omega
          · simp only [decide_eq_true_eq, Bool.and_eq_true]
            constructor
            · intro h; exact ⟨h, by omega⟩
            · exact fun h => h.1
        rw [List.countP_congr e1]
        by_cases hk : (keptPositions n ds).toFinset = S
        · simp only [hk, decide_true, Bool.true_and, if_true]
          exact countP_range_ge n (N + 1) (by omega)
        · simp [hk]
      rw [sum_congr_list e, sum_ite_countP, ih S hS' hc, hfac]
      ring

end UniformSample
end Txstatsd
