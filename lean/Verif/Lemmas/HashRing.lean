import Verif.Spec.HashRing
import Verif.Lemmas.Bisect
import Mathlib.Data.Prod.Lex
import Mathlib.Data.List.Rotate
import Mathlib.Data.List.Nodup
import Mathlib.Data.Nat.ModEq
import Mathlib.Data.List.Perm.Subperm
import Mathlib.Tactic.Linarith

set_option linter.unusedSectionVars false
set_option linter.unusedSimpArgs false
set_option linter.unusedVariables false

namespace Txstatsd
namespace HashRing
variable {N : Type} [LinearOrder N]

/-- The order used by `insort`. -/
def rlt (a b : Nat × N) : Bool := entryLt (full a) (full b)

theorem rlt_eq (a b : Nat × N) : rlt a b = decide (toLex a < toLex b) := by
  unfold rlt entryLt full
  rw [Bool.eq_iff_iff]
  simp only [Bool.or_eq_true, decide_eq_true_eq, Bool.and_eq_true]
  rw [Prod.Lex.toLex_lt_toLex]

theorem noLater_iff (a b : Nat × N) : NoLater a b ↔ toLex a ≤ toLex b := by
  rw [Prod.Lex.toLex_le_toLex]; rfl

theorem addReplicas_spec (H : Hashing N) (node : N) (is : List Nat) (ring : List (Nat × N)) (hs : NoDescent rlt ring) :
    NoDescent rlt (addReplicas H node is ring) ∧
    (addReplicas H node is ring).Perm (ring ++ is.map fun i => (H.hash (replicaKey H node i), node)) := by
  induction is generalizing ring with
  | nil => exact ⟨hs, by simp [addReplicas]⟩
  | cons i is ih =>
    unfold addReplicas
    obtain ⟨l, r, e, hi, _, _, h3⟩ := insort_spec (fun p : Nat × N => toLex p) rlt rlt_eq ring (H.hash (replicaKey H node i), node) hs
    obtain ⟨g1, g2⟩ := ih (insort rlt ring (H.hash (replicaKey H node i), node)) h3
    refine ⟨g1, g2.trans ?_⟩
    rw [hi, List.map_cons]
    rw [e]
    simp only [List.append_assoc, List.cons_append]
    refine List.Perm.append_left l ?_
    exact List.perm_middle.symm

/-- What holds of every ring that was built by `add_node` and `remove_node`. -/
structure Good (H : Hashing N) (rc : Nat) (r : HashRing N) : Prop where
  rc_ : r.replicaCount = rc
  sorted : NoDescent rlt r.ring
  mem : ∀ e, e ∈ r.ring ↔ Placed H rc r.nodes e
  nd : r.nodes.Nodup
  many : ∀ n ∈ r.nodes, rc ≤ r.ring.countP (fun e => decide (e.2 = n))

theorem good_empty (H : Hashing N) (rc : Nat) : Good H rc { ring := [], nodes := [], replicaCount := rc } :=
  ⟨rfl, List.Pairwise.nil, by simp [Placed], List.nodup_nil, by simp⟩

theorem mem_nodes_add (H : Hashing N) (r : HashRing N) (n m : N) : m ∈ (r.addNode H n).nodes ↔ m = n ∨ m ∈ r.nodes := by
  unfold addNode
  simp only
  split_ifs with h
  · constructor
    · exact Or.inr
    · rintro (rfl | h')
      · exact h
      · exact h'
  · simp [or_comm]

theorem mem_nodes_remove (r : HashRing N) (n m : N) : m ∈ (r.removeNode n).nodes ↔ m ∈ r.nodes ∧ m ≠ n := by
  unfold removeNode; simp

theorem Good.add {H : Hashing N} {rc : Nat} {r : HashRing N} (h : Good H rc r) (n : N) : Good H rc (r.addNode H n) := by
  obtain ⟨g1, g2⟩ := addReplicas_spec H n (List.range r.replicaCount) r.ring h.sorted
  refine ⟨h.rc_, g1, ?_, ?_, ?_⟩
  · intro e
    show e ∈ addReplicas H n (List.range r.replicaCount) r.ring ↔ _
    rw [g2.mem_iff, List.mem_append, h.mem]
    unfold Placed
    rw [mem_nodes_add]
    simp only [List.mem_map, List.mem_range, h.rc_]
    constructor
    · rintro (⟨a, b⟩ | ⟨i, hi, rfl⟩)
      · exact ⟨Or.inr a, b⟩
      · exact ⟨Or.inl rfl, i, hi, rfl⟩
    · rintro ⟨rfl | a, i, hi, b⟩
      · exact Or.inr ⟨i, hi, by unfold replicaKey; rw [← b]⟩
      · exact Or.inl ⟨a, i, hi, b⟩
  · unfold addNode
    simp only
    split_ifs with hm
    · exact h.nd
    · rw [List.nodup_append]
      refine ⟨h.nd, by simp, ?_⟩
      intro a ha b hb; simp at hb; subst hb
      rintro rfl; exact hm ha
  · intro m hm
    show rc ≤ (addReplicas H n (List.range r.replicaCount) r.ring).countP _
    rw [g2.countP_eq, List.countP_append]
    rcases (mem_nodes_add H r n m).1 hm with rfl | hm
    · have : ((List.range r.replicaCount).map fun i => (H.hash (replicaKey H m i), m)).countP (fun e => decide (e.2 = m)) = rc := by
        rw [List.countP_eq_length.2]
        · simp [h.rc_]
        · intro e he; simp only [List.mem_map] at he; obtain ⟨i, _, rfl⟩ := he; simp
      omega
    · have := h.many m hm; omega

theorem Good.remove {H : Hashing N} {rc : Nat} {r : HashRing N} (h : Good H rc r) (n : N) : Good H rc (r.removeNode n) := by
  refine ⟨h.rc_, ?_, ?_, ?_, ?_⟩
  · exact h.sorted.sublist List.filter_sublist
  · intro e
    show e ∈ r.ring.filter _ ↔ _
    rw [List.mem_filter, h.mem]
    unfold Placed
    rw [mem_nodes_remove]
    simp only [decide_eq_true_eq]
    tauto
  · exact h.nd.sublist List.filter_sublist
  · intro m hm
    obtain ⟨h1, h2⟩ := (mem_nodes_remove r n m).1 hm
    show rc ≤ (r.ring.filter _).countP _
    rw [List.countP_filter]
    have := h.many m h1
    refine this.trans (le_of_eq ?_)
    apply List.countP_congr
    intro e _
    simp only [decide_eq_true_eq, Bool.and_eq_true, Bool.decide_and]
    constructor
    · rintro rfl; exact ⟨rfl, h2⟩
    · exact fun h => h.1

theorem runOps_snoc (H : Hashing N) (rc : Nat) (ops : List (RingOp N)) (o : RingOp N) :
    HashRing.runOps H rc (ops ++ [o]) = match o with
      | .add n => (HashRing.runOps H rc ops).addNode H n
      | .remove n => (HashRing.runOps H rc ops).removeNode n := by
  unfold HashRing.runOps; rw [List.foldl_append]; rfl

theorem good_run (H : Hashing N) (rc : Nat) (ops : List (RingOp N)) : Good H rc (HashRing.runOps H rc ops) := by
  induction ops using List.reverseRecOn with
  | nil => exact good_empty H rc
  | append_singleton os o ih =>
    rw [runOps_snoc]
    cases o with
    | add n => exact ih.add n
    | remove n => exact ih.remove n

theorem mem_nodes_run (H : Hashing N) (rc : Nat) (ops : List (RingOp N)) (n : N) :
    n ∈ (HashRing.runOps H rc ops).nodes ↔ n ∈ presentNodes ops := by
  induction ops using List.reverseRecOn with
  | nil => exact Iff.rfl
  | append_singleton os o ih =>
    rw [runOps_snoc]
    unfold presentNodes at *
    rw [List.foldl_append]
    cases o with
    | add m => simp only [List.foldl_cons, List.foldl_nil]; rw [mem_nodes_add, ih, List.mem_cons]
    | remove m => simp only [List.foldl_cons, List.foldl_nil]; rw [mem_nodes_remove, ih, List.mem_filter]; simp

/-! ## Lookup -/

theorem entryLt_none (e : Nat × N) (pos : Nat) : entryLt (full e) (pos, none) = decide (e.1 < pos) := by
  unfold entryLt full; simp

theorem bisect_ring {ring : List (Nat × N)} (hs : NoDescent rlt ring) (pos : Nat) :
    let k := bisectLeft entryLt (ring.map full) (pos, none)
    k ≤ ring.length ∧ (∀ (i : Nat) e, i < k → ring[i]? = some e → e.1 < pos) ∧ (∀ (i : Nat) e, k ≤ i → ring[i]? = some e → pos ≤ e.1) := by
  have hm : ∀ (i j : Nat) y z, i ≤ j → (ring.map full)[i]? = some y → (ring.map full)[j]? = some z →
      entryLt z (pos, none) = true → entryLt y (pos, none) = true := by
    intro i j y z hij hy hz h
    rw [List.getElem?_map] at hy hz
    obtain ⟨a, ha, rfl⟩ := Option.map_eq_some_iff.1 hy
    obtain ⟨b, hb, rfl⟩ := Option.map_eq_some_iff.1 hz
    rw [entryLt_none, decide_eq_true_eq] at *
    rcases Nat.lt_or_eq_of_le hij with hlt | heq
    · obtain ⟨h1, rfl⟩ := List.getElem?_eq_some_iff.1 ha
      obtain ⟨h2, rfl⟩ := List.getElem?_eq_some_iff.1 hb
      have := List.pairwise_iff_getElem.1 hs i j h1 h2 hlt
      rw [rlt_eq, decide_eq_false_iff_not, not_lt, Prod.Lex.toLex_le_toLex] at this
      omega
    · subst heq; rw [ha] at hb; cases hb; exact h
  obtain ⟨h1, h2, h3⟩ := bisectLeft_spec entryLt (ring.map full) (pos, none) hm
  refine ⟨by simpa using h1, ?_, ?_⟩
  · intro i e hi he
    have := h2 i (full e) hi (by rw [List.getElem?_map, he]; rfl)
    rwa [entryLt_none, decide_eq_true_eq] at this
  · intro i e hi he
    have := h3 i (full e) hi (by rw [List.getElem?_map, he]; rfl)
    rw [entryLt_none, decide_eq_false_iff_not] at this
    omega

theorem noLater_getElem {ring : List (Nat × N)} (hs : NoDescent rlt ring) {i j : Nat} {a b : Nat × N} (hij : i ≤ j)
    (ha : ring[i]? = some a) (hb : ring[j]? = some b) : NoLater a b := by
  rcases Nat.lt_or_eq_of_le hij with hlt | heq
  · obtain ⟨h1, rfl⟩ := List.getElem?_eq_some_iff.1 ha
    obtain ⟨h2, rfl⟩ := List.getElem?_eq_some_iff.1 hb
    have := List.pairwise_iff_getElem.1 hs i j h1 h2 hlt
    rw [rlt_eq, decide_eq_false_iff_not, not_lt] at this
    exact (noLater_iff _ _).2 this
  · subst heq; rw [ha] at hb; cases hb; exact (noLater_iff _ _).2 le_rfl

theorem search_spec {r : HashRing N} (hs : NoDescent rlt r.ring) (hne : r.ring ≠ []) (pos : Nat) :
    r.searchIndex pos < r.ring.length ∧ ∃ e, r.ring[r.searchIndex pos]? = some e ∧ FirstFrom (· ∈ r.ring) pos e := by
  have hl : 0 < r.ring.length := List.length_pos_iff.2 hne
  obtain ⟨h1, h2, h3⟩ := bisect_ring hs pos
  unfold searchIndex
  generalize bisectLeft entryLt (r.ring.map full) (pos, none) = k at *
  have hk : k % r.ring.length < r.ring.length := Nat.mod_lt _ hl
  refine ⟨hk, r.ring[k % r.ring.length], List.getElem?_eq_getElem hk, List.getElem_mem hk, ?_⟩
  rcases Nat.lt_or_eq_of_le h1 with hlt | heq
  · left
    have hkk : k % r.ring.length = k := Nat.mod_eq_of_lt hlt
    have he : r.ring[k]? = some r.ring[k % r.ring.length] := by rw [List.getElem?_eq_getElem hlt]; simp [hkk]
    refine ⟨h3 k _ le_rfl he, ?_⟩
    intro f hf hp
    obtain ⟨j, hj⟩ := List.mem_iff_getElem?.1 hf
    have hjk : k ≤ j := by
      by_contra hc
      have := h2 j f (by omega) hj
      omega
    exact noLater_getElem hs hjk he hj
  · right
    have hkk : k % r.ring.length = 0 := by rw [heq, Nat.mod_self]
    have he : r.ring[0]? = some r.ring[k % r.ring.length] := by rw [List.getElem?_eq_getElem hl]; simp [hkk]
    refine ⟨?_, ?_⟩
    · intro f hf
      obtain ⟨j, hj⟩ := List.mem_iff_getElem?.1 hf
      have := (List.getElem?_eq_some_iff.1 hj).1
      exact h2 j f (by omega) hj
    · intro f hf
      obtain ⟨j, hj⟩ := List.mem_iff_getElem?.1 hf
      exact noLater_getElem hs (Nat.zero_le j) he hj

theorem firstFrom_unique {placed : Nat × N → Prop} {pos : Nat} {a b : Nat × N} (ha : FirstFrom placed pos a)
    (hb : FirstFrom placed pos b) : a = b := by
  obtain ⟨pa, ha⟩ := ha
  obtain ⟨pb, hb⟩ := hb
  have key : NoLater a b → NoLater b a → a = b := by
    rw [noLater_iff, noLater_iff]
    intro h1 h2
    exact toLex.injective (le_antisymm h1 h2)
  rcases ha with ⟨h1, h2⟩ | ⟨h1, h2⟩ <;> rcases hb with ⟨g1, g2⟩ | ⟨g1, g2⟩
  · exact key (h2 b pb g1) (g2 a pa h1)
  · have := g1 a pa; omega
  · have := h1 b pb; omega
  · exact key (h2 b pb) (g2 a pa)

theorem firstFrom_sub {P Q : Nat × N → Prop} (h : ∀ e, Q e → P e) {pos : Nat} {e : Nat × N} (he : Q e) (hf : FirstFrom P pos e) :
    FirstFrom Q pos e := by
  refine ⟨he, ?_⟩
  rcases hf.2 with ⟨h1, h2⟩ | ⟨h1, h2⟩
  · exact Or.inl ⟨h1, fun f hf hp => h2 f (h f hf) hp⟩
  · exact Or.inr ⟨fun f hf => h1 f (h f hf), fun f hf => h2 f (h f hf)⟩

theorem firstFrom_congr {P Q : Nat × N → Prop} (h : ∀ e, Q e ↔ P e) {pos : Nat} {e : Nat × N} : FirstFrom P pos e ↔ FirstFrom Q pos e :=
  ⟨fun hf => firstFrom_sub (fun f => (h f).1) ((h e).2 hf.1) hf, fun hf => firstFrom_sub (fun f => (h f).2) ((h e).1 hf.1) hf⟩

/-- `get_node` in terms of the placed entries. -/
theorem getNode_spec {H : Hashing N} {rc : Nat} {r : HashRing N} (hg : Good H rc r) (hrc : 1 ≤ rc) (hne : r.nodes ≠ [])
    (key : Str) (hk : isAscii key = true) :
    ∃ e, FirstFrom (Placed H rc r.nodes) (H.hash key) e ∧ r.getNode H key = .ok e.2 := by
  have hr : r.ring ≠ [] := by
    obtain ⟨n, hn⟩ := List.exists_mem_of_ne_nil _ hne
    have : (H.hash (H.name n ++ c!":" ++ natStr 0), n) ∈ r.ring := (hg.mem _).2 ⟨hn, 0, by omega, rfl⟩
    exact List.ne_nil_of_mem this
  obtain ⟨h1, e, h2, h3⟩ := search_spec hg.sorted hr (H.hash key)
  refine ⟨e, (firstFrom_congr (fun f => (hg.mem f).symm)).1 h3, ?_⟩
  unfold getNode position
  simp [hr, hk, h2]

theorem getNode_empty {H : Hashing N} {rc : Nat} {r : HashRing N} (hg : Good H rc r) (h : r.nodes = [] ∨ rc = 0) (key : Str) :
    r.getNode H key = .error .assertionError := by
  have : r.ring = [] := by
    rw [List.eq_nil_iff_forall_not_mem]
    intro e he
    obtain ⟨h1, i, h2, _⟩ := (hg.mem e).1 he
    rcases h with h | h
    · rw [h] at h1; simp at h1
    · omega
  unfold getNode; simp [this]

/-! ## get_nodes -/

/-- The distinct elements, in order of first occurrence, after those already listed. -/
def firstsFrom (acc : List N) (l : List N) : List N := l.foldl (fun acc n => if n ∈ acc then acc else acc ++ [n]) acc

theorem firstsFrom_nodup (l acc : List N) (h : acc.Nodup) : (firstsFrom acc l).Nodup := by
  induction l generalizing acc with
  | nil => exact h
  | cons a l ih =>
    simp only [firstsFrom, List.foldl_cons]
    apply ih
    split_ifs with hm
    · exact h
    · rw [List.nodup_append]; refine ⟨h, by simp, ?_⟩
      intro x hx y hy; simp at hy; subst hy; rintro rfl; exact hm hx

theorem mem_firstsFrom (l acc : List N) (x : N) : x ∈ firstsFrom acc l ↔ x ∈ acc ∨ x ∈ l := by
  induction l generalizing acc with
  | nil => simp [firstsFrom]
  | cons a l ih =>
    simp only [firstsFrom, List.foldl_cons] at ih ⊢
    rw [ih]
    split_ifs with hm
    · simp only [List.mem_cons]
      constructor
      · rintro (h | h)
        · exact Or.inl h
        · exact Or.inr (Or.inr h)
      · rintro (h | rfl | h)
        · exact Or.inl h
        · exact Or.inl hm
        · exact Or.inr h
    · simp only [List.mem_append, List.mem_singleton, List.mem_cons]; tauto

theorem firstsFrom_sub (l acc : List N) (h : ∀ x ∈ l, x ∈ acc) : firstsFrom acc l = acc := by
  induction l generalizing acc with
  | nil => rfl
  | cons a l ih =>
    simp only [firstsFrom, List.foldl_cons, h a (by simp), if_true]
    exact ih acc (fun x hx => h x (by simp [hx]))

theorem firstsFrom_prefix (l acc : List N) : acc <+: firstsFrom acc l := by
  induction l generalizing acc with
  | nil => exact List.prefix_refl _
  | cons a l ih =>
    simp only [firstsFrom, List.foldl_cons]
    split_ifs
    · exact ih acc
    · exact (List.prefix_append _ _).trans (ih _)

theorem nodesLoop_spec {r : HashRing N} (hnd : r.nodes.Nodup) (hmem : ∀ e ∈ r.ring, e.2 ∈ r.nodes) (i0 : Nat)
    (hi : i0 < r.ring.length) (k t : Nat) (ht : t + k + 1 = r.ring.length) (acc : List N) (hacc : acc.Nodup) (hsub : ∀ x ∈ acc, x ∈ r.nodes) :
    nodesLoop r ((i0 + (r.ring.length - 1)) % r.ring.length) (k + 1) ((i0 + t) % r.ring.length) acc =
      some (firstsFrom acc (((List.range k).filterMap fun u => r.ring[(i0 + t + u) % r.ring.length]?).map Prod.snd)) := by
  have hL : 0 < r.ring.length := by omega
  have hfull : ∀ l : List N, (∀ x ∈ l, x ∈ r.nodes) → ¬ acc.length < r.nodes.length → firstsFrom acc l = acc := by
    intro l hl hlen
    apply firstsFrom_sub
    intro x hx
    have hsp : acc.Subperm r.nodes := List.Nodup.subperm hacc hsub
    have hp : acc.Perm r.nodes := hsp.perm_of_length_le (by omega)
    exact hp.mem_iff.2 (hl x hx)
  induction k generalizing t acc with
  | zero =>
    unfold nodesLoop
    have : t = r.ring.length - 1 := by omega
    rw [this]
    simp [firstsFrom]
  | succ k ih =>
    unfold nodesLoop
    have hidx : (i0 + t) % r.ring.length < r.ring.length := Nat.mod_lt _ hL
    have hne : (i0 + t) % r.ring.length ≠ (i0 + (r.ring.length - 1)) % r.ring.length := by
      intro h
      have h2 : t ≡ r.ring.length - 1 [MOD r.ring.length] := Nat.ModEq.add_left_cancel' i0 h
      have := Nat.ModEq.eq_of_lt_of_lt h2 (by omega) (by omega)
      omega
    have hel : r.ring[(i0 + t) % r.ring.length]? = some r.ring[(i0 + t) % r.ring.length] := List.getElem?_eq_getElem hidx
    have hmods : ∀ u, (i0 + (t + 1) + u) % r.ring.length = (i0 + t + (u + 1)) % r.ring.length := fun u => by
      congr 1; omega
    have hcons : ((List.range (k + 1)).filterMap fun u => r.ring[(i0 + t + u) % r.ring.length]?) =
        r.ring[(i0 + t) % r.ring.length] :: ((List.range k).filterMap fun u => r.ring[(i0 + (t + 1) + u) % r.ring.length]?) := by
      rw [List.range_succ_eq_map, List.filterMap_cons_some (by rw [Nat.add_zero]; exact hel), List.filterMap_map]
      simp only [Function.comp_def, hmods, Nat.succ_eq_add_one]
    have hallmem : ∀ x ∈ (((List.range (k+1)).filterMap fun u => r.ring[(i0 + t + u) % r.ring.length]?).map Prod.snd), x ∈ r.nodes := by
      intro x hx
      simp only [List.mem_map, List.mem_filterMap] at hx
      obtain ⟨e, ⟨u, _, he⟩, rfl⟩ := hx
      exact hmem e (List.mem_of_getElem? he)
    by_cases hlen : acc.length < r.nodes.length
    · rw [if_pos ⟨hlen, hne⟩, hel]
      simp only
      have hstep : ((i0 + t) % r.ring.length + 1) % r.ring.length = (i0 + (t + 1)) % r.ring.length := by
        rw [Nat.mod_add_mod]; rfl
      rw [hstep, ih (t + 1) (by omega)]
      · rw [hcons]; simp only [List.map_cons, firstsFrom, List.foldl_cons]
      · have := firstsFrom_nodup [(r.ring[(i0 + t) % r.ring.length]).2] acc hacc
        exact this
      · intro x hx
        split_ifs at hx with hm
        · exact hsub x hx
        · rcases List.mem_append.1 hx with hx | hx
          · exact hsub x hx
          · simp at hx; subst hx; exact hmem _ (List.getElem_mem hidx)
      · intro l hl hlen'
        apply firstsFrom_sub
        intro x hx
        set acc' := (if (r.ring[(i0 + t) % r.ring.length]).2 ∈ acc then acc else acc ++ [(r.ring[(i0 + t) % r.ring.length]).2]) with hacc'
        have hnd' : acc'.Nodup := firstsFrom_nodup [(r.ring[(i0 + t) % r.ring.length]).2] acc hacc
        have hsub' : ∀ y ∈ acc', y ∈ r.nodes := by
          intro y hy
          have := (mem_firstsFrom [(r.ring[(i0 + t) % r.ring.length]).2] acc y).1 hy
          rcases this with h | h
          · exact hsub y h
          · simp at h; subst h; exact hmem _ (List.getElem_mem hidx)
        have hp : acc'.Perm r.nodes := (List.Nodup.subperm hnd' hsub').perm_of_length_le (by omega)
        exact hp.mem_iff.2 (hl x hx)
    · rw [if_neg (by tauto), hfull _ hallmem hlen]

theorem filterMap_rotate {α : Type} (l : List α) (i k : Nat) (hk : k ≤ l.length) :
    ((List.range k).filterMap fun u => l[(i + u) % l.length]?) = (l.rotate i).take k := by
  induction k with
  | zero => simp
  | succ k ih =>
    have hL : 0 < l.length := by omega
    have hm : (i + k) % l.length < l.length := Nat.mod_lt _ hL
    have hrl : k < (l.rotate i).length := by rw [List.length_rotate]; omega
    rw [List.range_succ, List.filterMap_append, ih (by omega), List.take_succ_eq_append_getElem hrl, List.getElem_rotate]
    congr 1
    rw [List.filterMap_cons_some (f := fun u => l[(i + u) % l.length]?) (List.getElem?_eq_getElem hm)]
    simp [Nat.add_comm k i]

/-- `get_nodes` in terms of a rotation of the ring. -/
theorem getNodes_spec {H : Hashing N} {rc : Nat} {r : HashRing N} (hg : Good H rc r) (hrc : 1 ≤ rc) (hne : r.nodes ≠ [])
    (key : Str) (hk : isAscii key = true) :
    r.getNodes H key = .ok (firstsFrom [] (((r.ring.rotate (r.searchIndex (H.hash key))).take (r.ring.length - 1)).map Prod.snd)) := by
  have hr : r.ring ≠ [] := by
    obtain ⟨n, hn⟩ := List.exists_mem_of_ne_nil _ hne
    have : (H.hash (H.name n ++ c!":" ++ natStr 0), n) ∈ r.ring := (hg.mem _).2 ⟨hn, 0, by omega, rfl⟩
    exact List.ne_nil_of_mem this
  have hL : 0 < r.ring.length := List.length_pos_iff.2 hr
  obtain ⟨h1, -⟩ := search_spec hg.sorted hr (H.hash key)
  have hmem : ∀ e ∈ r.ring, e.2 ∈ r.nodes := fun e he => ((hg.mem e).1 he).1
  have hl := nodesLoop_spec hg.nd hmem (r.searchIndex (H.hash key)) h1 (r.ring.length - 1) 0 (by omega) [] List.nodup_nil (by simp)
  unfold getNodes position
  simp only [hk, if_true]
  rw [if_neg (by omega)]
  rw [show r.ring.length - 1 + 1 = r.ring.length by omega, Nat.add_zero, Nat.mod_eq_of_lt h1,
    filterMap_rotate _ _ _ (by omega)] at hl
  simp only [hl]

theorem firstsFrom_eq (l acc : List N) :
    firstsFrom acc l = acc ++ (firstOccurrences l).filter (fun x => decide (x ∉ acc)) := by
  induction l generalizing acc with
  | nil => simp [firstsFrom, firstOccurrences]
  | cons a l ih =>
    have e : firstsFrom acc (a :: l) = firstsFrom (if a ∈ acc then acc else acc ++ [a]) l := rfl
    rw [e, ih, show firstOccurrences (a :: l) = a :: (firstOccurrences l).filter (fun x => decide (x ≠ a)) from rfl]
    split_ifs with hm
    · simp only [List.filter_cons, hm, not_true, decide_false, Bool.false_eq_true, if_false, List.filter_filter]
      congr 1
      apply List.filter_congr
      intro x _
      by_cases hx : x ∈ acc
      · simp [hx]
      · have : x ≠ a := by rintro rfl; exact hx hm
        simp [hx, this]
    · simp only [List.filter_cons, hm, not_false_iff, decide_true, if_true, List.filter_filter, List.append_assoc, List.singleton_append]
      congr 2
      apply List.filter_congr
      intro x _
      simp [not_or]

theorem firstsFrom_nil (l : List N) : firstsFrom [] l = firstOccurrences l := by
  rw [firstsFrom_eq]; simp

theorem split1_metricName (d : Str) : (split1 ':' d).map Prod.fst = metricName d := by
  unfold metricName
  induction d with
  | nil => simp [split1]
  | cons x xs ih =>
    unfold split1
    by_cases hx : x = ':'
    · simp [hx]
    · simp only [hx, if_false]
      have : (':' ∈ x :: xs) ↔ ':' ∈ xs := by
        simp [Ne.symm hx]
      simp only [this]
      split_ifs at ih ⊢ with hm
      · obtain ⟨p, hp, hp2⟩ := Option.map_eq_some_iff.1 ih
        rw [hp]
        simp [hx, hp2]
      · rw [Option.map_eq_none_iff] at ih
        rw [ih]; rfl

end HashRing
end Txstatsd
