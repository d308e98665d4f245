import Verif.Lemmas.HashRing

/-!
# C55–C59: the consistent hash ring and the sharded client
-/

namespace Txstatsd
variable {N : Type} [LinearOrder N]

/-! ## C55 -/

/-- On a ring with at least one node, `get_node` returns the node found first, clockwise, from the key's position among the
replicas of the nodes that are present, whatever operations led to the ring. -/
theorem C55_owner (H : Hashing N) (replicas : Nat) (hr : 1 ≤ replicas) (ops : List (RingOp N)) (hne : presentNodes ops ≠ [])
    (key : Str) (hk : isAscii key = true) :
    ∃ e, FirstFrom (Placed H replicas (presentNodes ops)) (H.hash key) e ∧ e.2 ∈ presentNodes ops ∧
      (HashRing.runOps H replicas ops).getNode H key = .ok e.2 := by
  have hm := HashRing.mem_nodes_run H replicas ops
  have hne' : (HashRing.runOps H replicas ops).nodes ≠ [] := by
    obtain ⟨n, hn⟩ := List.exists_mem_of_ne_nil _ hne
    exact List.ne_nil_of_mem ((hm n).2 hn)
  obtain ⟨e, h1, h2⟩ := HashRing.getNode_spec (HashRing.good_run H replicas ops) hr hne' key hk
  have h3 : FirstFrom (Placed H replicas (presentNodes ops)) (H.hash key) e :=
    (HashRing.firstFrom_congr (fun f => by unfold Placed; rw [hm])).1 h1
  exact ⟨e, h3, h3.1.1, h2⟩

/-- Only the set of nodes matters: rings holding the same nodes agree on every key (also when they are empty or the key is not
ASCII, where both raise). -/
theorem C55_set_only (H : Hashing N) (replicas : Nat) (ops ops' : List (RingOp N))
    (h : ∀ n, n ∈ presentNodes ops ↔ n ∈ presentNodes ops') (key : Str) :
    (HashRing.runOps H replicas ops).getNode H key = (HashRing.runOps H replicas ops').getNode H key := by
  have hm := HashRing.mem_nodes_run H replicas ops
  have hm' := HashRing.mem_nodes_run H replicas ops'
  have g := HashRing.good_run H replicas ops
  have g' := HashRing.good_run H replicas ops'
  by_cases hemp : presentNodes ops = [] ∨ replicas = 0
  · have hemp' : presentNodes ops' = [] ∨ replicas = 0 := by
      rcases hemp with h0 | h0
      · left; rw [List.eq_nil_iff_forall_not_mem]; intro n hn; have := (h n).2 hn; rw [h0] at this; simp at this
      · exact Or.inr h0
    rw [HashRing.getNode_empty g _ key, HashRing.getNode_empty g' _ key]
    · refine hemp'.imp_left fun h0 => ?_
      rw [List.eq_nil_iff_forall_not_mem]; intro n hn; have := (hm' n).1 hn; rw [h0] at this; simp at this
    · refine hemp.imp_left fun h0 => ?_
      rw [List.eq_nil_iff_forall_not_mem]; intro n hn; have := (hm n).1 hn; rw [h0] at this; simp at this
  · rw [not_or] at hemp
    have hne' : presentNodes ops' ≠ [] := by
      obtain ⟨n, hn⟩ := List.exists_mem_of_ne_nil _ hemp.1
      exact List.ne_nil_of_mem ((h n).1 hn)
    by_cases hk : isAscii key = true
    · obtain ⟨e, h1, _, h2⟩ := C55_owner H replicas (by omega) ops hemp.1 key hk
      obtain ⟨e', h1', _, h2'⟩ := C55_owner H replicas (by omega) ops' hne' key hk
      rw [h2, h2']
      have : FirstFrom (Placed H replicas (presentNodes ops')) (H.hash key) e :=
        (HashRing.firstFrom_congr (fun f => by unfold Placed; rw [h])).1 h1
      rw [HashRing.firstFrom_unique this h1']
    · have key1 : ∀ r : HashRing N, r.ring ≠ [] → r.getNode H key = .error .valueError := by
        intro r hr
        unfold HashRing.getNode HashRing.position
        simp [hr, hk]
      have ne : ∀ os : List (RingOp N), presentNodes os ≠ [] → (HashRing.runOps H replicas os).ring ≠ [] := by
        intro os ho
        obtain ⟨n, hn⟩ := List.exists_mem_of_ne_nil _ ho
        have hn' := (HashRing.mem_nodes_run H replicas os n).2 hn
        exact List.ne_nil_of_mem (((HashRing.good_run H replicas os).mem
          (H.hash (H.name n ++ c!":" ++ natStr 0), n)).2 ⟨hn', 0, by omega, rfl⟩)
      rw [key1 _ (ne ops hemp.1), key1 _ (ne ops' hne')]

/-! ## C56 -/

/-- Adding a node changes the owner of a key only by making the new node its owner. -/
theorem C56_add (H : Hashing N) (replicas : Nat) (hr : 1 ≤ replicas) (ops : List (RingOp N)) (hne : presentNodes ops ≠ []) (n : N)
    (key : Str) (hk : isAscii key = true) :
    (HashRing.runOps H replicas (ops ++ [.add n])).getNode H key = (HashRing.runOps H replicas ops).getNode H key ∨
    (HashRing.runOps H replicas (ops ++ [.add n])).getNode H key = .ok n := by
  have hp : presentNodes (ops ++ [.add n]) = n :: presentNodes ops := by unfold presentNodes; rw [List.foldl_append]; rfl
  obtain ⟨e, h1, _, h2⟩ := C55_owner H replicas hr ops hne key hk
  obtain ⟨e', h1', _, h2'⟩ := C55_owner H replicas hr (ops ++ [.add n]) (by rw [hp]; simp) key hk
  rw [h2, h2']
  rw [hp] at h1'
  by_cases hen : e'.2 = n
  · right; rw [hen]
  · left
    have hpl : Placed H replicas (presentNodes ops) e' := by
      obtain ⟨a, b⟩ := h1'.1
      rcases List.mem_cons.1 a with a | a
      · exact absurd a hen
      · exact ⟨a, b⟩
    have := HashRing.firstFrom_sub (Q := Placed H replicas (presentNodes ops)) (fun f hf => ⟨List.mem_cons_of_mem _ hf.1, hf.2⟩) hpl h1'
    rw [HashRing.firstFrom_unique this h1]

/-! ## C57 -/

/-- Removing a node leaves every key of another node where it was, and no key on the removed node. -/
theorem C57_remove (H : Hashing N) (replicas : Nat) (hr : 1 ≤ replicas) (ops : List (RingOp N)) (n : N) (key : Str)
    (hk : isAscii key = true) :
    (∀ m, m ≠ n → (HashRing.runOps H replicas ops).getNode H key = .ok m →
      (HashRing.runOps H replicas (ops ++ [.remove n])).getNode H key = .ok m) ∧
    (HashRing.runOps H replicas (ops ++ [.remove n])).getNode H key ≠ .ok n := by
  have hp : presentNodes (ops ++ [.remove n]) = (presentNodes ops).filter (· ≠ n) := by
    unfold presentNodes; rw [List.foldl_append]; rfl
  have hsub : ∀ f, Placed H replicas ((presentNodes ops).filter (· ≠ n)) f → Placed H replicas (presentNodes ops) f :=
    fun f hf => ⟨(List.mem_filter.1 hf.1).1, hf.2⟩
  refine ⟨?_, ?_⟩
  · intro m hm hg
    have hne : presentNodes ops ≠ [] := by
      intro h0
      rw [HashRing.getNode_empty (HashRing.good_run H replicas ops)] at hg
      · cases hg
      · left
        rw [List.eq_nil_iff_forall_not_mem]; intro x hx
        have := (HashRing.mem_nodes_run H replicas ops x).1 hx; rw [h0] at this; simp at this
    obtain ⟨e, h1, h3, h2⟩ := C55_owner H replicas hr ops hne key hk
    rw [h2] at hg
    have hem : e.2 = m := by simpa using hg
    have hin : e.2 ∈ (presentNodes ops).filter (· ≠ n) := by
      rw [List.mem_filter]; exact ⟨h3, by simp [hem, hm]⟩
    obtain ⟨e', h1', _, h2'⟩ := C55_owner H replicas hr (ops ++ [.remove n]) (by rw [hp]; exact List.ne_nil_of_mem hin) key hk
    rw [hp] at h1'
    have := HashRing.firstFrom_sub hsub ⟨hin, h1.1.2⟩ h1
    rw [h2', ← hem, HashRing.firstFrom_unique this h1']
  · intro hg
    by_cases hne : presentNodes (ops ++ [.remove n]) = []
    · rw [HashRing.getNode_empty (HashRing.good_run H replicas (ops ++ [RingOp.remove n]))] at hg
      · cases hg
      · left
        rw [List.eq_nil_iff_forall_not_mem]; intro x hx
        have := (HashRing.mem_nodes_run H replicas _ x).1 hx; rw [hne] at this; simp at this
    · obtain ⟨e', _, h3', h2'⟩ := C55_owner H replicas hr (ops ++ [.remove n]) hne key hk
      rw [h2'] at hg
      have : e'.2 = n := by simpa using hg
      rw [hp, this, List.mem_filter] at h3'
      simp at h3'

/-- Removing a freshly added node restores every lookup. -/
theorem C57_restore (H : Hashing N) (replicas : Nat) (ops : List (RingOp N)) (n : N) (hn : n ∉ presentNodes ops) (key : Str) :
    (HashRing.runOps H replicas (ops ++ [.add n, .remove n])).getNode H key = (HashRing.runOps H replicas ops).getNode H key := by
  apply C55_set_only
  intro m
  have hp : presentNodes (ops ++ [.add n, .remove n]) = (n :: presentNodes ops).filter (· ≠ n) := by
    unfold presentNodes; rw [List.foldl_append]; rfl
  rw [hp, List.mem_filter]
  simp only [List.mem_cons, decide_eq_true_eq]
  constructor
  · rintro ⟨rfl | h, h2⟩
    · exact absurd rfl h2
    · exact h
  · intro h; exact ⟨Or.inr h, by rintro rfl; exact hn h⟩

/-! ## C58 -/

/-- `get_nodes` walks the ring, which is a sorted list of entries, clockwise from the key's position, and lists each node
where it first meets it; it stops just before the last entry of the walk. Hence it lists no node twice, and only present nodes;
if the ring has at least two entries it starts with the owner of the key. -/
theorem C58_walk_partial (H : Hashing N) (replicas : Nat) (hr : 1 ≤ replicas) (ops : List (RingOp N)) (hne : presentNodes ops ≠ [])
    (key : Str) (hk : isAscii key = true) :
    let r := HashRing.runOps H replicas ops
    ∃ before after : List (Nat × N), r.ring = before ++ after ∧ r.ring.Pairwise NoLater ∧
      (∀ e, e ∈ r.ring ↔ Placed H replicas (presentNodes ops) e) ∧
      (∀ e ∈ before, e.1 < H.hash key) ∧ (∀ e ∈ after, H.hash key ≤ e.1) ∧
      ∃ ns, r.getNodes H key = .ok ns ∧ ns = firstOccurrences ((after ++ before).dropLast.map Prod.snd) ∧
        ns.Nodup ∧ (∀ n ∈ ns, n ∈ presentNodes ops) ∧
        (2 ≤ r.ring.length → ∃ n rest, ns = n :: rest ∧ r.getNode H key = .ok n) := by
  have hm := HashRing.mem_nodes_run H replicas ops
  have g := HashRing.good_run H replicas ops
  have hne' : (HashRing.runOps H replicas ops).nodes ≠ [] := by
    obtain ⟨n, hn⟩ := List.exists_mem_of_ne_nil _ hne
    exact List.ne_nil_of_mem ((hm n).2 hn)
  have hgn := HashRing.getNodes_spec g hr hne' key hk
  generalize HashRing.runOps H replicas ops = r at *
  have hrne : r.ring ≠ [] := by
    obtain ⟨n, hn⟩ := List.exists_mem_of_ne_nil _ hne'
    exact List.ne_nil_of_mem ((g.mem (H.hash (H.name n ++ c!":" ++ natStr 0), n)).2 ⟨hn, 0, by omega, rfl⟩)
  have hL : 0 < r.ring.length := List.length_pos_iff.2 hrne
  obtain ⟨b1, b2, b3⟩ := HashRing.bisect_ring g.sorted (H.hash key)
  have hsi : r.searchIndex (H.hash key) = bisectLeft HashRing.entryLt (r.ring.map HashRing.full) (H.hash key, none) % r.ring.length := rfl
  generalize bisectLeft HashRing.entryLt (r.ring.map HashRing.full) (H.hash key, none) = k at *
  have hrot : r.ring.rotate (r.searchIndex (H.hash key)) = r.ring.drop k ++ r.ring.take k := by
    rw [hsi, List.rotate_mod, List.rotate_eq_drop_append_take b1]
  have hlen : (r.ring.drop k ++ r.ring.take k).length = r.ring.length := by
    rw [← List.length_rotate r.ring k, List.rotate_eq_drop_append_take b1]
  rw [hrot, HashRing.firstsFrom_nil] at hgn
  have htk : (r.ring.drop k ++ r.ring.take k).take (r.ring.length - 1) = (r.ring.drop k ++ r.ring.take k).dropLast := by
    rw [List.dropLast_eq_take, hlen]
  rw [htk] at hgn
  have hmem : ∀ e, e ∈ r.ring ↔ Placed H replicas (presentNodes ops) e := by
    intro e; rw [g.mem]; unfold Placed; rw [hm]
  refine ⟨r.ring.take k, r.ring.drop k, (List.take_append_drop _ _).symm, ?_, hmem, ?_, ?_, _, hgn, rfl, ?_, ?_, ?_⟩
  · refine g.sorted.imp ?_
    intro a b hab
    rw [HashRing.rlt_eq, decide_eq_false_iff_not, not_lt] at hab
    exact (HashRing.noLater_iff _ _).2 hab
  · intro e he
    obtain ⟨i, hi⟩ := List.mem_iff_getElem?.1 he
    rw [List.getElem?_take] at hi
    split_ifs at hi with hlt
    exact b2 i e hlt hi
  · intro e he
    obtain ⟨i, hi⟩ := List.mem_iff_getElem?.1 he
    rw [List.getElem?_drop] at hi
    exact b3 _ e (by omega) hi
  · rw [← HashRing.firstsFrom_nil]; exact HashRing.firstsFrom_nodup _ _ List.nodup_nil
  · intro n hn
    rw [← HashRing.firstsFrom_nil, HashRing.mem_firstsFrom] at hn
    rcases hn with hn | hn
    · simp at hn
    · obtain ⟨e, he, rfl⟩ := List.mem_map.1 hn
      have h1 := List.mem_of_mem_dropLast he
      have h2 : e ∈ r.ring := by
        rcases List.mem_append.1 h1 with h | h
        · exact List.mem_of_mem_drop h
        · exact List.mem_of_mem_take h
      exact ((hmem e).1 h2).1
  · intro h2
    obtain ⟨c1, e, c2, c3⟩ := HashRing.search_spec g.sorted hrne (H.hash key)
    have hhead : (r.ring.drop k ++ r.ring.take k)[0]? = some e := by
      rw [← hrot, List.getElem?_rotate hL, Nat.zero_add, Nat.mod_eq_of_lt c1, c2]
    generalize hW : r.ring.drop k ++ r.ring.take k = W at *
    match W, hhead, hlen with
    | [a], _, hl => simp at hl; omega
    | a :: b :: W, hh, _ =>
      simp at hh
      subst hh
      refine ⟨a.2, (firstOccurrences ((b :: W).dropLast.map Prod.snd)).filter (fun x => decide (x ≠ a.2)), rfl, ?_⟩
      unfold HashRing.getNode HashRing.position
      simp [hrne, hk, c2]

/-- With at least two replicas per node (the default is 1024) the listing is complete: every present node is listed. -/
theorem C58_complete (H : Hashing N) (replicas : Nat) (hr : 2 ≤ replicas) (ops : List (RingOp N)) (hne : presentNodes ops ≠ [])
    (key : Str) (hk : isAscii key = true) :
    ∃ ns, (HashRing.runOps H replicas ops).getNodes H key = .ok ns ∧ ns.Nodup ∧ ∀ n, n ∈ ns ↔ n ∈ presentNodes ops := by
  obtain ⟨before, after, h1, _, _, _, _, ns, h5, h6, h7, h8, _⟩ := C58_walk_partial H replicas (by omega) ops hne key hk
  refine ⟨ns, h5, h7, fun n => ⟨h8 n, fun hn => ?_⟩⟩
  have g := HashRing.good_run H replicas ops
  have hmany := g.many n ((HashRing.mem_nodes_run H replicas ops n).2 hn)
  rw [h6, ← HashRing.firstsFrom_nil, HashRing.mem_firstsFrom]
  right
  have hcount : (after ++ before).countP (fun e => decide (e.2 = n)) ≥ 2 := by
    rw [(List.perm_append_comm : (after ++ before).Perm (before ++ after)).countP_eq, ← h1]; omega
  rcases List.eq_nil_or_concat (after ++ before) with h0 | ⟨W, e, hW⟩
  · rw [h0] at hcount; simp at hcount
  · rw [hW] at hcount ⊢
    simp only [List.concat_eq_append, List.dropLast_concat, List.countP_append] at hcount ⊢
    have : 0 < W.countP (fun e => decide (e.2 = n)) := by
      have : [e].countP (fun e => decide (e.2 = n)) ≤ 1 := List.countP_le_length
      omega
    obtain ⟨x, hx, hxn⟩ := List.countP_pos_iff.1 this
    exact List.mem_map.2 ⟨x, hx, by simpa using hxn⟩

/-- Without nodes there is nothing to walk: the listing raises ZeroDivisionError. -/
theorem C58_empty (H : Hashing N) (replicas : Nat) (ops : List (RingOp N)) (he : presentNodes ops = []) (key : Str)
    (hk : isAscii key = true) : (HashRing.runOps H replicas ops).getNodes H key = .error .zeroDivisionError := by
  have g := HashRing.good_run H replicas ops
  have hr : (HashRing.runOps H replicas ops).ring = [] := by
    rw [List.eq_nil_iff_forall_not_mem]
    intro e h
    have := (HashRing.mem_nodes_run H replicas ops e.2).1 ((g.mem e).1 h).1
    rw [he] at this
    simp at this
  unfold HashRing.getNodes HashRing.position
  simp [hr, hk]

/-- A hash for the examples: the position of a key is the code of its last character. -/
def exHashing : Hashing Nat where
  hash s := (s.getLast?.map Char.toNat).getD 0
  name n := if n = 0 then c!"a" else c!"b"
  ascii n := by by_cases h : n = 0 <;> simp [h] <;> decide

/-- With a single replica per node the last node of the walk is left out: a ring of one node lists none. -/
theorem C58_refuted : ¬ ∀ (H : Hashing Nat) (replicas : Nat) (ops : List (RingOp Nat)) (key : Str), 1 ≤ replicas →
    presentNodes ops ≠ [] → isAscii key = true →
    ∃ ns, (HashRing.runOps H replicas ops).getNodes H key = .ok ns ∧ ∀ n, n ∈ presentNodes ops → n ∈ ns := by
  intro h
  obtain ⟨ns, h1, h2⟩ := h exHashing 1 [.add 7] c!"k" (by decide) (by decide) (by decide)
  have e : (HashRing.runOps exHashing 1 [.add 7]).getNodes exHashing c!"k" = .ok [] := by decide +kernel
  rw [e] at h1
  cases h1
  exact absurd (h2 7 (by decide)) (by simp)

/-- Two nodes with three replicas each, on the positions '0', '1', '2'. -/
example : (HashRing.runOps exHashing 3 [.add 4, .add 0, .add 9, .remove 4]).getNode exHashing c!"cpu1" = .ok 0 ∧
    (HashRing.runOps exHashing 3 [.add 4, .add 0, .add 9, .remove 4]).getNodes exHashing c!"cpu1" = .ok [0, 9] ∧
    presentNodes [RingOp.add 4, .add 0, .add 9, .remove 4] = [9, 0] ∧
    (HashRing.runOps exHashing 3 [.add 4]).getNode exHashing c!"cpu1" = .ok 4 ∧
    (HashRing.runOps exHashing 3 [.add 4, .add 0]).getNode exHashing c!"cpu1" = .ok 0 := by decide +kernel

/-! ## C59 -/

/-- For every non-empty set of clients there is one assignment of clients to metric names such that any sequence of writes
delivers each message that has a `:` after an ASCII name once, unchanged, in order, to the client of its name, and nothing else
anywhere. The assignment only depends on the set of clients. -/
theorem C59_sharding (H : Hashing N) (clients : List N) (hne : clients ≠ []) :
    ∃ owner : Str → N, (∀ name, owner name ∈ clients) ∧
      ∀ clients' : List N, (∀ n, n ∈ clients' ↔ n ∈ clients) → ∀ datas : List Str,
        ((ShardedClient.init H clients').writes H datas).sent =
          datas.filterMap fun d => match metricName d with
            | some name => if isAscii name then some (owner name, d) else none
            | none => none := by
  have hinit : ∀ cs : List N, HashRing.init H cs = HashRing.runOps H 1024 (cs.map .add) := by
    intro cs
    unfold HashRing.init HashRing.runOps
    rw [List.foldl_map]
  have hpres : ∀ cs : List N, ∀ n, n ∈ presentNodes (cs.map RingOp.add) ↔ n ∈ cs := by
    intro cs n
    unfold presentNodes
    rw [List.foldl_map]
    have : ∀ (l acc : List N), n ∈ l.foldl (fun ns m => m :: ns) acc ↔ n ∈ l ∨ n ∈ acc := by
      intro l
      induction l with
      | nil => simp
      | cons a l ih => intro acc; simp only [List.foldl_cons]; rw [ih]; simp only [List.mem_cons]; tauto
    have h := this cs []
    simpa using h
  have hpne : presentNodes (clients.map RingOp.add) ≠ [] := by
    obtain ⟨n, hn⟩ := List.exists_mem_of_ne_nil _ hne
    exact List.ne_nil_of_mem ((hpres clients n).2 hn)
  obtain ⟨n0, hn0⟩ := List.exists_mem_of_ne_nil _ hne
  have hown : ∀ name : Str, ∃ n, n ∈ clients ∧ (isAscii name = true → (HashRing.init H clients).getNode H name = .ok n) := by
    intro name
    by_cases ha : isAscii name = true
    · obtain ⟨e, _, h2, h3⟩ := C55_owner H 1024 (by decide) (clients.map .add) hpne name ha
      exact ⟨e.2, (hpres clients e.2).1 h2, fun _ => by rw [hinit]; exact h3⟩
    · exact ⟨n0, hn0, fun h => absurd h ha⟩
  choose owner ho1 ho2 using hown
  refine ⟨owner, ho1, ?_⟩
  intro clients' hc' datas
  have hget : ∀ name, (HashRing.init H clients').getNode H name = (HashRing.init H clients).getNode H name := by
    intro name
    rw [hinit, hinit]
    exact C55_set_only H 1024 _ _ (fun n => by rw [hpres, hpres, hc']) name
  have hwrite : ∀ (c : ShardedClient N) (d : Str), c.ring = HashRing.init H clients' →
      (c.write H d).1.ring = HashRing.init H clients' ∧
      (c.write H d).1.sent = c.sent ++ ([d].filterMap fun d => match metricName d with
            | some name => if isAscii name then some (owner name, d) else none
            | none => none) := by
    intro c d hc
    have hs := HashRing.split1_metricName d
    unfold ShardedClient.write
    cases h : split1 ':' d with
    | none =>
      rw [h] at hs
      simp only [Option.map_none] at hs
      simp [hc, ← hs]
    | some p =>
      rw [h] at hs
      simp only [Option.map_some] at hs
      obtain ⟨nm, rest⟩ := p
      simp only at hs ⊢
      rw [hc, hget]
      by_cases ha : isAscii nm = true
      · rw [ho2 nm ha]; simp [hc, ← hs, ha]
      · have hnil : (HashRing.init H clients).ring ≠ [] := by
          rw [hinit]
          exact List.ne_nil_of_mem (((HashRing.good_run H 1024 (clients.map .add)).mem
            (H.hash (H.name n0 ++ c!":" ++ natStr 0), n0)).2
            ⟨(HashRing.mem_nodes_run H 1024 _ n0).2 ((hpres clients n0).2 hn0), 0, by decide, rfl⟩)
        have he : (HashRing.init H clients).getNode H nm = .error .valueError := by
          unfold HashRing.getNode HashRing.position; simp [hnil, ha]
        rw [he]; simp [hc, ← hs, ha]
  have hall : ∀ (ds : List Str) (c : ShardedClient N), c.ring = HashRing.init H clients' →
      (c.writes H ds).sent = c.sent ++ ds.filterMap (fun d => match metricName d with
            | some name => if isAscii name then some (owner name, d) else none
            | none => none) := by
    intro ds
    induction ds with
    | nil => intro c _; simp [ShardedClient.writes]
    | cons d ds ih =>
      intro c hc
      obtain ⟨w1, w2⟩ := hwrite c d hc
      have := ih (c.write H d).1 w1
      unfold ShardedClient.writes at this ⊢
      rw [List.foldl_cons, this, w2, List.append_assoc, ← List.filterMap_append]
      rfl
  have := hall datas (ShardedClient.init H clients') rfl
  rw [this]; rfl

/-- A write raises nothing when the message is delivered; `ValueError` when it has no `:` or a name that is not ASCII. -/
theorem C59_errors (H : Hashing N) (clients : List N) (hne : clients ≠ []) (datas : List Str) (d : Str) :
    let c := (ShardedClient.init H clients).writes H datas
    (c.write H d).2 = match metricName d with
      | some name => if isAscii name then none else some .valueError
      | none => some .valueError := by
  have hring : ((ShardedClient.init H clients).writes H datas).ring = HashRing.init H clients := by
    have : ∀ (ds : List Str) (c : ShardedClient N), (c.writes H ds).ring = c.ring := by
      intro ds
      induction ds with
      | nil => intro c; rfl
      | cons d ds ih =>
        intro c
        have h1 : (c.writes H (d :: ds)).ring = ((c.write H d).1.writes H ds).ring := rfl
        rw [h1, ih]
        unfold ShardedClient.write
        split
        · rfl
        · split <;> rfl
    rw [this]; rfl
  have hinit : HashRing.init H clients = HashRing.runOps H 1024 (clients.map .add) := by
    unfold HashRing.init HashRing.runOps
    rw [List.foldl_map]
  have hpres : ∃ n, n ∈ presentNodes (clients.map RingOp.add) := by
    obtain ⟨n, hn⟩ := List.exists_mem_of_ne_nil _ hne
    refine ⟨n, ?_⟩
    unfold presentNodes
    rw [List.foldl_map]
    have : ∀ (l acc : List N), n ∈ l.foldl (fun ns m => m :: ns) acc ↔ n ∈ l ∨ n ∈ acc := by
      intro l
      induction l with
      | nil => simp
      | cons a l ih => intro acc; simp only [List.foldl_cons]; rw [ih]; simp only [List.mem_cons]; tauto
    exact (this clients []).2 (Or.inl hn)
  obtain ⟨n0, hn0⟩ := hpres
  have hs := HashRing.split1_metricName d
  intro c
  have hc : c.ring = HashRing.runOps H 1024 (clients.map .add) := by rw [← hinit]; exact hring
  unfold ShardedClient.write
  cases h : split1 ':' d with
  | none => rw [h] at hs; simp only [Option.map_none] at hs; simp [← hs]
  | some p =>
    rw [h] at hs
    simp only [Option.map_some] at hs
    obtain ⟨nm, rest⟩ := p
    simp only at hs ⊢
    rw [← hs, hc]
    by_cases ha : isAscii nm = true
    · obtain ⟨e, _, _, h3⟩ := C55_owner H 1024 (by decide) (clients.map .add) (List.ne_nil_of_mem hn0) nm ha
      rw [h3]; simp [ha]
    · have hnil : (HashRing.runOps H 1024 (clients.map .add)).ring ≠ [] :=
        List.ne_nil_of_mem (((HashRing.good_run H 1024 (clients.map .add)).mem
          (H.hash (H.name n0 ++ c!":" ++ natStr 0), n0)).2
          ⟨(HashRing.mem_nodes_run H 1024 _ n0).2 hn0, 0, by decide, rfl⟩)
      have he : (HashRing.runOps H 1024 (clients.map .add)).getNode H nm = .error .valueError := by
        unfold HashRing.getNode HashRing.position; simp [hnil, ha]
      rw [he]; simp [ha]

/-- Two clients (with two replicas, to keep the example small); the message without `:` goes nowhere. -/
example : ((({ ring := HashRing.init exHashing [0, 5] 2, sent := [] } : ShardedClient Nat).writes exHashing
    [c!"req0:1|c", c!"req:2|c", c!"oops", c!"req0:7|ms"]).sent) = [(0, c!"req0:1|c"), (0, c!"req:2|c"), (0, c!"req0:7|ms")] ∧
    metricName c!"req0:1|c" = some c!"req0" := by decide +kernel

end Txstatsd
