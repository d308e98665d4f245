import Verif.Spec.Sharded
import Verif.Props.Ring
import Verif.Props.Balance

/-!
# C149: counting on several servers behind a sharded client
-/

set_option linter.unusedSectionVars false

namespace Txstatsd
open Spec
section
variable [Rounding] {PF PM N : Type} [LinearOrder N]

theorem servers_perm (sent : List (N × Str)) (clients : List N) (hnd : clients.Nodup) (h : ∀ p ∈ sent, p.1 ∈ clients) :
    (clients.flatMap (toServer sent)).Perm (sent.map Prod.snd) := by
  induction clients generalizing sent with
  | nil =>
    cases sent with
    | nil => exact .refl _
    | cons p _ => exact absurd (h p (by simp)) (by simp)
  | cons n cs ih =>
    rw [List.nodup_cons] at hnd
    have h1 := ih (sent.filter fun p => !decide (p.1 = n)) hnd.2 (by
      intro p hp
      obtain ⟨h1, h2⟩ := List.mem_filter.1 hp
      rcases List.mem_cons.1 (h p h1) with h3 | h3
      · simp [h3] at h2
      · exact h3)
    have h2 : cs.flatMap (toServer (sent.filter fun p => !decide (p.1 = n))) = cs.flatMap (toServer sent) := by
      have : ∀ m ∈ cs, toServer (sent.filter fun p => !decide (p.1 = n)) m = toServer sent m := by
        intro m hm
        unfold toServer
        rw [List.filter_filter]
        congr 1
        refine List.filter_congr fun p _ => ?_
        by_cases hp : p.1 = m
        · have : p.1 ≠ n := fun hn => hnd.1 (by rw [← hn, hp]; exact hm)
          simp [hp] at this ⊢; exact this
        · simp [hp]
      rw [List.flatMap_def, List.flatMap_def, List.map_congr_left this]
    rw [List.flatMap_cons, ← h2]
    refine (List.Perm.append_left _ h1).trans ?_
    unfold toServer
    rw [← List.map_append]
    exact (List.filter_append_perm (fun p : N × Str => decide (p.1 = n)) sent).map _

theorem sharded_sent (H : Hashing N) (clients : List N) (hne : clients ≠ []) :
    ∃ owner : Str → N, (∀ name, owner name ∈ clients) ∧ ∀ datas : List Str,
      ((ShardedClient.init H clients).writes H datas).sent =
        (sendable datas).map fun d => (owner ((metricName d).getD []), d) := by
  obtain ⟨owner, h1, h2⟩ := C59_sharding H clients hne
  refine ⟨owner, h1, fun datas => ?_⟩
  rw [h2 clients (fun _ => Iff.rfl)]
  induction datas with
  | nil => rfl
  | cons d ds ih =>
    rw [List.filterMap_cons, ih]
    unfold sendable
    rw [List.filter_cons]
    cases hm : metricName d with
    | none => simp
    | some name =>
      by_cases ha : isAscii name = true
      · simp [ha, hm]
      · simp [ha]

theorem parts_sum {qs a b : List (ℚ × ℚ)} (h : (a ++ b).Perm qs) :
    amount qs = amount a + amount b ∧ sizes qs = sizes a + sizes b := by
  constructor
  · unfold amount; rw [← (h.map _).sum_eq]; simp
  · unfold sizes; rw [← (h.map _).sum_eq]; simp

theorem addsUp_sub {qs a : List (ℚ × ℚ)} {c : ℚ} (hc : AddsUp c qs) (h : a.Subperm qs) : AddsUp c a :=
  fun b hb => hc b (hb.trans h)

/-- The counts of a server after a schedule. -/
theorem servers_balance (ops : PluginOps PF PM) (hq : Quiet ops c!"stats_counts.") (key : Str) (c : ℚ) (texts : N → List Str)
    (plugins : N → List PF) (w : N → World) (es : N → List Event) (clients : List N)
    (hes : ∀ n ∈ clients, WholeSecondSpawns (es n) ∧ (arrivals (es n)).Perm (texts n))
    (qs : List (ℚ × ℚ)) (hinc : FiniteIncrements key (clients.flatMap texts) qs) (hc : AddsUp c qs) :
    ∃ xs : List ℚ, List.Forall₂ (fun n x => SumOf (serverCounts ops (plugins n) (w n) (es n) key) x) clients xs ∧
      |xs.sum - amount qs| ≤ c * sizes qs := by
  induction clients generalizing qs with
  | nil =>
    have : qs = [] := by
      have := increments_unique hinc Increments.nil
      simpa using this
    subst this
    exact ⟨[], .nil, by simp [amount, sizes]⟩
  | cons n cs ih =>
    obtain ⟨qa, qb, h1, h2, h3⟩ := finite_parts (.refl _) (by simpa [List.flatMap_cons] using hinc)
    obtain ⟨xs, h4, h5⟩ := ih (fun m hm => hes m (by simp [hm])) qb h2
      (addsUp_sub hc ((List.sublist_append_right qa qb).subperm.trans h3.subperm))
    obtain ⟨hw, hp⟩ := hes n (by simp)
    obtain ⟨qa', h6, h7⟩ : ∃ qa', FiniteIncrements key (arrivals (es n)) qa' ∧ qa'.Perm qa := by
      obtain ⟨x, y, e1, e2, e3⟩ := finite_parts (a := arrivals (es n)) (b := []) (by simpa using hp) h1
      have : y = [] := by
        have := increments_unique e2 Increments.nil
        simpa using this
      subst this
      exact ⟨x, e1, by simpa using e3⟩
    obtain ⟨x, h8, h9⟩ := schedule_balance ops hq (plugins n) (w n) (es n) hw key c qa' h6
      (addsUp_sub hc (h7.subperm.trans ((List.sublist_append_left qa qb).subperm.trans h3.subperm)))
    refine ⟨x :: xs, .cons h8 h4, ?_⟩
    obtain ⟨a1, a2⟩ := parts_sum h3
    obtain ⟨b1, b2⟩ := parts_sum (qs := qa) (a := qa') (b := []) (by simpa using h7)
    have z1 : amount [] = 0 := rfl
    have z2 : sizes [] = 0 := rfl
    rw [z1, add_zero] at b1
    rw [z2, add_zero] at b2
    rw [a1, a2, b1, b2, List.sum_cons]
    have e : x + xs.sum - (amount qa' + amount qb) = (x - amount qa') + (xs.sum - amount qb) := by ring
    rw [e, mul_add]
    exact (abs_add_le _ _).trans (add_le_add h9 h5)

/-- C149: clients that write to several servers through consistent hashing: whatever the network does to the order, all the
increments of a counter that can be sent are counted, once, on the servers together (up to the error of the arithmetic), in any
schedule of each server. -/
theorem C149_total (H : Hashing N) (clients : List N) (hne : clients ≠ []) (hnd : clients.Nodup) (datas : List Str)
    (ops : PluginOps PF PM) (hq : Quiet ops c!"stats_counts.") (plugins : N → List PF) (w : N → World) (es : N → List Event)
    (hes : ∀ n ∈ clients, WholeSecondSpawns (es n) ∧
      (arrivals (es n)).Perm (toServer ((ShardedClient.init H clients).writes H datas).sent n))
    (key : Str) (c : ℚ) (qs : List (ℚ × ℚ)) (hinc : FiniteIncrements key (sendable datas) qs) (hc : AddsUp c qs) :
    ∃ xs : List ℚ, List.Forall₂ (fun n x => SumOf (serverCounts ops (plugins n) (w n) (es n) key) x) clients xs ∧
      |xs.sum - amount qs| ≤ c * sizes qs := by
  obtain ⟨owner, h1, h2⟩ := sharded_sent H clients hne
  rw [h2] at hes
  have hp := servers_perm ((sendable datas).map fun d => (owner ((metricName d).getD []), d)) clients hnd (by
    intro p hp
    obtain ⟨d, _, rfl⟩ := List.mem_map.1 hp
    exact h1 _)
  rw [List.map_map] at hp
  have hid : (Prod.snd ∘ fun d => (owner ((metricName d).getD []), d)) = id := rfl
  rw [hid, List.map_id] at hp
  obtain ⟨qs', y, h3, h4, h5⟩ := finite_parts (b := []) (by simpa using hp) hinc
  have : y = [] := by
    have := increments_unique h4 Increments.nil
    simpa using this
  subst this
  rw [List.append_nil] at h5
  obtain ⟨xs, h6, h7⟩ := servers_balance ops hq key c _ plugins w es clients hes qs' h3 (addsUp_sub hc h5.subperm)
  refine ⟨xs, h6, ?_⟩
  obtain ⟨b1, b2⟩ := parts_sum (qs := qs) (a := qs') (b := []) (by simpa using h5)
  have z1 : amount [] = 0 := rfl
  have z2 : sizes [] = 0 := rfl
  rw [b1, b2, z1, z2, add_zero, add_zero]
  exact h7

/-- C149: if all the increments of a counter are written under one name, one server counts them all, and every other server has
nothing but zeros for it. -/
theorem C149_one (H : Hashing N) (clients : List N) (hne : clients ≠ []) (datas : List Str)
    (ops : PluginOps PF PM) (hq : Quiet ops c!"stats_counts.") (plugins : N → List PF) (w : N → World) (es : N → List Event)
    (hes : ∀ n ∈ clients, WholeSecondSpawns (es n) ∧
      (arrivals (es n)).Perm (toServer ((ShardedClient.init H clients).writes H datas).sent n))
    (key name : Str) (hname : ∀ d ∈ datas, ∀ v r, Increment d key v r → metricName d = some name)
    (c : ℚ) (qs : List (ℚ × ℚ)) (hinc : FiniteIncrements key (sendable datas) qs) (hc : AddsUp c qs) :
    ∃ n ∈ clients, (∃ x, SumOf (serverCounts ops (plugins n) (w n) (es n) key) x ∧ |x - amount qs| ≤ c * sizes qs) ∧
      ∀ m ∈ clients, m ≠ n → ∀ v ∈ serverCounts ops (plugins m) (w m) (es m) key, v = .int 0 := by
  obtain ⟨owner, h1, h2⟩ := sharded_sent H clients hne
  rw [h2] at hes
  refine ⟨owner name, h1 name, ?_, ?_⟩
  · obtain ⟨hw, hp⟩ := hes _ (h1 name)
    have hs : ∀ l : List Str, (∀ d ∈ l, d ∈ datas) → ∀ incs, Increments key l incs →
        Increments key (toServer (l.map fun d => (owner ((metricName d).getD []), d)) (owner name)) incs := by
      intro l
      induction l with
      | nil => intro _ incs h; cases h; exact .nil
      | cons d l ih =>
        intro hl incs h
        have e : toServer ((d :: l).map fun d => (owner ((metricName d).getD []), d)) (owner name) =
            (if owner ((metricName d).getD []) = owner name then [d] else []) ++
              toServer (l.map fun d => (owner ((metricName d).getD []), d)) (owner name) := by
          unfold toServer
          rw [List.map_cons, List.filter_cons]
          by_cases hd : owner ((metricName d).getD []) = owner name <;> simp [hd]
        rw [e]
        cases h with
        | hit hi hr =>
          rw [if_pos (by rw [hname d (hl d (by simp)) _ _ hi]; rfl)]
          exact .hit hi (ih (fun d hd => hl d (by simp [hd])) _ hr)
        | skip hi hr =>
          split_ifs
          · exact .skip hi (ih (fun d hd => hl d (by simp [hd])) _ hr)
          · exact ih (fun d hd => hl d (by simp [hd])) _ hr
    obtain ⟨qs', y, h3, h4, h5⟩ := finite_parts (a := arrivals (es (owner name))) (b := []) (by rw [List.append_nil]; exact hp)
      (hs _ (fun d hd => (List.mem_filter.1 hd).1) _ hinc)
    have : y = [] := by
      have := increments_unique h4 Increments.nil
      simpa using this
    subst this
    rw [List.append_nil] at h5
    obtain ⟨x, h6, h7⟩ := schedule_balance ops hq (plugins (owner name)) (w (owner name)) (es (owner name)) hw key c qs' h3
      (addsUp_sub hc h5.subperm)
    refine ⟨x, h6, ?_⟩
    obtain ⟨b1, b2⟩ := parts_sum (qs := qs) (a := qs') (b := []) (by simpa using h5)
    have z1 : amount [] = 0 := rfl
    have z2 : sizes [] = 0 := rfl
    rw [b1, b2, z1, z2, add_zero, add_zero]
    exact h7
  · intro m hm hmn v hv
    obtain ⟨hw, hp⟩ := hes m hm
    obtain ⟨_, _, blocks, last, g1, g2, g3, _⟩ := schedule_conservation ops hq (plugins m) (w m) (es m) hw key
    have hno : ∀ d ∈ arrivals (es m), ∀ v r, ¬ Increment d key v r := by
      intro d hd v r hi
      have := hp.mem_iff.1 hd
      simp only [toServer, List.mem_map, List.mem_filter, decide_eq_true_eq, Prod.exists] at this
      obtain ⟨n', d', ⟨⟨d'', hd'', heq⟩, hn'⟩, rfl⟩ := this
      simp only [Prod.mk.injEq] at heq
      obtain ⟨e1, rfl⟩ := heq
      have := hname d'' (List.mem_filter.1 hd'').1 v r hi
      rw [this, Option.getD_some] at e1
      exact hmn (by rw [← hn', e1])
    have hnil : Increments key (arrivals (es m)) [] := by
      generalize arrivals (es m) = l at hno
      induction l with
      | nil => exact .nil
      | cons d l ih => exact .skip (hno d (by simp)) (ih fun d hd => hno d (by simp [hd]))
    have hu := increments_unique g1 hnil
    rw [List.append_eq_nil_iff] at hu
    unfold serverCounts countsAt at hv
    simp only [List.mem_append, List.mem_singleton] at hv
    rcases hv with hv | hv
    · rw [g2.mem_iff] at hv
      obtain ⟨b, hb, rfl⟩ := List.mem_map.1 hv
      rw [List.flatten_eq_nil_iff.1 hu.1 b hb]
      rfl
    · rw [hv, g3, hu.2]; rfl

end

section
attribute [local instance] ratRounding

/-- A hash that tells apart names that the server takes for the same. -/
def slashHashing : Hashing Nat where
  hash s := if s.head? = some '/' ∨ s.head? = some 'b' then 1 else 0
  name n := if n = 0 then c!"a" else c!"b"
  ascii n := by by_cases h : n = 0 <;> simp [h] <;> decide

theorem slash_owner (key : Str) (ha : isAscii key = true) :
    (HashRing.init slashHashing [0, 5]).getNode slashHashing key = .ok (if slashHashing.hash key = 1 then 5 else 0) := by
  have hi : HashRing.init slashHashing [0, 5] = HashRing.runOps slashHashing 1024 [.add 0, .add 5] := rfl
  rw [hi]
  obtain ⟨⟨pos, n⟩, ⟨hpl, hfirst⟩, hn, h3⟩ := C55_owner slashHashing 1024 (by decide) [.add 0, .add 5] (by decide) key ha
  rw [h3]
  have hpn : presentNodes [RingOp.add 0, RingOp.add 5] = [5, 0] := by decide
  rw [hpn] at *
  have hplaced : ∀ p m, Placed slashHashing 1024 [5, 0] (p, m) ↔ (p = 0 ∧ m = 0) ∨ (p = 1 ∧ m = 5) := by
    intro p m
    unfold Placed
    constructor
    · rintro ⟨h1, i, _, h2⟩
      simp only [List.mem_cons, List.not_mem_nil, or_false] at h1
      rcases h1 with rfl | rfl
      · right; exact ⟨h2, rfl⟩
      · left; exact ⟨h2, rfl⟩
    · rintro (⟨rfl, rfl⟩ | ⟨rfl, rfl⟩)
      · exact ⟨by simp, 0, by decide, rfl⟩
      · exact ⟨by simp, 0, by decide, rfl⟩
  have hh : slashHashing.hash key = 0 ∨ slashHashing.hash key = 1 := by
    unfold slashHashing; simp only; split_ifs <;> simp
  rcases (hplaced pos n).1 hpl with ⟨rfl, rfl⟩ | ⟨rfl, rfl⟩
  · rcases hh with h | h
    · simp [h]
    · rw [h] at hfirst
      rcases hfirst with ⟨h1, _⟩ | ⟨h1, _⟩
      · simp at h1
      · have := h1 (1, 5) ((hplaced 1 5).2 (Or.inr ⟨rfl, rfl⟩)); simp at this
  · rcases hh with h | h
    · rw [h] at hfirst
      rcases hfirst with ⟨_, h1⟩ | ⟨h1, _⟩
      · have := h1 (0, 0) ((hplaced 0 0).2 (Or.inl ⟨rfl, rfl⟩)) (by simp)
        unfold NoLater at this; simp at this
      · have := h1 (0, 0) ((hplaced 0 0).2 (Or.inl ⟨rfl, rfl⟩)); simp at this
    · simp [h]

theorem writes_two (H : Hashing Nat) (r : HashRing Nat) {a b x y x' y' : Str} {m n : Nat} (h1 : r.getNode H x = .ok m)
    (h2 : r.getNode H y = .ok n) (e1 : split1 ':' a = some (x, x')) (e2 : split1 ':' b = some (y, y')) :
    (({ ring := r, sent := [] } : ShardedClient Nat).writes H [a, b]).sent = [(m, a), (n, b)] := by
  simp [ShardedClient.writes, ShardedClient.write, e1, e2, h1, h2]

theorem slash_sent : ((ShardedClient.init slashHashing [0, 5]).writes slashHashing [c!"/x:1|c", c!"-x:1|c"]).sent =
    [(5, c!"/x:1|c"), (0, c!"-x:1|c")] := by
  have h1 := slash_owner c!"/x" (by decide)
  have h2 := slash_owner c!"-x" (by decide)
  rw [show slashHashing.hash c!"/x" = 1 by decide, if_pos rfl] at h1
  rw [show slashHashing.hash c!"-x" = 0 by decide, if_neg (by decide)] at h2
  unfold ShardedClient.init
  exact writes_two slashHashing _ h1 h2 (x' := c!"1|c") (y' := c!"1|c") (by decide) (by decide)

/-- C149: without that, a counter may be split: names that the server takes for the same one can belong to different servers. -/
theorem C149_one_refuted : ¬ ∀ (H : Hashing Nat) (clients : List Nat), clients ≠ [] → ∀ (datas : List Str) (key : Str),
    ∃ n ∈ clients, ∀ m ∈ clients, m ≠ n →
      ∀ d ∈ toServer ((ShardedClient.init H clients).writes H datas).sent m, ∀ v r, ¬ Increment d key v r := by
  intro h
  obtain ⟨n, hn, hm⟩ := h slashHashing [0, 5] (by decide) [c!"/x:1|c", c!"-x:1|c"] c!"-x"
  rw [slash_sent] at hm
  have i1 : Increment c!"/x:1|c" c!"-x" (.fin 1) (.fin 1) := increment_of (by decide +kernel)
  have i2 : Increment c!"-x:1|c" c!"-x" (.fin 1) (.fin 1) := increment_of (by decide +kernel)
  simp only [List.mem_cons, List.not_mem_nil, or_false] at hn
  rcases hn with rfl | rfl
  · exact hm 5 (by decide) (by decide) _ (by decide) _ _ i1
  · exact hm 0 (by decide) (by decide) _ (by decide) _ _ i2

/-! ## The hypotheses can be met -/

/-- Two servers; the second has flushed once between. -/
def exShards : Nat → List Event
  | 5 => [.arrive c!"/x:1|c", .spawn 1000 90]
  | 0 => [.arrive c!"-x:1|c"]
  | _ => []

example : ∀ n ∈ [0, 5], WholeSecondSpawns (exShards n) ∧ (arrivals (exShards n)).Perm
    (toServer ((ShardedClient.init slashHashing [0, 5]).writes slashHashing [c!"/x:1|c", c!"-x:1|c"]).sent n) := by
  rw [slash_sent]
  intro n hn
  simp only [List.mem_cons, List.not_mem_nil, or_false] at hn
  rcases hn with rfl | rfl
  · exact ⟨by intro i p h; simp [exShards] at h, by decide⟩
  · refine ⟨?_, by decide⟩
    intro i p h
    simp [exShards] at h
    omega

example : FiniteIncrements c!"-x" (sendable [c!"/x:1|c", c!"-x:1|c", c!"junk"]) [(1, 1), (1, 1)] := by
  have e : sendable [c!"/x:1|c", c!"-x:1|c", c!"junk"] = [c!"/x:1|c", c!"-x:1|c"] := by decide
  rw [e]
  exact .hit (increment_of (by decide +kernel)) (.hit (increment_of (by decide +kernel)) .nil)

end
end Txstatsd
