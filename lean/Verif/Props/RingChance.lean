import Verif.Lemmas.RingChance
import Verif.Lemmas.Text

/-!
# C155: how evenly a ring spreads the keys
-/

namespace Txstatsd
open Spec

section
variable {N : Type} [LinearOrder N] [Fintype N] {R P : ℕ}

/-- C155 (the part that holds): if the positions of the replicas are random, the chance of a node to own a key is the same for all
nodes up to `(nodes - 1) * replicas / positions`: no more than that over a fair share, and no more than that under it. `G` gives a hash
for each way to place the replicas. -/
theorem C155_share_partial (hR : 1 ≤ R) (key : Str) (hk : isAscii key = true) (p : ℕ) (G : Placing N R P → Hashing N)
    (hG : ∀ w, HashesTo (G w) key p w) (ops : List (RingOp N)) (hall : ∀ n, n ∈ presentNodes ops) (a : N) :
    let total := Fintype.card (Placing N R P)
    let c := Fintype.card N
    let mine := howMany fun w => (HashRing.runOps (G w) R ops).getNode (G w) key = .ok a
    c * mine * P ≤ total * P + c * ((c - 1) * R * total) ∧ total * P ≤ c * mine * P + c * ((c - 1) * R * total) := by
  intro total c mine
  have e : mine = howMany fun w : Placing N R P => OwnsAt w p a := howMany_congr fun w => owner_iff hk (hG w) hR ops hall a
  rw [e]
  exact share_close hR p a

/-- C155: any two nodes differ by no more than that. -/
theorem C155_pair (hR : 1 ≤ R) (key : Str) (hk : isAscii key = true) (p : ℕ) (G : Placing N R P → Hashing N)
    (hG : ∀ w, HashesTo (G w) key p w) (ops : List (RingOp N)) (hall : ∀ n, n ∈ presentNodes ops) (a b : N) :
    howMany (fun w => (HashRing.runOps (G w) R ops).getNode (G w) key = .ok a) * P ≤
      howMany (fun w => (HashRing.runOps (G w) R ops).getNode (G w) key = .ok b) * P +
        (Fintype.card N - 1) * R * Fintype.card (Placing N R P) := by
  rw [howMany_congr fun w => owner_iff hk (hG w) hR ops hall a, howMany_congr fun w => owner_iff hk (hG w) hR ops hall b]
  exact owns_close p a b

/-- C155: a node that comes earlier in the order of nodes owns the key at least as often as a later one. -/
theorem C155_order (hR : 1 ≤ R) (key : Str) (hk : isAscii key = true) (p : ℕ) (G : Placing N R P → Hashing N)
    (hG : ∀ w, HashesTo (G w) key p w) (ops : List (RingOp N)) (hall : ∀ n, n ∈ presentNodes ops) (a b : N) (hab : a < b) :
    howMany (fun w => (HashRing.runOps (G w) R ops).getNode (G w) key = .ok b) ≤
      howMany (fun w => (HashRing.runOps (G w) R ops).getNode (G w) key = .ok a) := by
  rw [howMany_congr fun w => owner_iff hk (hG w) hR ops hall a, howMany_congr fun w => owner_iff hk (hG w) hR ops hall b]
  exact owns_le hab p

/-- C155: the chances are never quite the same. The first node in the order of nodes owns a key strictly more often than any
other: where two nodes have the same position, it is always the earlier one that gets the key. -/
theorem C155_first (hR : 1 ≤ R) (key : Str) (hk : isAscii key = true) (p : ℕ) (hp : p < P) (G : Placing N R P → Hashing N)
    (hG : ∀ w, HashesTo (G w) key p w) (ops : List (RingOp N)) (hall : ∀ n, n ∈ presentNodes ops) (a b : N) (hab : a < b)
    (hleast : ∀ n, a ≤ n) :
    howMany (fun w => (HashRing.runOps (G w) R ops).getNode (G w) key = .ok b) <
      howMany (fun w => (HashRing.runOps (G w) R ops).getNode (G w) key = .ok a) := by
  rw [howMany_congr fun w => owner_iff hk (hG w) hR ops hall a, howMany_congr fun w => owner_iff hk (hG w) hR ops hall b]
  exact owns_lt hab hR p hp hleast

/-- C155: with 1024 replicas and positions of 32 bits, as in the code, the shares of `c` nodes are fair up to `(c - 1) / 4194304`. -/
theorem C155_default_partial (key : Str) (hk : isAscii key = true) (p : ℕ) (G : Placing N 1024 (2 ^ 32) → Hashing N)
    (hG : ∀ w, HashesTo (G w) key p w) (nodes : List N) (hall : ∀ n, n ∈ nodes) (a : N) :
    let total := Fintype.card (Placing N 1024 (2 ^ 32))
    let c := Fintype.card N
    let mine := howMany fun w => (HashRing.init (G w) nodes).getNode (G w) key = .ok a
    c * mine * 4194304 ≤ total * 4194304 + c * ((c - 1) * total) ∧ total * 4194304 ≤ c * mine * 4194304 + c * ((c - 1) * total) := by
  intro total c mine
  have hinit : ∀ H : Hashing N, HashRing.init H nodes = HashRing.runOps H 1024 (nodes.map .add) := by
    intro H
    unfold HashRing.init HashRing.runOps
    rw [List.foldl_map]
  have hpres : ∀ n, n ∈ presentNodes (nodes.map RingOp.add) := by
    intro n
    have : ∀ (l acc : List N), n ∈ l ∨ n ∈ acc →
        n ∈ (l.map RingOp.add).foldl (fun ns o => match o with | .add n => n :: ns | .remove n => ns.filter (· ≠ n)) acc := by
      intro l
      induction l with
      | nil => intro acc h; simpa using h
      | cons x l ih =>
        intro acc h
        refine ih (x :: acc) ?_
        simp only [List.mem_cons] at h ⊢
        tauto
    exact this nodes [] (Or.inl (hall n))
  have h := C155_share_partial (by decide) key hk p G hG (nodes.map .add) hpres a
  have e : mine = howMany fun w => (HashRing.runOps (G w) 1024 (nodes.map .add)).getNode (G w) key = .ok a := by
    refine howMany_congr fun w => ?_
    rw [hinit]
  rw [e]
  simp only at h
  change _ ≤ total * _ + c * ((c - 1) * 1024 * total) ∧ total * _ ≤ _ + c * ((c - 1) * 1024 * total) at h
  generalize (howMany fun w => (HashRing.runOps (G w) 1024 (nodes.map .add)).getNode (G w) key = .ok a) = x at *
  exact scaled (Q := 2 ^ 32) (s := 4194304) (k := 1024) (by norm_num) (by norm_num) (c * x) total (c - 1) c h.1 h.2

end

/-- A hash for two nodes, `a` and `b`, and a key, with the replicas anywhere. -/
def exSpread {R P : ℕ} (p : ℕ) (w : Placing (Fin 2) R P) : Hashing (Fin 2) where
  hash s := match s with
    | c :: ':' :: r => if h : digitsVal r < R then w (if c = 'a' then 0 else 1, ⟨digitsVal r, h⟩) else p
    | _ => p
  name n := if n = 0 then c!"a" else c!"b"
  ascii n := by by_cases h : n = 0 <;> simp [h] <;> decide

theorem exSpread_hashes {R P : ℕ} (p : ℕ) (w : Placing (Fin 2) R P) : HashesTo (exSpread p w) c!"k" p w := by
  refine ⟨rfl, fun n i => ?_⟩
  have hi : digitsVal (natStr i) < R := by rw [digitsVal_natStr]; exact i.isLt
  have he : (⟨digitsVal (natStr i), hi⟩ : Fin R) = i := Fin.ext (digitsVal_natStr i)
  by_cases hn : n = 0
  · subst hn
    show ((if h : digitsVal (natStr i) < R then (w (if 'a' = 'a' then 0 else 1, ⟨digitsVal (natStr i), h⟩) : ℕ) else p)) = _
    rw [dif_pos hi, he]; rfl
  · have hn1 : n = 1 := by omega
    subst hn1
    show ((if h : digitsVal (natStr i) < R then (w (if 'b' = 'a' then 0 else 1, ⟨digitsVal (natStr i), h⟩) : ℕ) else p)) = _
    rw [dif_pos hi, he]; rfl

/-- C155 (refuted): two nodes do not have quite the same chance to own a key. -/
theorem C155_refuted : ¬ ∀ (key : Str) (p : ℕ) (G : Placing (Fin 2) 1024 (2 ^ 32) → Hashing (Fin 2)), isAscii key = true →
    (∀ w, HashesTo (G w) key p w) → ∀ a b : Fin 2,
    howMany (fun w => (HashRing.runOps (G w) 1024 [.add 0, .add 1]).getNode (G w) key = .ok a) =
      howMany (fun w => (HashRing.runOps (G w) 1024 [.add 0, .add 1]).getNode (G w) key = .ok b) := by
  intro h
  have h1 := h c!"k" 7 (exSpread 7) (by decide) (exSpread_hashes 7) 0 1
  have h2 := C155_first (N := Fin 2) (R := 1024) (P := 2 ^ 32) (by decide) c!"k" (by decide) 7 (by norm_num) (exSpread 7)
    (exSpread_hashes 7) [.add 0, .add 1] (Fin.forall_fin_two.2 ⟨by decide, by decide⟩) 0 1 (by decide) (fun n => Fin.zero_le n)
  exact absurd h1 (ne_of_gt h2)

/-- Two nodes with 1024 replicas each. -/
example : (∀ w : Placing (Fin 2) 1024 (2 ^ 32), HashesTo (exSpread 7 w) c!"k" 7 w) ∧ isAscii c!"k" = true ∧
    ∀ n : Fin 2, n ∈ [(0 : Fin 2), 1] := ⟨exSpread_hashes 7, by decide, by decide⟩

end Txstatsd
