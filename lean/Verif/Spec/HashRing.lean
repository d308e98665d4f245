import Verif.Model.HashRing

/-!
# Which node owns a key

Nodes are placed on a circle of positions; a key belongs to the first node found clockwise from the key's position.
-/

namespace Txstatsd
variable {N : Type} [LinearOrder N]

/-- Node `e.2` has a replica at position `e.1`. -/
def Placed (H : Hashing N) (replicas : Nat) (nodes : List N) (e : Nat × N) : Prop :=
  e.2 ∈ nodes ∧ ∃ i < replicas, e.1 = H.hash (H.name e.2 ++ c!":" ++ natStr i)

/-- Entry `a` comes no later than entry `b` on the line from 0; nodes at the same position are taken in the order of nodes. -/
def NoLater (a b : Nat × N) : Prop := a.1 < b.1 ∨ (a.1 = b.1 ∧ a.2 ≤ b.2)

/-- `e` is the first placed entry at or after `pos`, or, when there is none, the first one of all. -/
def FirstFrom (placed : Nat × N → Prop) (pos : Nat) (e : Nat × N) : Prop :=
  placed e ∧ ((pos ≤ e.1 ∧ ∀ f, placed f → pos ≤ f.1 → NoLater e f) ∨
    ((∀ f, placed f → f.1 < pos) ∧ ∀ f, placed f → NoLater e f))

/-- What is done to a ring. -/
inductive RingOp (N : Type)
  | add (n : N)
  | remove (n : N)

/-- The ring after some operations, from an empty one. -/
def HashRing.runOps (H : Hashing N) (replicas : Nat) (ops : List (RingOp N)) : HashRing N :=
  ops.foldl (fun r o => match o with | .add n => r.addNode H n | .remove n => r.removeNode n)
    { ring := [], nodes := [], replicaCount := replicas }

/-- The nodes present after some operations. -/
def presentNodes (ops : List (RingOp N)) : List N :=
  ops.foldl (fun ns o => match o with | .add n => n :: ns | .remove n => ns.filter (· ≠ n)) []

/-- The distinct elements of a list, each where it first occurs. -/
def firstOccurrences : List N → List N
  | [] => []
  | a :: l => a :: (firstOccurrences l).filter fun x => decide (x ≠ a)

/-- The metric name of a message: the text before the first `:`. -/
def metricName (data : Str) : Option Str :=
  if ':' ∈ data then some (data.takeWhile fun c => decide (c ≠ ':')) else none

/-- Some writes on a sharded client, errors being ignored by the caller. -/
def ShardedClient.writes (H : Hashing N) (c : ShardedClient N) (datas : List Str) : ShardedClient N :=
  datas.foldl (fun c d => (c.write H d).1) c

end Txstatsd
