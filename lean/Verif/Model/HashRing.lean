import Verif.Model.Bisect

/-!
# `ConsistentHashRing` (hashing.py) and `ConsistentHashingClient` (client.py)

The first 32 bits of MD5 are an arbitrary function. Nodes are compared as Python 2 compares arbitrary objects: by some total
order in which `None` is the least object.
-/

namespace Txstatsd

/-- All characters are ASCII: what `key.encode('utf-8')` requires of a Python 2 byte string (it first decodes it as ASCII)
(hashing.py:36). -/
def isAscii (s : Str) : Bool := s.all fun c => decide (c.toNat < 128)

/-- The hash function, and how `"%s"` prints a node. Simplification: node names are ASCII, so that `add_node` does not raise
(hashing.py:35-38, 43). -/
structure Hashing (N : Type) where
  /-- `int(md5(key).hexdigest()[:8], 16)` -/
  hash : Str → Nat
  /-- `"%s" % node` -/
  name : N → Str
  ascii : ∀ n, isAscii (name n) = true

/-- `ConsistentHashRing` (hashing.py:27-32). `nodes` is the set, in insertion order. -/
structure HashRing (N : Type) where
  ring : List (Nat × N)
  nodes : List N
  replicaCount : Nat
  deriving DecidableEq, Repr

namespace HashRing
variable {N : Type} [LinearOrder N]

/-- `<` of entries: tuples compare lexicographically. `none` is Python's `None`, less than every node
(hashing.py:46, 56, 64). -/
def entryLt (a b : Nat × Option N) : Bool :=
  decide (a.1 < b.1) || (decide (a.1 = b.1) && match a.2, b.2 with
    | none, some _ => true
    | some x, some y => decide (x < y)
    | _, none => false)

/-- `entry` as an element that can be compared with a search entry (hashing.py:45). -/
def full (e : Nat × N) : Nat × Option N := (e.1, some e.2)

/-- `compute_ring_position` (hashing.py:34-37): `UnicodeDecodeError` (a `ValueError`) on non-ASCII keys. -/
def position (H : Hashing N) (key : Str) : Except PyErr Nat :=
  if isAscii key then .ok (H.hash key) else .error .valueError

/-- The key of a replica, `"%s:%d" % (node, i)` (hashing.py:42). -/
def replicaKey (H : Hashing N) (node : N) (i : Nat) : Str := H.name node ++ c!":" ++ natStr i

/-- The loop of `add_node` (hashing.py:41-45), `i` from `replica_count - k` on. -/
def addReplicas (H : Hashing N) (node : N) : List Nat → List (Nat × N) → List (Nat × N)
  | [], ring => ring
  | i :: is, ring =>
    addReplicas H node is (insort (fun a b => entryLt (full a) (full b)) ring (H.hash (replicaKey H node i), node))

/-- `add_node` (hashing.py:39-45). -/
def addNode (H : Hashing N) (r : HashRing N) (node : N) : HashRing N :=
  { r with
    nodes := if node ∈ r.nodes then r.nodes else r.nodes ++ [node]
    ring := addReplicas H node (List.range r.replicaCount) r.ring }

/-- `__init__` (hashing.py:27-32). -/
def init (H : Hashing N) (nodes : List N) (replicaCount : Nat := 1024) : HashRing N :=
  nodes.foldl (addNode H) { ring := [], nodes := [], replicaCount := replicaCount }

/-- `remove_node` (hashing.py:47-49). -/
def removeNode (r : HashRing N) (node : N) : HashRing N :=
  { r with
    nodes := r.nodes.filter fun n => n ≠ node
    ring := r.ring.filter fun e => e.2 ≠ node }

/-- `bisect.bisect_left(self.ring, (position, None)) % len(self.ring)` (hashing.py:55, 63). -/
def searchIndex (r : HashRing N) (pos : Nat) : Nat :=
  bisectLeft entryLt (r.ring.map full) (pos, none) % r.ring.length

/-- `get_node` (hashing.py:51-57). -/
def getNode (H : Hashing N) (r : HashRing N) (key : Str) : Except PyErr N :=
  if r.ring.isEmpty then .error .assertionError
  else match position H key with
    | .error e => .error e
    | .ok pos => match r.ring[r.searchIndex pos]? with
      | some e => .ok e.2
      | none => .error .indexError

/-- The loop of `get_nodes` (hashing.py:65-71). `none` when the fuel runs out (it never does, see `C58`). -/
def nodesLoop (r : HashRing N) (lastIndex : Nat) : Nat → Nat → List N → Option (List N)
  | 0, _, _ => none
  | fuel + 1, index, acc =>
    if acc.length < r.nodes.length ∧ index ≠ lastIndex then
      match r.ring[index]? with
      | none => none
      | some e =>
        nodesLoop r lastIndex fuel ((index + 1) % r.ring.length) (if e.2 ∈ acc then acc else acc ++ [e.2])
    else some acc

/-- `get_nodes` (hashing.py:59-72). On an empty ring `% 0` raises. -/
def getNodes (H : Hashing N) (r : HashRing N) (key : Str) : Except PyErr (List N) :=
  match position H key with
  | .error e => .error e
  | .ok pos =>
    if r.ring.length = 0 then .error .zeroDivisionError
    else
      let index := r.searchIndex pos
      -- `(index - 1) % len(ring)`: Python's `%` is never negative
      let lastIndex := (index + (r.ring.length - 1)) % r.ring.length
      match nodesLoop r lastIndex r.ring.length index [] with
      | some ns => .ok ns
      | none => .error .otherError

end HashRing

/-- `ConsistentHashingClient` (client.py:107-126): the ring of clients, and what reached each client: `(client, data)` in the
order sent. -/
structure ShardedClient (N : Type) where
  ring : HashRing N
  sent : List (N × Str)

namespace ShardedClient
variable {N : Type} [LinearOrder N]

/-- `__init__` (client.py:109-110). -/
def init (H : Hashing N) (clients : List N) : ShardedClient N := { ring := HashRing.init H clients, sent := [] }

/-- `write` (client.py:112-116). Unpacking the split raises `ValueError` without a `:`. -/
def write (H : Hashing N) (c : ShardedClient N) (data : Str) : ShardedClient N × Option PyErr :=
  match split1 ':' data with
  | none => (c, some .valueError)
  | some (metricName, _) =>
    match c.ring.getNode H metricName with
    | .error e => (c, some e)
    | .ok client => ({ c with sent := c.sent ++ [(client, data)] }, none)

end ShardedClient
end Txstatsd
