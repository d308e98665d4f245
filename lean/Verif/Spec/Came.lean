import Verif.Model.Processor

/-!
# Plugin metrics that can come about
-/

namespace Txstatsd

/-- The plugin metrics of a name that can come about: built by a plugin with the prefix of its kind, then handed messages
and flushed any number of times, at any clock readings and in any worlds. -/
inductive Came {PF PM : Type} (ops : PluginOps PF PM) (pre : Str → Str) (key : Str) : PM → Prop
  | built (w : World) (n : Nat) (f : PF) : Came ops pre key (ops.build w n f (pre (ops.name f)) key)
  | processed {m : PM} (w : World) (n : Nat) (items : List Str) (h : Came ops pre key m) :
      Came ops pre key (ops.process w n m items).1
  | flushed {m : PM} (w : World) (n : Nat) (secs ts : ℤ) (h : Came ops pre key m) :
      Came ops pre key (ops.flush w n m secs ts).1

/-- The point is among those that some plugin metric makes when it is flushed. -/
def PluginPoint {PF PM : Type} (ops : PluginOps PF PM) (w : World) (pre : Str → Str) (secs ts : ℤ) (d : Datapoint) : Prop :=
  ∃ t key m l, Came ops pre key m ∧ (ops.flush w t m secs ts).2.2 = .ok l ∧ d ∈ l

/-- Some plugin metric raises the exception when it is flushed. -/
def PluginRaises {PF PM : Type} (ops : PluginOps PF PM) (w : World) (pre : Str → Str) (secs : ℤ) (e : PyErr) : Prop :=
  ∃ t key m ts, Came ops pre key m ∧ (ops.flush w t m secs ts).2.2 = .error e

/-- The prefix the default processor hands to a plugin of a kind: `stats.` and the kind. -/
def statsPrefix (kind : Str) : Str := c!"stats." ++ kind

end Txstatsd
