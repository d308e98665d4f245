import Verif.Model.Processor
import Verif.Spec.Configurable

/-!
# The life of a plugin metric
-/

namespace Txstatsd.Spec

/-- The messages of registered plugin types under a name. The four built-in types cannot be taken by a plugin. -/
def pluginMsgs {PF : Type} (plugins : Dict PF) (key : Str) (ms : List Str) : List Metric :=
  ms.filterMap fun msg => match parseMessage msg with
    | some m => if m.key = key ∧ m.mtype ∉ [c!"c", c!"ms", c!"g", c!"m"] ∧ (plugins.find m.mtype).isSome then some m else none
    | none => none

/-- The datapoints of a flush of a plugin metric: none if it raised. -/
def madeBy (r : Except PyErr (List Datapoint)) : List Datapoint :=
  match r with
  | .ok l => l
  | .error _ => []

/-- The life of the plugin metric of a name: it is built, with the prefix of its kind, by the plugin of the type of its first
message; after that it is handed messages and flushed in any order, each call with later clock readings than the one before.
`t` is a reading after all calls, `xs` are the messages, `gs` the groups of the flushes, and the last argument is the metric. -/
inductive PluginLife {PF PM : Type} (ops : PluginOps PF PM) (w : World) (plugins : Dict PF) (pre : Str → Str) (key : Str) :
    Nat → List Metric → List (List Datapoint) → PM → Prop
  | born {n t : Nat} {x : Metric} {f : PF} (hf : plugins.find x.mtype = some f)
      (ht : n + (ops.process w n (ops.build w n f (pre (ops.name f)) key) x.fields).2.1 ≤ t) :
      PluginLife ops w plugins pre key t [x] [] (ops.process w n (ops.build w n f (pre (ops.name f)) key) x.fields).1
  | message {t n t' : Nat} {xs : List Metric} {gs : List (List Datapoint)} {m : PM} (x : Metric)
      (h : PluginLife ops w plugins pre key t xs gs m) (hn : t ≤ n) (ht : n + (ops.process w n m x.fields).2.1 ≤ t') :
      PluginLife ops w plugins pre key t' (xs ++ [x]) gs (ops.process w n m x.fields).1
  | flush {t n t' : Nat} {xs : List Metric} {gs : List (List Datapoint)} {m : PM} (secs ts : ℤ)
      (h : PluginLife ops w plugins pre key t xs gs m) (hn : t ≤ n) (ht : n + (ops.flush w n m secs ts).2.1 ≤ t') :
      PluginLife ops w plugins pre key t' xs (gs ++ [madeBy (ops.flush w n m secs ts).2.2]) (ops.flush w n m secs ts).1

/-- A plugin metric that some life of the name leads to. -/
def Reachable {PF PM : Type} (ops : PluginOps PF PM) (w : World) (plugins : Dict PF) (pre : Str → Str) (key : Str) (m : PM) : Prop :=
  ∃ t xs gs, PluginLife ops w plugins pre key t xs gs m

/-- The point is made by a flush of the plugin metric of some name, which was handed exactly the messages of that name. -/
def ByPlugin {PF PM : Type} (ops : PluginOps PF PM) (w : World) (plugins : Dict PF) (pre : Str → Str) (msgs : List Str)
    (d : Datapoint) : Prop :=
  ∃ key m t gs n secs ts, PluginLife ops w plugins pre key t (pluginMsgs plugins key msgs) gs m ∧ t ≤ n ∧
    d ∈ madeBy (ops.flush w n m secs ts).2.2

/-- The plugin metrics of other names make no points that `keep` would take. -/
def OthersQuiet {PF PM : Type} (ops : PluginOps PF PM) (w : World) (plugins : Dict PF) (pre : Str → Str) (key : Str)
    (keep : Datapoint → Bool) : Prop :=
  ∀ k m, k ≠ key → Reachable ops w plugins pre k m → ∀ n secs ts, ∀ d ∈ madeBy (ops.flush w n m secs ts).2.2, keep d = false

/-- A point of the metric `key` under a prefix: the name is the prefix and a dot, if there is a prefix, then the key, a dot and
a word without a dot. -/
def ofKey (pre key : Str) (d : Datapoint) : Bool :=
  let base := (if pre = [] then [] else pre ++ ['.']) ++ key ++ ['.']
  base.isPrefixOf d.name && !(d.name.drop base.length).contains '.'

/-- The name is the prefix, a dot, a key with a message among `msgs` and a word. -/
def KeyName (pre : Str) (msgs : List Str) (n : Str) : Prop :=
  ∃ msg ∈ msgs, ∃ x, parseMessage msg = some x ∧ ∃ y, '.' ∉ y ∧ n = prefixed pre x.key ('.' :: y)

end Txstatsd.Spec
