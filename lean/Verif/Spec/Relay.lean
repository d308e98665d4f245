import Verif.Spec.App
import Verif.Spec.Router

/-!
# Services with routing rules, and one behind the other
-/

namespace Txstatsd.Spec
variable {R : Type}

/-- The message a server without rules would have to receive for a routed metric: its type stands in the place of the type. -/
def asTyped (m : Metric) : Str := textOf { m with fields := m.fields.set 1 m.mtype }

/-- What the rules make of texts: the messages for a server without rules. Texts that are no messages have none. -/
noncomputable def routedTexts (rx : Regexes R) (rules : List (Rule R)) (texts : List Str) : List Str :=
  texts.flatMap fun t => match parseMessage t with
    | none => []
    | some m => (routed rx rules [m]).map asTyped

/-- What the rules send away for texts. -/
noncomputable def sentTexts (rx : Regexes R) (rules : List (Rule R)) (texts : List Str) : List (Sink × Str) :=
  texts.flatMap fun t => match parseMessage t with
    | none => []
    | some m => sentAway rx rules [m]

/-- The texts sent to one destination. -/
def sentTo (k : Sink) (sent : List (Sink × Str)) : List Str := (sent.filter fun p => decide (p.1 = k)).map Prod.snd

/-- The rules set no other types than the built-in ones. -/
def KnownTypes (rules : List (Rule R)) : Prop :=
  ∀ r ∈ rules, match r.target with
    | .setType t _ => t ∈ [c!"c", c!"ms", c!"g", c!"m"]
    | _ => True

section
variable [Rounding] {PF PM : Type}

/-- Everything a service with the default processor has counted under a name: what it sent to carbon, what its flushes are about
to send, and what it holds. -/
def countedAt (key : Str) (v : App (MPState PF PM)) : ℚ :=
  ((named (c!"stats_counts." ++ key) v.out).map fun d => d.value.rat).sum +
  ((named (c!"stats_counts." ++ key) (underWay v.gens)).map fun d => d.value.rat).sum +
  ((v.ps.counters.find key).getD (.int 0)).rat

/-- The sum of value/rate over increments. -/
def amount (qs : List (ℚ × ℚ)) : ℚ := (qs.map fun p => p.1 / p.2).sum

/-- A text for a plugin does no harm to a counter: the plugin cannot raise on it, or the rules make no increment of the counter
out of it. -/
def Harmless (ops : PluginOps PF PM) (rx : Regexes R) (rules : List (Rule R)) (key t : Str) : Prop :=
  ∀ x, parseMessage t = some x → x.mtype ∉ [c!"c", c!"ms", c!"g", c!"m"] →
    (∀ w n m, (ops.process w n m x.fields).2.2 = none) ∨ ∀ u ∈ routedTexts rx rules [t], ∀ v r, ¬ Increment u key v r

/-- The increments of a name in some texts, all of them finite. -/
def FiniteIncrements (key : Str) (texts : List Str) (qs : List (ℚ × ℚ)) : Prop :=
  Increments key texts (qs.map fun p => (.fin p.1, .fin p.2))

end
end Txstatsd.Spec
