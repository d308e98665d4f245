import Verif.Lemmas.ReceiveConf
import Verif.Props.Missed

/-!
# C167: the receive statistics of a configurable processor
-/

set_option linter.unusedVariables false

namespace Txstatsd
open Spec
section
variable [Rounding] {PF PM : Type}

/-- C167, in every schedule: the messages of a type handled are those whose count is stored and those whose count was wiped. -/
theorem C167_wiped (ops : PluginOps PF PM) (pre int : Str) (plugins : List PF) (w : World) (es : List Event) (t : Str) :
    ((((startUp (CPState.init ops plugins)).run (configurable ops pre int) w es).ps.byType.find t).getD 0) +
      wipedIn (configurable ops pre int) w t (startUp (CPState.init ops plugins)) es =
      handledIn (configurable ops pre int) w t (startUp (CPState.init ops plugins)) es := by
  have := wiped_runI (cp_tracked ops pre int w fun _ => True) t es (fun _ _ => trivial) (startUp (CPState.init ops plugins))
    (ofOk_init ops pre plugins _)
  simpa [startUp, CPState.init, Dict.find] using this

/-- C167, under arrivals: if nothing that arrives makes a datapoint called like the count, then whenever no flush is reporting the receive
statistics, the reported counts of a type, the count stored and the messages of that type that arrived between a flush's reading of the
count and its end make up the messages handled. -/
theorem C167_missed (ops : PluginOps PF PM) (pre int : Str) (plugins : List PF) (w : World) (es : List Event) (t : Str)
    (hq : PluginsUnlike ops pre (ownCount pre int t)) (hm : ∀ m ∈ arrivals es, Unlike pre (ownCount pre int t) m) :
    let v := (startUp (CPState.init ops plugins)).run (configurable ops pre int) w es
    Solo (configurable ops pre int) w (startUp (CPState.init ops plugins)) es → (∀ g ∈ v.gens, ¬ Receiving g.pc) →
    ((named (ownCount pre int t) v.out).map fun d => d.value.rat).sum + ((v.ps.byType.find t).getD 0 : Nat) +
      missedIn (configurable ops pre int) w t (startUp (CPState.init ops plugins)) es =
      handledIn (configurable ops pre int) w t (startUp (CPState.init ops plugins)) es := by
  intro v hc hr
  have h0 : BalancedI (configurable ops pre int) t (startUp (CPState.init ops plugins)) 0 := by
    refine ⟨by intro g hg; simp [startUp] at hg, Or.inl ⟨by intro g hg; simp [startUp] at hg, ?_⟩⟩
    simp [startUp, recvSumI, named, CPState.init]
  obtain ⟨h', ⟨_, h⟩, he⟩ := missed_runI (cp_tracked ops pre int w _) (cp_clean ops pre int w t hq) es
    (fun m h => hm m (List.mem_filterMap.2 ⟨_, h, rfl⟩)) (startUp (CPState.init ops plugins)) 0 (ofOk_init ops pre plugins _) h0 hc
  rw [Nat.zero_add] at he
  rcases h with ⟨_, h⟩ | ⟨i, _, _, _, _, _, _, hg, _⟩
  · have he' : (h' : ℚ) + missedIn (configurable ops pre int) w t (startUp (CPState.init ops plugins)) es =
        handledIn (configurable ops pre int) w t (startUp (CPState.init ops plugins)) es := by exact_mod_cast he
    rw [← he', ← h, ← ownCount_eq ops]
    rfl
  · exact absurd trivial (hr _ (List.mem_of_getElem? hg))

/-- C167, the exact balance: if, besides, nothing arrives and no other flush advances while a flush reports the receive statistics, then
nothing is missed. -/
theorem C167_partial (ops : PluginOps PF PM) (pre int : Str) (plugins : List PF) (w : World) (es : List Event) (t : Str)
    (hq : PluginsUnlike ops pre (ownCount pre int t)) (hm : ∀ m ∈ arrivals es, Unlike pre (ownCount pre int t) m) :
    let v := (startUp (CPState.init ops plugins)).run (configurable ops pre int) w es
    Spec.Calm (configurable ops pre int) w (startUp (CPState.init ops plugins)) es → (∀ g ∈ v.gens, ¬ Receiving g.pc) →
    ((named (ownCount pre int t) v.out).map fun d => d.value.rat).sum + ((v.ps.byType.find t).getD 0 : Nat) =
      handledIn (configurable ops pre int) w t (startUp (CPState.init ops plugins)) es := by
  intro v hc hr
  have h0 : BalancedI (configurable ops pre int) t (startUp (CPState.init ops plugins)) 0 := by
    refine ⟨by intro g hg; simp [startUp] at hg, Or.inl ⟨by intro g hg; simp [startUp] at hg, ?_⟩⟩
    simp [startUp, recvSumI, named, CPState.init]
  obtain ⟨_, h⟩ := balanced_runI (cp_tracked ops pre int w _) (cp_clean ops pre int w t hq) es
    (fun m h => hm m (List.mem_filterMap.2 ⟨_, h, rfl⟩)) (startUp (CPState.init ops plugins)) 0 (ofOk_init ops pre plugins _) h0 hc
  rw [Nat.zero_add] at h
  rcases h with ⟨_, h⟩ | ⟨i, _, _, _, _, _, _, hg, _⟩
  · rw [← h, ← ownCount_eq ops]
    rfl
  · exact absurd trivial (hr _ (List.mem_of_getElem? hg))

/-- C167, in every schedule, of any number of flushes at the same time, completed or not: if nothing that arrives makes a datapoint called
like the count, then whenever no flush is reporting the receive statistics, the reported counts of a type are the counts that flushes
read. -/
theorem C167_read (ops : PluginOps PF PM) (pre int : Str) (plugins : List PF) (w : World) (es : List Event) (t : Str)
    (hq : PluginsUnlike ops pre (ownCount pre int t)) (hm : ∀ m ∈ arrivals es, Unlike pre (ownCount pre int t) m) :
    let v := (startUp (CPState.init ops plugins)).run (configurable ops pre int) w es
    (∀ g ∈ v.gens, ¬ Receiving g.pc) →
    ((named (ownCount pre int t) v.out).map fun d => d.value.rat).sum =
      readIn (configurable ops pre int) w t (startUp (CPState.init ops plugins)) es := by
  intro v hr
  obtain ⟨h1, h2⟩ := read_runI (cp_tracked ops pre int w _) (cp_clean ops pre int w t hq) es
    (fun m h => hm m (List.mem_filterMap.2 ⟨_, h, rfl⟩)) (startUp (CPState.init ops plugins)) (ofOk_init ops pre plugins _) (by
    intro g hg; simp [startUp] at hg)
  have hz : recvFlightI (configurable ops pre int) t v.gens = 0 := by
    unfold recvFlightI
    apply List.sum_eq_zero
    intro x hx
    obtain ⟨g, hg, rfl⟩ := List.mem_map.1 hx
    exact recvSum_cleanI (h1 g hg (hr g hg))
  have h0 : recvSumI (configurable ops pre int) t (startUp (CPState.init ops plugins)).out = 0 := by simp [startUp, recvSumI, named]
  have h0' : recvFlightI (configurable ops pre int) t (startUp (CPState.init ops plugins)).gens = 0 := by simp [startUp, recvFlightI]
  rw [h0, h0', show recvFlightI (configurable ops pre int) t
    (Server.run (configurable ops pre int) w (startUp (CPState.init ops plugins)) es).gens = 0 from hz, add_zero, zero_add, zero_add] at h2
  rw [← ownCount_eq ops]
  exact h2

/-- C167, when the names are apart: nothing that arrives makes a datapoint called like a count if there is a message prefix and the
processor's own names do not start with it and a dot. -/
theorem C167_apart (pre int t m : Str) (hp : pre ≠ []) (hi : ¬ pre ++ ['.'] <+: ownCount pre int t) :
    Unlike pre (ownCount pre int t) m := by
  intro ty suffix key v _ _ h
  refine hi ⟨key ++ suffix, ?_⟩
  rw [← h, prefixed, if_neg hp]
  simp only [List.append_assoc]

end

section
attribute [local instance] ratRounding

theorem calm_single {C T G PF PM : Type} {I : Impl C T G PF PM} {w : World} (n : Nat) : ∀ {v : Server C T G PF PM},
    v.gens.length = 1 → Spec.Calm I w v (List.replicate n (.advance 0)) := by
  induction n with
  | zero => intro v _; trivial
  | succ n ih =>
    intro v h
    refine ⟨fun j g hj hg => ?_, ih ?_⟩
    · have := (List.getElem?_eq_some_iff.1 hg).1
      omega
    · unfold Server.step
      simp only
      cases v.gens[0]? <;> simp [h]

/-- A message and a flush. -/
def oneFlush (m : Str) : List Event := [.arrive m, .spawn 10000 90] ++ List.replicate 60 (.advance 0)

theorem calm_oneFlush {C T G PF PM : Type} {I : Impl C T G PF PM} {w : World} (s : PS C T G PF PM) (m : Str) :
    Spec.Calm I w (startUp s) (oneFlush m) :=
  ⟨fun g hg => by simp [startUp] at hg, trivial, calm_single 60 rfl⟩

/-- The hypotheses are met by a processor with prefixes that are apart. -/
example : PluginsUnlike noPlugins c!"prod" (ownCount c!"prod" c!"statsd.prod." c!"c") ∧
    (∀ m ∈ arrivals (oneFlush c!"a:1|c"), Unlike c!"prod" (ownCount c!"prod" c!"statsd.prod." c!"c") m) ∧
    Spec.Calm (configurable noPlugins c!"prod" c!"statsd.prod.") exWorld (startUp (CPState.init noPlugins [])) (oneFlush c!"a:1|c") ∧
    (∀ g ∈ ((startUp (CPState.init noPlugins [])).run (configurable noPlugins c!"prod" c!"statsd.prod.") exWorld (oneFlush c!"a:1|c")).gens,
      ¬ Receiving g.pc) := by
  refine ⟨?_, fun m _ => C167_apart _ _ _ _ (by decide) (by decide), calm_oneFlush _ _, ?_⟩
  · intro key m _ w t i ts l h; cases h; simp
  · have hd : ∀ g ∈ ((startUp (CPState.init noPlugins [])).run (configurable noPlugins c!"prod" c!"statsd.prod.") exWorld
        (oneFlush c!"a:1|c")).gens, ended g.pc = true := by decide +kernel
    intro g hg hr
    have := hd g hg
    obtain ⟨_, _, pc⟩ := g
    cases pc <;> simp_all [Receiving, ended]

example : ((named c!"statsd.prod.receive.c.count" ((startUp (CPState.init noPlugins [])).run
      (configurable noPlugins c!"prod" c!"statsd.prod.") exWorld (oneFlush c!"a:1|c")).out).map fun d => d.value.rat).sum = 1 := by
  decide +kernel

/-- C167, refuted: with the internal prefix that the processor makes itself, a client can send a counter that is reported under the name of
the count. -/
theorem C167_refuted : ¬ ∀ (pre int : Str) (es : List Event) (t : Str),
    let v := (startUp (CPState.init noPlugins [])).run (configurable noPlugins pre int) exWorld es
    Spec.Calm (configurable noPlugins pre int) exWorld (startUp (CPState.init noPlugins [])) es → (∀ g ∈ v.gens, ¬ Receiving g.pc) →
    ((named (ownCount pre int t) v.out).map fun d => d.value.rat).sum + ((v.ps.byType.find t).getD 0 : Nat) =
      handledIn (configurable noPlugins pre int) exWorld t (startUp (CPState.init noPlugins [])) es := by
  intro h
  have h1 := h c!"prod" [] (oneFlush c!"statsd.receive.c:5|c") c!"c" (calm_oneFlush _ _)
  rw [handledIn_eq] at h1
  have hd : ∀ g ∈ ((startUp (CPState.init noPlugins [])).run (configurable noPlugins c!"prod" []) exWorld
      (oneFlush c!"statsd.receive.c:5|c")).gens, ended g.pc = true := by decide +kernel
  have h2 := h1 (fun g hg hr => by
    have := hd g hg
    obtain ⟨_, _, pc⟩ := g
    cases pc <;> simp_all [Receiving, ended])
  revert h2
  decide +kernel

end
end Txstatsd
