import Verif.Lemmas.Missed
import Verif.Props.Schedules

/-!
# C24: how many messages the receive statistics miss
-/

set_option linter.unusedVariables false

namespace Txstatsd
open Spec
section
variable [Rounding] {PF PM : Type}

/-- C24, under arrivals: whenever no flush is reporting the receive statistics, the reported counts of a type, the count stored and the
messages of that type that arrived between a flush's reading of the count and its end make up the messages handled: exactly those are
missed. No two flushes report at the same time, and what arrives meanwhile has a type of which there is a count. -/
theorem C24_missed (ops : PluginOps PF PM) (hq : Quiet ops c!"statsd.") (plugins : List PF) (w : World)
    (es : List Event) (t : Str) :
    let v := (startUp (MPState.init ops plugins)).run (messageProcessor ops) w es
    Solo (messageProcessor ops) w (startUp (MPState.init ops plugins)) es → (∀ g ∈ v.gens, ¬ Receiving g.pc) →
    ((named (c!"statsd.receive." ++ t ++ c!".count") v.out).map fun d => d.value.rat).sum +
      ((v.ps.byType.find t).getD 0 : Nat) + missedIn (messageProcessor ops) w t (startUp (MPState.init ops plugins)) es =
      handledIn (messageProcessor ops) w t (startUp (MPState.init ops plugins)) es := by
  intro v hc hr
  have h0 : Balanced t (startUp (MPState.init ops plugins)) 0 := by
    refine ⟨by intro g hg; simp [startUp] at hg, Or.inl ⟨by intro g hg; simp [startUp] at hg, ?_⟩⟩
    simp [startUp, recvSum, named, MPState.init]
  obtain ⟨h', ⟨_, h⟩, he⟩ := missed_run ops hq w t es (startUp (MPState.init ops plugins)) 0 (mpwf_init ops plugins) h0 hc
  rw [Nat.zero_add] at he
  rcases h with ⟨_, h⟩ | ⟨i, _, _, _, _, _, _, hg, _⟩
  · have he' : (h' : ℚ) + missedIn (messageProcessor ops) w t (startUp (MPState.init ops plugins)) es =
        handledIn (messageProcessor ops) w t (startUp (MPState.init ops plugins)) es := by exact_mod_cast he
    rw [← he', ← h]
    rfl
  · exact absurd trivial (hr _ (List.mem_of_getElem? hg))

/-- C24, in every schedule: the messages of a type handled are those whose count is stored and those whose count was wiped. -/
theorem C24_wiped (ops : PluginOps PF PM) (plugins : List PF) (w : World) (es : List Event) (t : Str) :
    ((((startUp (MPState.init ops plugins)).run (messageProcessor ops) w es).ps.byType.find t).getD 0) +
      wipedIn (messageProcessor ops) w t (startUp (MPState.init ops plugins)) es =
      handledIn (messageProcessor ops) w t (startUp (MPState.init ops plugins)) es := by
  have := wiped_run ops w t es (startUp (MPState.init ops plugins)) (mpwf_init ops plugins)
  simpa [startUp, MPState.init, Dict.find] using this

/-- C24, in every schedule, of any number of flushes at the same time, completed or not: whenever no flush is reporting the receive
statistics, the reported counts of a type are the counts that flushes read. -/
theorem C24_read (ops : PluginOps PF PM) (hq : Quiet ops c!"statsd.") (plugins : List PF) (w : World) (es : List Event) (t : Str) :
    let v := (startUp (MPState.init ops plugins)).run (messageProcessor ops) w es
    (∀ g ∈ v.gens, ¬ Receiving g.pc) →
    ((named (c!"statsd.receive." ++ t ++ c!".count") v.out).map fun d => d.value.rat).sum =
      readIn (messageProcessor ops) w t (startUp (MPState.init ops plugins)) es := by
  intro v hr
  obtain ⟨h1, h2⟩ := read_run ops hq w t es (startUp (MPState.init ops plugins)) (mpwf_init ops plugins) (by
    intro g hg; simp [startUp] at hg)
  have hz : recvFlight t v.gens = 0 := by
    unfold recvFlight
    apply List.sum_eq_zero
    intro x hx
    obtain ⟨g, hg, rfl⟩ := List.mem_map.1 hx
    exact recvSum_clean (h1 g hg (hr g hg))
  have h0 : recvSum t (startUp (MPState.init ops plugins)).out = 0 := by simp [startUp, recvSum, named]
  have h0' : recvFlight t (startUp (MPState.init ops plugins)).gens = 0 := by simp [startUp, recvFlight]
  rw [h0, h0', show recvFlight t (Server.run (messageProcessor ops) w (startUp (MPState.init ops plugins)) es).gens = 0 from hz, add_zero,
    zero_add, zero_add] at h2
  exact h2

/-- C24, in every schedule: what is reported, stored and wiped without having been read make up what was handled and read. -/
theorem C24_balance (ops : PluginOps PF PM) (hq : Quiet ops c!"statsd.") (plugins : List PF) (w : World) (es : List Event) (t : Str) :
    let v := (startUp (MPState.init ops plugins)).run (messageProcessor ops) w es
    (∀ g ∈ v.gens, ¬ Receiving g.pc) →
    ((named (c!"statsd.receive." ++ t ++ c!".count") v.out).map fun d => d.value.rat).sum + ((v.ps.byType.find t).getD 0 : Nat) +
      wipedIn (messageProcessor ops) w t (startUp (MPState.init ops plugins)) es =
      handledIn (messageProcessor ops) w t (startUp (MPState.init ops plugins)) es +
      readIn (messageProcessor ops) w t (startUp (MPState.init ops plugins)) es := by
  intro v hr
  have h1 := C24_read ops hq plugins w es t hr
  have h2 : ((((v.ps.byType.find t).getD 0) + wipedIn (messageProcessor ops) w t (startUp (MPState.init ops plugins)) es : Nat) : ℚ) =
      (handledIn (messageProcessor ops) w t (startUp (MPState.init ops plugins)) es : Nat) := by
    exact_mod_cast C24_wiped ops plugins w es t
  push_cast at h2
  rw [show ((named (c!"statsd.receive." ++ t ++ c!".count") v.out).map fun d => d.value.rat).sum = _ from h1]
  linarith

end

section
attribute [local instance] ratRounding

theorem solo_append {C T G PF PM : Type} {I : Impl C T G PF PM} {w : World} {a b : List Event} : ∀ {v : Server C T G PF PM},
    Solo I w v a → Solo I w (v.run I w a) b → Solo I w v (a ++ b) := by
  induction a with
  | nil => intro v _ h; exact h
  | cons e a ih => intro v h1 h2; exact ⟨h1.1, ih h1.2 (by rw [run_cons] at h2; exact h2)⟩

theorem solo_single {C T G PF PM : Type} {I : Impl C T G PF PM} {w : World} (n : Nat) : ∀ {v : Server C T G PF PM},
    v.gens.length = 1 → Solo I w v (List.replicate n (.advance 0)) := by
  induction n with
  | zero => intro v _; trivial
  | succ n ih =>
    intro v h
    refine ⟨fun j g hj hg => ?_, ih ?_⟩
    · have := (List.getElem?_eq_some_iff.1 hg).1
      omega
    · unfold Server.step
      simp only
      cases v.gens[0]? <;> simp [h]

/-- The schedule of `C24_refuted` meets the hypotheses: the second message is the one that is missed. -/
example : Solo (messageProcessor noPlugins) exWorld (startUp (MPState.init noPlugins [])) lostSchedule := by
  have hm : ∀ (s : MPState Unit Unit) t, Handled (messageProcessor noPlugins) exWorld s t c!"a:1|c" → t = c!"c" := by
    rintro s t ⟨⟨k, f, h⟩, _⟩
    rw [parsed_iff] at h
    have hp : parseMessage c!"a:1|c" = some ⟨c!"c", c!"a", [c!"1", c!"c"]⟩ := by decide +kernel
    rw [hp] at h
    simp only [Option.some.injEq, Metric.mk.injEq] at h
    exact h.1.symm
  unfold lostSchedule
  rw [List.append_assoc, List.append_assoc]
  refine solo_append ⟨fun h => ?_, trivial, trivial⟩ (solo_append (solo_single 39 rfl) ⟨fun _ t ht => ?_, solo_single 3 ?_⟩)
  · obtain ⟨g, hg, _⟩ := h
    simp [startUp] at hg
  · rw [hm _ t ht]
    decide +kernel
  · decide +kernel

/-- `C24_missed` on this schedule, up to what there is no deciding: one message reported, none stored, two handled. -/
example : ((named (c!"statsd.receive." ++ c!"c" ++ c!".count")
      ((startUp (MPState.init noPlugins [])).run (messageProcessor noPlugins) exWorld lostSchedule).out).map fun d => d.value.rat).sum = 1 ∧
    (((startUp (MPState.init noPlugins [])).run (messageProcessor noPlugins) exWorld lostSchedule).ps.byType.find c!"c").getD 0 = 0 ∧
    handledIn (messageProcessor noPlugins) exWorld c!"c" (startUp (MPState.init noPlugins [])) lostSchedule = 2 := by
  rw [handledIn_eq]
  decide +kernel

example : wipedIn (messageProcessor noPlugins) exWorld c!"c" (startUp (MPState.init noPlugins [])) lostSchedule = 2 := by decide +kernel

/-- A message, a flush that reads its count, then a message of another type, at which the flush fails, and another flush. -/
def twiceSchedule : List Event :=
  [.arrive c!"a:1|c", .spawn 10000 90] ++ List.replicate 40 (.advance 0) ++ [.arrive c!"b:1|g"] ++ List.replicate 20 (.advance 0) ++
    [.spawn 10000 90] ++ List.replicate 80 (.advance 1)

/-- C24, refuted in the other direction: a count can be reported twice, when the flush that reads it fails. -/
theorem C24_twice_refuted : ¬ ∀ (es : List Event) (t : Str),
    let v := (startUp (MPState.init noPlugins [])).run (messageProcessor noPlugins) exWorld es
    (∀ g ∈ v.gens, ¬ Receiving g.pc) →
    ((named (c!"statsd.receive." ++ t ++ c!".count") v.out).map fun d => d.value.rat).sum ≤
      handledIn (messageProcessor noPlugins) exWorld t (startUp (MPState.init noPlugins [])) es := by
  intro h
  have h1 := h twiceSchedule c!"c"
  rw [handledIn_eq] at h1
  have hd : ∀ g ∈ ((startUp (MPState.init noPlugins [])).run (messageProcessor noPlugins) exWorld twiceSchedule).gens,
      ended g.pc = true := by decide +kernel
  have h2 := h1 (fun g hg hr => by
    have := hd g hg
    obtain ⟨_, _, pc⟩ := g
    cases pc <;> simp_all [Receiving, ended])
  revert h2
  decide +kernel

end
end Txstatsd
