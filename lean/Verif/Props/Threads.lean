import Verif.Lemmas.Threads

/-!
# Writes from several threads (C97)
-/

namespace Txstatsd
open Threaded

/-- C97: in every interleaving of any number of threads with the reactor's, every message whose write has begun is in exactly one place:
handed to the transport, failed, scheduled, in a list object, dropped for length, or still held by its write. -/
theorem C97_conserved (limit n : Nat) (es : List Ev) :
    let c := (Threaded.init limit n).run es
    c.begun.Perm c.everywhere :=
  List.perm_iff_count.2 fun a => balance_run (valid_init limit n) (balance_init a limit n) es

/-- C97: the queue may outgrow its limit, by at most the number of threads. -/
theorem C97_limit (limit n : Nat) (es : List Ev) :
    ((Threaded.init limit n).run es).queueLength ≤ limit + n := by
  have := (bound_run (bound_init limit n) es).le
  omega

/-- C97, the expectation: the queue never holds more than `limit` messages. False with two threads. -/
theorem C97_limit_refuted : ¬ ∀ (limit n : Nat) (es : List Ev), ((Threaded.init limit n).run es).queueLength ≤ limit := by
  intro h
  have := h 1 2 [.begin 0 ⟨c!"a", none⟩, .begin 1 ⟨c!"b", none⟩, .advance 0, .advance 1, .advance 0, .advance 1, .advance 0, .advance 1,
    .advance 0, .advance 1]
  revert this
  decide +kernel

/-- C97: messages in a list object that is neither the queue nor being iterated over stay there, whatever happens; in no continuation
are as many copies of such a message handed to the transport as were written. -/
theorem C97_lost_forever (limit n : Nat) (es more : List Ev) (l : Nat) (m : Msg)
    (hf : ((Threaded.init limit n).run es).Forgotten l) (hm : m ∈ ((Threaded.init limit n).run es).lists[l]?.getD []) :
    let c := (Threaded.init limit n).run (es ++ more)
    c.Forgotten l ∧ m ∈ c.lists[l]?.getD [] ∧ c.sent.count m < c.begun.count m := by
  intro c
  have hrun : c = ((Threaded.init limit n).run es).run more := by simp [c, Threaded.run]
  have h := forgotten_run hf more
  rw [← hrun] at h
  have hmem : m ∈ c.lists[l]?.getD [] := h.2.subset hm
  refine ⟨h.1, hmem, ?_⟩
  have hb := (balance_iff m c).1 (balance_run (valid_init limit n) (balance_init m limit n) (es ++ more))
  have : 0 < c.lists.flatten.count m := by
    rw [List.count_pos_iff, List.mem_flatten]
    cases hl : c.lists[l]? with
    | none => rw [hl] at hmem; simp at hmem
    | some x => rw [hl] at hmem; exact ⟨x, List.mem_of_getElem? hl, hmem⟩
  omega

/-- The interleaving that loses a message: the write has looked up `self._queue.append` when the host is resolved and the queue is
flushed. -/
def losing : List Ev :=
  [.call (.connect (some 1)), .react, .react, .react, .react, .react] ++
  [.begin 0 ⟨c!"a", none⟩, .advance 0, .advance 0, .advance 0] ++
  [.call (.resolved c!"10.0.0.1" []), .react, .react, .react, .react] ++ [.advance 0]

/-- The interleaving that strands a message: the write has seen no gateway when the host is resolved. -/
def stranding : List Ev :=
  [.call (.connect (some 1)), .react, .react, .react, .react, .react] ++
  [.begin 0 ⟨c!"a", none⟩, .advance 0] ++
  [.call (.resolved c!"10.0.0.1" []), .react, .react, .react, .react] ++ [.advance 0, .advance 0, .advance 0]

/-- C97, the expectation: no message is ever in a list that nobody will look at. False. -/
theorem C97_lost_refuted : ¬ ∀ (limit n : Nat) (es : List Ev) (l : Nat),
    let c := (Threaded.init limit n).run es
    c.Forgotten l → c.lists[l]?.getD [] = [] := by
  intro h
  have := h 1000 1 losing 1
  revert this
  decide +kernel

/-- C97, the expectation (`C60_bound` for one thread): once there is a transport and the host is resolved and nothing is under way, no
message waits in the queue. False. -/
theorem C97_stranded_refuted : ¬ ∀ (limit n : Nat) (es : List Ev),
    let c := (Threaded.init limit n).run es
    c.Up → c.Quiet → c.prog = [] → c.lists[c.queue]?.getD [] = [] := by
  intro h
  have := h 1000 1 stranding
  revert this
  decide +kernel

/-- C97, the part that holds: if no write overlaps a call in the reactor's thread (writes may overlap each other), then no message is
ever in a list that nobody will look at, and once there is a transport and the host is resolved none waits in the queue. -/
theorem C97_undisturbed_partial (limit n : Nat) (es : List Ev) (h : (Threaded.init limit n).Undisturbed es) :
    let c := (Threaded.init limit n).run es
    (∀ l, c.Forgotten l → c.lists[l]?.getD [] = []) ∧ (c.Up → c.prog = [] → c.lists[c.queue]?.getD [] = []) := by
  intro c
  have hc : Calm c := calm_run es _ (calm_init limit n) h
  refine ⟨fun l hl => ?_, fun hu hp => ?_⟩
  · by_contra hne
    exact hl.2.2 (hc.kept l hl.2.1 hne)
  · have := hc.drained hu
    rw [hp] at this
    simpa using this

/-- C97: in such a schedule, at rest with the link up, every message written is sent, failed, scheduled or was dropped for length. -/
theorem C97_delivered_partial (limit n : Nat) (es : List Ev) (h : (Threaded.init limit n).Undisturbed es) :
    let c := (Threaded.init limit n).run es
    c.Up → c.Quiet → c.prog = [] → c.begun.Perm (c.sent ++ c.failed ++ c.scheduled.map (·.2) ++ c.dropped) := by
  intro c hu hq hp
  have h1 := C97_conserved limit n es
  obtain ⟨h2, h3⟩ := C97_undisturbed_partial limit n es h
  have hl : c.lists.flatten = [] := by
    rw [List.flatten_eq_nil_iff]
    intro x hx
    obtain ⟨l, hl, rfl⟩ := List.getElem_of_mem hx
    by_cases hlq : l = c.queue
    · subst hlq
      have := h3 hu hp
      rw [List.getElem?_eq_getElem hl] at this
      exact this
    · have := h2 l ⟨hl, hlq, by rw [hp]; simp⟩
      rw [List.getElem?_eq_getElem hl] at this
      exact this
  have ht : c.threads.flatMap WritePc.held = [] := by
    rw [List.flatMap_eq_nil_iff]
    intro pc hpc
    rw [hq pc hpc]; rfl
  have : c.everywhere = c.sent ++ c.failed ++ c.scheduled.map (·.2) ++ c.dropped := by
    simp only [everywhere, hl, ht, List.append_nil]
  rw [← this]
  exact h1

/-- Two overlapping writes before the host is resolved, one after; all reach the reactor. -/
example :
    let es : List Ev := [.begin 0 ⟨c!"a", none⟩, .begin 1 ⟨c!"b", none⟩, .advance 1, .advance 0, .advance 1, .advance 1, .advance 0, .advance 1,
      .advance 0, .advance 0, .call (.connect (some 1))] ++ List.replicate 7 .react ++ [.call (.resolved c!"10.0.0.1" [])] ++
      List.replicate 6 .react ++ [.begin 0 ⟨c!"c", none⟩, .advance 0, .advance 0, .advance 0, .advance 0, .call .turn, .react]
    let c := (Threaded.init 1000 2).run es
    (Threaded.init 1000 2).Undisturbed es ∧ c.Up ∧ c.Quiet ∧ c.prog = [] ∧ c.sent.map (·.data) = [c!"b"] ∧
      c.scheduled.map (·.2.data) = [c!"a", c!"c"] := by decide +kernel

/-- A message that is lost. -/
example : ((Threaded.init 1000 1).run losing).Forgotten 1 ∧ ⟨c!"a", none⟩ ∈ ((Threaded.init 1000 1).run losing).lists[1]?.getD [] := by
  decide +kernel

end Txstatsd
