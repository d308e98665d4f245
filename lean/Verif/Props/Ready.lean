import Verif.Lemmas.Ready

/-!
# C124: When a router is ready
-/

namespace Txstatsd
open Spec RouterReady

/-- C124: after every history of redirects built, names resolved, connections made and reactor turns, in any order, the router is
ready exactly if every redirect built so far has been resolved or connected. -/
theorem C124_ready (es : List Ev) : (run es).done = true ↔ ∀ i < (builtRedirects es).length, IsUp es i := by
  have h := good_run es
  have hup : ∀ i < (builtRedirects es).length, ((run es).hasFired i = true ↔ IsUp es i) := by
    intro i hi
    rw [← h.len] at hi
    have hd := List.getElem?_eq_getElem hi
    rw [← course_up (h.course i _ hd)]
    unfold hasFired
    rw [hd]; rfl
  unfold done
  constructor
  · intro hd i hi
    simp only [Bool.and_eq_true, Option.isNone_iff_eq_none] at hd
    exact (hup i hi).1 ((h.waits.rest hd.1).2 i (by rw [h.len]; exact hi))
  · intro hall
    have hw : (run es).waiting = none := by
      by_contra hc
      obtain ⟨j, hj⟩ := Option.ne_none_iff_exists'.1 hc
      obtain ⟨h1, h2, _⟩ := h.waits.held j hj
      rw [h.len] at h1
      rw [(hup j h1).2 (hall j h1)] at h2
      cases h2
    rw [hw, (h.waits.rest hw).1]; rfl

/-- C124: the error of a Deferred fired twice is raised once for each UDP redirect to an IP address, and never otherwise. -/
theorem C124_errors (es : List Ev) : (run es).alreadyCalled = (builtRedirects es).count (false, true) := (good_run es).called

/-- C124, the expectation: no Deferred is fired twice. -/
theorem C124_fired_once_refuted : ¬ ∀ es, (run es).alreadyCalled = 0 := fun h => absurd (h [.udp true]) (by decide)

/-- C124: without UDP redirects to IP addresses it holds. -/
theorem C124_fired_once_partial (es : List Ev) (h : (false, true) ∉ builtRedirects es) : (run es).alreadyCalled = 0 := by
  rw [C124_errors]; exact List.count_eq_zero.2 h

/-- C124: the error does no harm: the client of a redirect to an IP address is in the state of one whose address was resolved
twice without an error, of which C60 to C62 speak. -/
theorem C124_harmless (behave : Nat → Option Nat → Option PyErr) (host : Str) (bye : List Msg) :
    TwistedClient.create host true true [] bye = (TwistedClient.init host true [] bye).runOps behave [.resolved host] := rfl

theorem writeAll_queue (c : TwistedClient) (h : c.transport = none) (hl : c.queue.limit = 1000) (ms : List Msg) :
    (c.writeAll ms).transport = none ∧ (c.writeAll ms).queue = ⟨1000, c.queue.queue ++ ms.take (1000 - c.queue.queue.length)⟩ := by
  induction ms generalizing c with
  | nil =>
    refine ⟨h, ?_⟩
    show c.queue = _
    rw [← hl]; simp
  | cons m ms ih =>
    have e : c.write m = { c with queue := c.queue.write m } := by
      unfold TwistedClient.write; rw [h]; cases c.gateway <;> rfl
    show ((c.write m).writeAll ms).transport = none ∧ ((c.write m).writeAll ms).queue = _
    rw [e]
    by_cases hlt : c.queue.queue.length < 1000
    · have hq : c.queue.write m = ⟨1000, c.queue.queue ++ [m]⟩ := by
        unfold DataQueue.write; rw [hl, if_pos hlt]
      obtain ⟨h1, h2⟩ := ih { c with queue := c.queue.write m } h (by rw [hq])
      refine ⟨h1, h2.trans ?_⟩
      rw [hq]
      obtain ⟨k, hk⟩ : ∃ k, 1000 - c.queue.queue.length = k + 1 := ⟨1000 - c.queue.queue.length - 1, by omega⟩
      rw [hk, List.take_succ_cons]
      simp only [List.length_append, List.length_cons, List.length_nil, List.append_assoc, List.singleton_append]
      rw [show 1000 - (c.queue.queue.length + (0 + 1)) = k by omega]
    · have hq : c.queue.write m = c.queue := by unfold DataQueue.write; rw [hl, if_neg hlt]
      obtain ⟨h1, h2⟩ := ih { c with queue := c.queue.write m } h (by rw [hq]; exact hl)
      refine ⟨h1, h2.trans ?_⟩
      rw [hq]
      rw [show 1000 - c.queue.queue.length = 0 by omega]; simp

theorem resolved_queue (c : TwistedClient) (h : c.transport = none) (hl : c.queue.limit = 1000) (hq : c.queue.queue.length ≤ 1000) (ip : Str) :
    (c.hostResolved ip).transport = none ∧ (c.hostResolved ip).onConnect = c.onConnect ∧
    (c.hostResolved ip).queue = ⟨1000, c.queue.queue ++ c.onConnect.take (1000 - c.queue.queue.length)⟩ := by
  have hon : ∀ (ms : List Msg) (c : TwistedClient), (c.writeAll ms).onConnect = c.onConnect := by
    intro ms
    induction ms with
    | nil => intro c; rfl
    | cons m ms ih =>
      intro c
      refine (ih (c.write m)).trans ?_
      unfold TwistedClient.write; cases c.gateway <;> cases c.transport <;> rfl
  unfold TwistedClient.hostResolved TwistedClient.flushItems
  simp only
  set c1 : TwistedClient := { c with host := ip, gateway := some c.gateways.length, gateways := c.gateways ++ [({ transport := c.transport, host := ip } : Gateway)] } with hc1
  obtain ⟨h1, h2⟩ := writeAll_queue c1 h hl c.onConnect
  have hc : c1.queue = c.queue := rfl
  rw [hc] at h2
  set items := c.queue.queue ++ c.onConnect.take (1000 - c.queue.queue.length) with hit
  have hlen : items.length ≤ 1000 := by rw [hit, List.length_append, List.length_take]; omega
  rw [h2]
  simp only [DataQueue.flush]
  obtain ⟨h3, h4⟩ := writeAll_queue { c1.writeAll c.onConnect with queue := ⟨1000, []⟩ } h1 rfl items
  refine ⟨h3, ?_, ?_⟩
  · rw [hon]; show (c1.writeAll c.onConnect).onConnect = _; rw [hon]
  · rw [h4]; simp [List.take_of_length_le hlen]

/-- C124: what the connect callback writes is written twice, if the host is an IP address. -/
theorem C124_hello_twice (host : Str) (hello bye : List Msg) :
    (TwistedClient.create host true false hello bye).queue.queue = (hello ++ hello).take 1000 := by
  unfold TwistedClient.create TwistedClient.init
  simp only [if_true]
  set c0 : TwistedClient := { host := host, queue := DataQueue.init, transport := none, gateway := none, gateways := [], onConnect := hello, onDisconnect := bye, reactor := [], sent := [], calls := [], escaped := [] } with hc0
  obtain ⟨h1, h2, h3⟩ := resolved_queue c0 rfl rfl (by simp [hc0, DataQueue.init]) host
  obtain ⟨h4, h5, h6⟩ := resolved_queue (c0.hostResolved host) h1 (by rw [h3]) (by rw [h3]; simp [hc0, DataQueue.init]) host
  rw [if_neg (by simp), h6, h2, h3]
  simp only [hc0, DataQueue.init, List.take_append, List.nil_append, List.length_nil, Nat.sub_zero, List.length_take]
  rw [show 1000 - min 1000 hello.length = 1000 - hello.length by omega]

/-! ### Examples -/

/-- Two redirects by UDP, to an address and to a name, and one by TCP: ready once the name is resolved and the connection made. -/
example : let es : List Ev := [.udp true, .udp false, .tcp, .connected 2, .resolved 1, .turn 2]
    (run es).done = true ∧ (run es.dropLast).done = false ∧ (run es).alreadyCalled = 1 := by decide

example : IsUp [.udp true, .udp false, .tcp, .connected 2, .resolved 1, .turn 2] 2 :=
  ⟨[.udp true, .udp false], .tcp, [.connected 2, .resolved 1, .turn 2], rfl, rfl, .inr (.inr ⟨rfl, [.connected 2], [.resolved 1, .turn 2], rfl, by simp, by simp⟩)⟩

end Txstatsd
