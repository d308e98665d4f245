import Verif.Lemmas.Client

/-!
# The UDP clients (C60–C63)
-/

namespace Txstatsd

/-- C60: a data queue holds the first `limit` messages written since it was last flushed, in the order written, and a flush hands out
exactly these. -/
theorem C60_queue (limit : Nat) (ops : List QueueOp) :
    ((DataQueue.init limit).runOps ops).queue = (writtenSince ops).take limit ∧
    ((DataQueue.init limit).runOps ops).flush = ((writtenSince ops).take limit, { limit := limit, queue := [] }) := by
  rw [DataQueue.runOps_eq]
  exact ⟨rfl, rfl⟩

/-- Room for two messages, three written, one flush in between. -/
example : ((DataQueue.init 2).runOps [.write ⟨c!"x", none⟩, .flush, .write ⟨c!"a", none⟩, .write ⟨c!"b", some 1⟩, .write ⟨c!"c", none⟩]).queue =
    [⟨c!"a", none⟩, ⟨c!"b", some 1⟩] := by decide +kernel

/-- C60, in the client: at every moment at most 1000 messages are queued, and none once there is a transport and the host is resolved. -/
theorem C60_bound (behave : Nat → Option Nat → Option PyErr) (host : Str) (isIp : Bool) (hello bye : List Msg) (ops : List ClientOp) :
    let c := (TwistedClient.init host isIp hello bye).runOps behave ops
    c.queue.queue.length ≤ 1000 ∧ (c.transport.isSome → c.gateway.isSome → c.queue.queue = []) := by
  have h := TwistedClient.inv_run host isIp hello bye behave ops
  refine ⟨?_, fun h1 h2 => h.idle h2 h1⟩
  have := h.core.wle
  rw [← h.core.wait] at this
  exact this

/-- C61: whatever the schedule of writes, connections, disconnections, resolutions and reactor turns, the messages handed to transports,
then those scheduled, then those queued, are exactly the accepted ones in the order they were written: those offered while the link
was up or fewer than 1000 messages waited for it. The connect callback does not itself write to the client. -/
theorem C61_order (behave : Nat → Option Nat → Option PyErr) (host : Str) (isIp : Bool) (bye : List Msg) (ops : List ClientOp) :
    let c := (TwistedClient.init host isIp [] bye).runOps behave ops
    c.sent.map (·.msg) ++ c.reactor.map (·.2) ++ c.queue.queue = (linkAfter isIp [] bye ops).accepted ∧
    (linkAfter isIp [] bye ops).accepted.Sublist (offered isIp [] bye ops) :=
  ⟨(TwistedClient.inv_run host isIp [] bye behave ops).eq rfl, TwistedClient.accepted_sublist isIp [] bye ops⟩

/-- C61: even when the connect callback writes, nothing accepted is lost or duplicated. -/
theorem C61_conserved (behave : Nat → Option Nat → Option PyErr) (host : Str) (isIp : Bool) (hello bye : List Msg) (ops : List ClientOp) :
    let c := (TwistedClient.init host isIp hello bye).runOps behave ops
    (c.sent.map (·.msg) ++ c.reactor.map (·.2) ++ c.queue.queue).Perm (linkAfter isIp hello bye ops).accepted ∧
    (linkAfter isIp hello bye ops).accepted.Sublist (offered isIp hello bye ops) :=
  ⟨(TwistedClient.inv_run host isIp hello bye behave ops).perm, TwistedClient.accepted_sublist isIp hello bye ops⟩

theorem TwistedClient.turns (behave : Nat → Option Nat → Option PyErr) (rs : List (Except PyErr Nat)) : ∀ c : TwistedClient,
    (c.runOps behave (rs.map .turn)).reactor = c.reactor.drop rs.length ∧ (c.runOps behave (rs.map .turn)).queue = c.queue := by
  induction rs with
  | nil => intro c; simp [TwistedClient.runOps]
  | cons r rs ih =>
    intro c
    have h := ih (c.turn behave r)
    have ht : (c.turn behave r).reactor = c.reactor.tail ∧ (c.turn behave r).queue = c.queue := by
      unfold TwistedClient.turn
      match hr : c.reactor with
      | [] => simp [hr]
      | (g, m) :: rest =>
        simp only
        match h1 : c.gateways[g]? with
        | none => simp
        | some gw =>
          simp only
          match ht : gw.transport with
          | none => simp
          | some t => simp
    rw [ht.1, ht.2] at h
    refine ⟨?_, h.2⟩
    rw [show c.runOps behave ((r :: rs).map .turn) = (c.turn behave r).runOps behave (rs.map .turn) from rfl, h.1, List.drop_tail]
    simp

/-- C61: once the link is up, enough turns of the reactor hand every accepted message to a transport, in order. -/
theorem C61_drained (behave : Nat → Option Nat → Option PyErr) (host : Str) (isIp : Bool) (bye : List Msg) (ops : List ClientOp)
    (rs : List (Except PyErr Nat))
    (hup : (linkAfter isIp [] bye ops).connected = true ∧ (linkAfter isIp [] bye ops).resolved = true)
    (hrs : (linkAfter isIp [] bye ops).accepted.length ≤ rs.length) :
    let c := (TwistedClient.init host isIp [] bye).runOps behave (ops ++ rs.map .turn)
    c.sent.map (·.msg) = (linkAfter isIp [] bye ops).accepted := by
  have h := TwistedClient.inv_run host isIp [] bye behave ops
  have h2 := TwistedClient.inv_run host isIp [] bye behave (ops ++ rs.map .turn)
  have hrun : (TwistedClient.init host isIp [] bye).runOps behave (ops ++ rs.map .turn) =
      ((TwistedClient.init host isIp [] bye).runOps behave ops).runOps behave (rs.map .turn) := by
    simp [TwistedClient.runOps]
  have hlink : linkAfter isIp [] bye (ops ++ rs.map .turn) = linkAfter isIp [] bye ops := by
    unfold linkAfter
    rw [List.foldl_append]
    generalize List.foldl (Link.step [] bye) _ ops = l
    clear hrs hrun h2 h hup
    induction rs with
    | nil => rfl
    | cons r rs ih => exact ih
  have ht := TwistedClient.turns behave rs ((TwistedClient.init host isIp [] bye).runOps behave ops)
  rw [← hrun] at ht
  have hq : ((TwistedClient.init host isIp [] bye).runOps behave ops).queue.queue = [] := by
    apply h.idle
    · rw [← h.core.res]; exact hup.2
    · rw [← h.core.conn]; exact hup.1
  have hlen : ((TwistedClient.init host isIp [] bye).runOps behave ops).reactor.length ≤ rs.length := by
    have := congrArg List.length (h.eq rfl)
    simp only [TwistedClient.contents, List.length_append, List.length_map] at this
    omega
  have heq := h2.eq rfl
  rw [hlink] at heq
  unfold TwistedClient.contents at heq
  rw [ht.1, ht.2, hq, List.drop_of_length_le hlen] at heq
  simpa using heq

/-- Two messages wait, the host gets resolved, a transport comes up, a third message follows; one is still scheduled. -/
example :
    let ops : List ClientOp := [.write ⟨c!"a", none⟩, .resolved c!"10.0.0.1", .write ⟨c!"b", none⟩, .connect (some 7), .write ⟨c!"c", none⟩,
      .turn (.ok 1), .turn (.error .socketError), .disconnect, .write ⟨c!"d", none⟩]
    let c := (TwistedClient.init c!"host" false [] []).runOps (fun _ _ => none) ops
    c.sent.map (fun s => (s.transport, s.host, s.msg.data)) = [(7, c!"10.0.0.1", c!"a"), (7, c!"10.0.0.1", c!"b")] ∧
    c.reactor.map (·.2.data) = [c!"c"] ∧ c.queue.queue.map (·.data) = [c!"d"] := by decide +kernel

/-- A link that is up, as `C61_drained` asks. -/
example :
    let ops : List ClientOp := [.write ⟨c!"a", none⟩, .connect (some 7), .write ⟨c!"b", none⟩, .resolved c!"10.0.0.1"]
    (linkAfter false [] [] ops).connected = true ∧ (linkAfter false [] [] ops).resolved = true ∧
    (linkAfter false [] [] ops).accepted.length = 2 := by decide +kernel

/-- C61 does not survive a connect callback that writes: its message overtakes the queued ones (protocol.py:205-214 calls the callback
before `_flush_items`). -/
theorem C61_callback_overtakes_refuted : ¬ ∀ (hello : List Msg) (ops : List ClientOp),
    let c := (TwistedClient.init c!"host" false hello []).runOps (fun _ _ => none) ops
    (c.sent.map (·.msg) ++ c.reactor.map (·.2) ++ c.queue.queue).Sublist (offered false hello [] ops) := by
  intro h
  have := h [⟨c!"hello", none⟩] [.connect (some 1), .write ⟨c!"a", none⟩, .resolved c!"10.0.0.1"]
  revert this
  decide +kernel

/-- C61: datagrams only go to addresses the host was resolved to, over transports the client was connected with. -/
theorem C61_destination (behave : Nat → Option Nat → Option PyErr) (host : Str) (isIp : Bool) (hello bye : List Msg) (ops : List ClientOp) :
    ∀ s ∈ ((TwistedClient.init host isIp hello bye).runOps behave ops).sent,
      ((isIp = true ∧ s.host = host) ∨ ClientOp.resolved s.host ∈ ops) ∧ ClientOp.connect (some s.transport) ∈ ops :=
  (TwistedClient.known_run (fun h => (isIp = true ∧ h = host) ∨ ClientOp.resolved h ∈ ops) (fun t => ClientOp.connect (some t) ∈ ops)
    host isIp hello bye behave ops (fun h => Or.inl ⟨h, rfl⟩) (fun _ h => Or.inr h) (fun _ h => h)).snt

/-- C62: the completion callbacks are called, datagram by datagram in the order sent: with the byte count, or with `None` for a handled
failure of the transport, and once more with `None` if the callback raised a handled error when given the byte count. -/
theorem C62_callbacks (behave : Nat → Option Nat → Option PyErr) (host : Str) (isIp : Bool) (hello bye : List Msg) (ops : List ClientOp) :
    let c := (TwistedClient.init host isIp hello bye).runOps behave ops
    c.calls = c.sent.flatMap (expectedCalls behave) :=
  TwistedClient.calls_run behave host isIp hello bye ops

/-- C62: when the callbacks raise nothing and the transport fails only in handled ways, there is exactly one call per datagram with a
callback. -/
theorem C62_once (behave : Nat → Option Nat → Option PyErr) (host : Str) (isIp : Bool) (hello bye : List Msg) (ops : List ClientOp)
    (hb : ∀ k r, behave k r = none)
    (ht : ∀ e, ClientOp.turn (.error e) ∈ ops → e = .overflowError ∨ e = .typeError ∨ e = .socketError) :
    let c := (TwistedClient.init host isIp hello bye).runOps behave ops
    c.calls = c.sent.filterMap fun s => s.msg.callback.map fun k => (k, s.result.toOption) := by
  intro c
  have hres : ∀ s ∈ c.sent, ∀ e, s.result = .error e → e = .overflowError ∨ e = .typeError ∨ e = .socketError := by
    clear hb
    show ∀ s ∈ ((TwistedClient.init host isIp hello bye).runOps behave ops).sent, _
    clear c
    induction ops using List.reverseRecOn with
    | nil =>
      intro s hs
      exfalso
      cases isIp with
      | false => simp [TwistedClient.init, TwistedClient.runOps] at hs
      | true =>
        simp only [TwistedClient.runOps, TwistedClient.init, List.foldl_nil, if_true, TwistedClient.hostResolved] at hs
        rw [(TwistedClient.flushItems_fixed _).1, (TwistedClient.writeAll_fixed _ _).1] at hs
        simp at hs
    | append_singleton ops o ih =>
      rw [TwistedClient.runOps_snoc]
      have ih := ih (fun e he => ht e (by simp [he]))
      generalize hc : (TwistedClient.init host isIp hello bye).runOps behave ops = c at ih
      cases o with
      | write m => rw [show c.runOps behave [.write m] = c.write m from rfl, (TwistedClient.write_fixed c m).1]; exact ih
      | connect t =>
        cases t with
        | none => rw [show c.runOps behave [.connect none] = c.flushItems from rfl, (TwistedClient.flushItems_fixed c).1]; exact ih
        | some t =>
          rw [show c.runOps behave [.connect (some t)] = c.connect (some t) from rfl, TwistedClient.connect_some,
            (TwistedClient.flushItems_fixed _).1, (TwistedClient.attach_fixed c t).1]
          exact ih
      | disconnect =>
        show ∀ s ∈ (c.writeAll c.onDisconnect).sent, _
        rw [(TwistedClient.writeAll_fixed _ c).1]; exact ih
      | resolved ip =>
        show ∀ s ∈ (c.hostResolved ip).sent, _
        unfold TwistedClient.hostResolved
        rw [(TwistedClient.flushItems_fixed _).1, (TwistedClient.writeAll_fixed _ _).1]; exact ih
      | turn r =>
        show ∀ s ∈ (c.turn behave r).sent, _
        unfold TwistedClient.turn
        match hr : c.reactor with
        | [] => exact ih
        | (g, m) :: rest =>
          simp only
          match h1 : c.gateways[g]? with
          | none => exact ih
          | some gw =>
            simp only
            match htr : gw.transport with
            | none => exact ih
            | some t =>
              intro s hs e he
              rcases List.mem_append.mp hs with hs | hs
              · exact ih s hs e he
              · simp only [List.mem_singleton] at hs
                subst hs
                simp only at he
                subst he
                exact ht e (by simp)
  show c.calls = _
  rw [show c.calls = c.sent.flatMap (expectedCalls behave) from C62_callbacks behave host isIp hello bye ops]
  generalize c.sent = l at hres
  clear c
  induction l with
  | nil => rfl
  | cons s l ih =>
    rw [List.flatMap_cons, List.filterMap_cons, ih (fun s' hs' => hres s' (List.mem_cons_of_mem _ hs'))]
    have hs := hres s (by simp)
    unfold expectedCalls
    cases hk : s.msg.callback with
    | none => simp
    | some k =>
      cases hr : s.result with
      | error e => simp only [if_pos (hs e hr)]; rfl
      | ok n => simp only [hb]; rfl

/-- One success and one handled failure, each reported once. -/
example :
    let ops : List ClientOp := [.connect (some 7), .write ⟨c!"a", some 5⟩, .write ⟨c!"b", some 6⟩, .turn (.ok 1), .turn (.error .socketError)]
    ((TwistedClient.init c!"10.0.0.1" true [] []).runOps (fun _ _ => none) ops).calls = [(5, some 1), (6, none)] := by decide +kernel

/-- The known defect: a callback that raises `TypeError` on the byte count is called again with `None`. -/
example :
    let ops : List ClientOp := [.connect (some 7), .write ⟨c!"a", some 5⟩, .turn (.ok 1)]
    ((TwistedClient.init c!"10.0.0.1" true [] []).runOps (fun _ r => if r = some 1 then some .typeError else none) ops).calls =
      [(5, some 1), (5, none)] := by decide +kernel

/-- C63: over any history the plain UDP client calls `sendto` exactly once, to the resolved address, for every write made between a
`connect` and the next `disconnect`, and never otherwise. -/
theorem C63_sends (host : Option Str) (port : Option Nat) (resolve : Option (Str × Nat)) (c : UdpClient)
    (hc : UdpClient.init host port resolve = .ok c) (ops : List UdpOp) :
    (c.runOps ops).sendtos =
      match host, port, resolve with
      | some _, some _, some (ip, p) => (writtenOnline ops).2.map fun d => (d, ip, p)
      | _, _, _ => [] := by
  unfold UdpClient.init at hc
  cases host with
  | none => simp only [Except.ok.injEq] at hc; subst hc; rw [UdpClient.runOps_eq]
  | some h =>
    cases port with
    | none => simp only [Except.ok.injEq] at hc; subst hc; rw [UdpClient.runOps_eq]
    | some p =>
      cases resolve with
      | none => simp at hc
      | some a => simp only [Except.ok.injEq] at hc; subst hc; rw [UdpClient.runOps_eq]

/-- C63: an address that cannot be resolved is a `ValueError`, and only then does the constructor fail. -/
theorem C63_unresolved (host : Option Str) (port : Option Nat) (resolve : Option (Str × Nat)) (e : PyErr) :
    UdpClient.init host port resolve = .error e ↔ e = .valueError ∧ host.isSome ∧ port.isSome ∧ resolve = none := by
  unfold UdpClient.init
  cases host <;> cases port <;> cases resolve <;> simp [eq_comm]

/-- C63: what `write` returns: `None` when not connected or on a socket error, otherwise what `sendto` did. -/
theorem C63_result (a : Str × Nat) (ops : List UdpOp) (d : Str) (r : Except PyErr Nat) :
    let c := UdpClient.runOps { address := some a, socket := false, sendtos := [] } ops
    (c.write d r).2 = if (writtenOnline ops).1 then (match r with
      | .ok n => .ok (some n)
      | .error .socketError => .ok none
      | .error e => .error e) else .ok none := by
  intro c
  show (UdpClient.write (UdpClient.runOps _ ops) d r).2 = _
  rw [UdpClient.runOps_eq]
  obtain ⟨h, p⟩ := a
  unfold UdpClient.write
  cases (writtenOnline ops).1 with
  | false => rfl
  | true =>
    cases r with
    | ok n => rfl
    | error e => cases e <;> rfl

/-- Writes before, during and after a connection; the second one fails. -/
example :
    let c : UdpClient := { address := some (c!"10.0.0.1", 8125), socket := false, sendtos := [] }
    UdpClient.init (some c!"host") (some 8125) (some (c!"10.0.0.1", 8125)) = .ok c ∧
    (c.runOps [.write c!"a" (.ok 1), .connect, .write c!"b" (.error .socketError), .write c!"c" (.ok 1), .disconnect, .write c!"d" (.ok 1)]).sendtos =
      [(c!"b", c!"10.0.0.1", 8125), (c!"c", c!"10.0.0.1", 8125)] := by
  constructor
  · rfl
  · decide +kernel

end Txstatsd
