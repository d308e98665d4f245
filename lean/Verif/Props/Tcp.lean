import Verif.Lemmas.Tcp

/-!
# C51, C52, C77, C80: TCP redirects and the server protocols
-/

namespace Txstatsd
open Spec

/-! ## C51: framing -/

/-- C51: a non-empty line has one body (the line without its terminator), and an unpaused write sends
exactly the body and one CRLF. -/
theorem C51_write (p : RedirectProto) (hp : p.paused = false) (line : Str) (hne : line ≠ []) :
    ∃ t, Body line t ∧ (∀ t', Body line t' → t' = t) ∧
      p.write line = ({ p with wire := p.wire ++ (t ++ crlf) }, none) := by
  obtain ⟨t, ht⟩ := body_exists line hne
  exact ⟨t, ht, fun t' h' => body_unique h' ht, write_body p hp hne ht⟩

/-- C51: a line that ends in CRLF is sent as it is. -/
theorem C51_not_doubled (p : RedirectProto) (hp : p.paused = false) (t : Str) :
    p.write (t ++ crlf) = ({ p with wire := p.wire ++ (t ++ crlf) }, none) :=
  write_body p hp (by simp [crlf]) (.inl rfl)

/-- C51: a stream of written lines with no CRLF inside, in any chunks, is split by a line receiver
(whose handler returns nothing) into exactly the bodies of these lines. -/
theorem C51_stream (lines ts : List Str)
    (h : List.Forall₂ (fun line t => line ≠ [] ∧ Body line t) lines ts)
    (hn : ∀ t ∈ ts, NoCrlf t ∧ t.length < 16384) (chunks : List Str)
    (hc : chunks.flatten = (lines.foldl (fun p line => (p.write line).1) ({} : RedirectProto)).wire) :
    Receiver.feedAll (fun (seen : List Str) l => (seen ++ [l], false)) ⟨[], [], false⟩ chunks
      = ⟨[], ts, false⟩ := by
  have hw := writes_stream {} rfl h
  rw [hw] at hc
  have hrun : ∀ (ls : List Str) (acc : List Str),
      runLines (fun (seen : List Str) l => (seen ++ [l], false)) acc ls = (acc ++ ls, [], false) := by
    intro ls
    induction ls with
    | nil => intro acc; simp [runLines]
    | cons l ls ih => intro acc; rw [runLines]; simp [ih]
  have key := feedAll_stream (fun (seen : List Str) l => (seen ++ [l], false)) [] hn
    (chunks := chunks) (by simpa using hc)
  rw [hrun] at key
  obtain ⟨k1, k2, k3⟩ := key
  generalize Receiver.feedAll (fun (seen : List Str) l => (seen ++ [l], false)) ⟨[], [], false⟩ chunks = r at k1 k2 k3
  obtain ⟨b, hh, c⟩ := r
  simp only [List.nil_append] at k1 k2 k3
  rw [k1, k2, k3 trivial]

/-- C51: an empty line raises `IndexError` and sends nothing. (A rebuilt message is never empty.) -/
theorem C51_empty (p : RedirectProto) (hp : p.paused = false) : p.write [] = (p, some .indexError) := by
  simp [RedirectProto.write, hp, lastTwo]

example : List.Forall₂ (fun line t => line ≠ [] ∧ Body line t)
    [c!"a:1|c", c!"b:1|c\r", c!"c:1|c\r\n"] [c!"a:1|c", c!"b:1|c", c!"c:1|c"] :=
  .cons ⟨by simp, .inr (.inr ⟨rfl, by decide, by decide⟩)⟩
    (.cons ⟨by simp, .inr (.inl rfl)⟩ (.cons ⟨by simp, .inl rfl⟩ .nil))

example : Receiver.feedAll (fun (seen : List Str) l => (seen ++ [l], false)) ⟨[], [], false⟩
    [c!"a:1|c\r", c!"\nb:1", c!"|c\r\n"] = ⟨[], [c!"a:1|c", c!"b:1|c"], false⟩ :=
  C51_stream [c!"a:1|c", c!"b:1|c\r"] [c!"a:1|c", c!"b:1|c"]
    (.cons ⟨by simp, .inr (.inr ⟨rfl, by decide, by decide⟩)⟩ (.cons ⟨by simp, .inr (.inl rfl)⟩ .nil))
    (by
      intro t ht
      simp only [List.mem_cons, List.not_mem_nil, or_false] at ht
      rcases ht with rfl | rfl
      · exact ⟨by unfold NoCrlf; decide, by decide⟩
      · exact ⟨by unfold NoCrlf; decide, by decide⟩) _ (by decide +kernel)

/-! ## C52: back-pressure -/

/-- C52: `resumeProducing` raises `TypeError` and changes nothing, on every connection. -/
theorem C52_resume_raises (p : RedirectProto) (now : ℤ) : p.resume now = (p, some .typeError) := rfl

/-- C52, full statement: after `resumeProducing` writes flow again. This theorem: as long as the
transport never pauses the connection, every line is sent. Missing: connections that were paused, for
which the statement is false (`C52_stuck`, `C52_refuted`). -/
theorem C52_flow_partial (lines ts : List Str)
    (h : List.Forall₂ (fun line t => line ≠ [] ∧ Body line t) lines ts) :
    (RedirectFactory.run {} (.connect :: lines.map .write)).proto = some { wire := stream ts } := by
  have hw := writes_stream {} rfl h
  have : ∀ (lines : List Str) (p : RedirectProto) (e : List RedirectProto),
      (RedirectFactory.run ⟨some p, e⟩ (lines.map .write)).proto
        = some (lines.foldl (fun p line => (p.write line).1) p) := by
    intro lines
    induction lines with
    | nil => intro p e; rfl
    | cons l ls ih => intro p e; exact ih _ _
  have h2 := this lines {} []
  rw [hw] at h2
  simp only [List.nil_append] at h2
  exact h2

/-- C52: once paused, a connection stays paused whatever pauses, resumes and writes follow: nothing
more is sent and every written message is dropped and counted. Only a new connection ends this. -/
theorem C52_stuck (p : RedirectProto) (hp : p.paused = true) (es : List RedirectEvent)
    (hes : RedirectEvent.connect ∉ es) (earlier : List RedirectProto) :
    ∃ q : RedirectProto, RedirectFactory.run ⟨some p, earlier⟩ es = ⟨some q, earlier⟩ ∧
      q.paused = true ∧ q.wire = p.wire ∧
      q.dropped = p.dropped + es.countP (fun e => match e with | .write _ => true | _ => false) :=
  paused_run hp es hes earlier

/-- C52 is false: a message written after a pause and a resume is lost. -/
theorem C52_refuted :
    ¬ ∀ (t0 t1 : ℤ) (line t : Str), line ≠ [] → Body line t →
      ((RedirectFactory.run {} [.connect, .pause t0, .resume t1, .write line]).proto.map (·.wire))
        = some (t ++ crlf) := by
  intro h
  have := h 0 1 c!"a:1|c" c!"a:1|c" (by simp) (.inr (.inr ⟨rfl, by decide, by decide⟩))
  revert this
  decide +kernel

/-- C52: a new connection starts unpaused. -/
theorem C52_reconnect (f : RedirectFactory) : (f.step .connect).1.proto = some {} := rfl

/-- C52: before the first connection, messages are lost without being counted. -/
theorem C52_unconnected (lines : List Str) (e : List RedirectProto) :
    RedirectFactory.run ⟨none, e⟩ (lines.map .write) = ⟨none, e⟩ := by
  induction lines with
  | nil => rfl
  | cons l ls ih => exact ih

example : RedirectFactory.run {} [.connect, .write c!"a", .pause 3, .write c!"b", .resume 4, .write c!"c"]
    = ⟨some { paused := true, lastPaused := some 3, dropped := 2, wire := c!"a\r\n" }, []⟩ := by
  decide +kernel

/-! ## C77: monitor pings -/

/-- C77: over any sequence of datagrams, exactly those different from the monitor message are
scheduled, once each and in order; the others are answered, once each. -/
theorem C77_datagrams (mon : Monitor) (ds : List Str) :
    (ds.foldl mon.datagramReceived []).filterMap (fun r => match r with | .schedule d => some d | _ => none)
      = ds.filter (fun d => mon.message ≠ some d) ∧
    (ds.foldl mon.datagramReceived []).filterMap (fun r => match r with | .answer t => some t | _ => none)
      = (ds.filter (fun d => mon.message = some d)).map (fun _ => mon.response) := by
  have key : ∀ (ds : List Str) (acc : List Reaction),
      ds.foldl mon.datagramReceived acc = acc ++ ds.map (fun d =>
        if mon.message = some d then Reaction.answer mon.response else .schedule d) := by
    intro ds
    induction ds with
    | nil => intro acc; simp
    | cons d ds ih =>
      intro acc
      rw [List.foldl_cons, ih, Monitor.datagramReceived]
      split <;> simp_all
  rw [key, List.nil_append]
  constructor
  · induction ds with
    | nil => rfl
    | cons d ds ih =>
      by_cases h : mon.message = some d
      · simp [h] at ih ⊢; exact ih
      · simp [h] at ih ⊢; exact ih
  · induction ds with
    | nil => rfl
    | cons d ds ih =>
      by_cases h : mon.message = some d
      · simp [h] at ih ⊢; exact ih
      · simp [h] at ih ⊢; exact ih

/-- C77: one line: the monitor message is answered and not scheduled; any other line is scheduled once
and not answered. -/
theorem C77_line (mon : Monitor) (done : List Reaction) (line : Str) :
    (mon.message = some line → (mon.lineReceived done line).1 = done ++ [.answer mon.response]) ∧
    (mon.message ≠ some line → (mon.lineReceived done line).1 = done ++ [.schedule line]) := by
  constructor
  · intro h; simp [Monitor.lineReceived, h]
  · intro h; simp [Monitor.lineReceived, h]

example : [c!"ping", c!"a:1|c"].foldl (Monitor.datagramReceived ⟨some c!"ping", c!"pong"⟩) []
    = [.answer c!"pong", .schedule c!"a:1|c"] := by decide +kernel

/-! ## C80: the TCP listener -/

/-- What the TCP listener does with the lines of a connection: it answers monitor messages until the
first other line, which it schedules. -/
theorem runLines_server (mon : Monitor) (ls : List Str) (done : List Reaction) :
    (runLines mon.lineReceived done ls).1 =
      done ++ (ls.takeWhile (fun l => mon.message = some l)).map (fun _ => .answer mon.response)
        ++ ((ls.find? (fun l => mon.message ≠ some l)).toList.map .schedule) ∧
    (runLines mon.lineReceived done ls).2.2 = (ls.any fun l => mon.message ≠ some l) := by
  induction ls generalizing done with
  | nil => simp [runLines]
  | cons l ls ih =>
    rw [runLines]
    by_cases h : mon.message = some l
    · have hx : mon.lineReceived done l = (done ++ [.answer mon.response], false) := by
        simp [Monitor.lineReceived, h]
      rw [hx]
      simp only [Bool.false_eq_true, if_false]
      obtain ⟨i1, i2⟩ := ih (done ++ [.answer mon.response])
      rw [i1, i2]
      simp [h]
    · have hx : mon.lineReceived done l = (done ++ [.schedule l], true) := by
        simp [Monitor.lineReceived, h]
      rw [hx]
      simp [h]

/-- C80: a connection carrying short lines, in any chunks: the monitor messages in front are answered,
the first other line is scheduled, the connection is closed, and all later lines are lost. -/
theorem C80_first_line_only (mon : Monitor) (ls : List Str)
    (hl : ∀ l ∈ ls, NoCrlf l ∧ l.length < 16384) (chunks : List Str)
    (hc : chunks.flatten = stream ls) :
    (Receiver.feedAll mon.lineReceived ⟨[], [], false⟩ chunks).h =
      (ls.takeWhile (fun l => mon.message = some l)).map (fun _ => .answer mon.response)
        ++ ((ls.find? (fun l => mon.message ≠ some l)).toList.map .schedule) ∧
    (Receiver.feedAll mon.lineReceived ⟨[], [], false⟩ chunks).closed
      = (ls.any fun l => mon.message ≠ some l) := by
  obtain ⟨h1, h2, _⟩ := feedAll_stream mon.lineReceived [] hl hc
  obtain ⟨r1, r2⟩ := runLines_server mon ls []
  exact ⟨by rw [h1, r1]; simp, by rw [h2, r2]⟩

/-- C80: a line of more than 16384 characters closes the connection, in whatever chunks it comes, whatever follows it; nothing of it is
handled. -/
theorem C80_too_long {H : Type} (f : H → Str → H × Bool) (h0 : H) (line : Str) (hl : NoCrlf line) (hlen : 16384 < line.length)
    (rest : Str) (chunks : List Str) (hc : chunks.flatten = line ++ crlf ++ rest) :
    let r := Receiver.feedAll f ⟨[], h0, false⟩ chunks
    r.h = h0 ∧ r.closed = true := by
  have key : ∀ (chunks : List Str) (b : Str), b.length ≤ 16384 → b ++ chunks.flatten = line ++ crlf ++ rest →
      (Receiver.feedAll f ⟨b, h0, false⟩ chunks).h = h0 ∧ (Receiver.feedAll f ⟨b, h0, false⟩ chunks).closed = true := by
    intro chunks
    induction chunks with
    | nil =>
      intro b hb he
      have := congrArg List.length he
      simp at this
      omega
    | cons c cs ih =>
      intro b hb he
      have hstep : Receiver.feedAll f ⟨b, h0, false⟩ (c :: cs) =
          Receiver.feedAll f (Receiver.drain f ⟨b ++ c, h0, false⟩) cs := by
        simp [Receiver.feedAll, Receiver.feed]
      have hclosed : ∀ r : Receiver H, r.closed = true → r.h = h0 →
          (Receiver.feedAll f r cs).h = h0 ∧ (Receiver.feedAll f r cs).closed = true := by
        intro r h1 h2
        rw [feedAll_closed f r h1]; exact ⟨h2, h1⟩
      rw [hstep, Receiver.drain]
      split
      · rename_i hs
        by_cases h : (b ++ c).length > maxLength
        · simp only [h, if_true]; exact hclosed _ rfl rfl
        · simp only [h, if_false]
          exact ih (b ++ c) (by simpa [maxLength] using h) (by simpa using he)
      · rename_i l r hs
        obtain ⟨e, hn⟩ := splitCrlf_some hs
        simp only at e
        have e2 : l ++ crlf ++ (r ++ cs.flatten) = line ++ crlf ++ rest := by
          rw [← he, List.flatten_cons, ← List.append_assoc b, e]; simp
        have h1 := splitCrlf_append (b := r ++ cs.flatten) hn
        rw [e2, splitCrlf_append hl] at h1
        have h2 : line = l := by injection h1 with h1; exact congrArg Prod.fst h1
        subst h2
        simp only [show line.length > maxLength from hlen, if_true]
        exact hclosed _ rfl rfl
  exact key chunks [] (by simp) (by simpa using hc)

example : NoCrlf (List.replicate 16385 'x') ∧ 16384 < (List.replicate 16385 'x').length := by
  refine ⟨fun h => ?_, by rw [List.length_replicate]; omega⟩
  have := List.eq_of_mem_replicate (h.subset (by simp [crlf] : '\r' ∈ crlf))
  revert this; decide

/-- C80, full statement: every line of a connection that is not the monitor message is scheduled for
processing. This theorem: it is, if the connection carries at most one such line, as its last.
Missing: connections with further lines, for which the statement is false (`C80_refuted`). -/
theorem C80_single_line_partial (mon : Monitor) (pings : List Str) (line : Str)
    (hp : ∀ l ∈ pings, mon.message = some l) (hm : mon.message ≠ some line)
    (hl : ∀ l ∈ pings ++ [line], NoCrlf l ∧ l.length < 16384) (chunks : List Str)
    (hc : chunks.flatten = stream (pings ++ [line])) :
    (Receiver.feedAll mon.lineReceived ⟨[], [], false⟩ chunks).h =
      pings.map (fun _ => .answer mon.response) ++ [.schedule line] := by
  rw [(C80_first_line_only mon _ hl chunks hc).1]
  congr 1
  · rw [List.takeWhile_append_of_pos (by simpa using hp)]
    simp [hm]
  · rw [List.find?_append]
    have : pings.find? (fun l => mon.message ≠ some l) = none := by
      rw [List.find?_eq_none]; intro x hx; simp [hp x hx]
    rw [this]; simp [hm]

/-- C80 is false: of two lines sent over one connection only the first is processed. -/
theorem C80_refuted :
    ¬ ∀ (mon : Monitor) (ls chunks : List Str), (∀ l ∈ ls, NoCrlf l ∧ l.length < 16384) →
      chunks.flatten = stream ls → ∀ l ∈ ls, mon.message ≠ some l →
      .schedule l ∈ (Receiver.feedAll mon.lineReceived ⟨[], [], false⟩ chunks).h := by
  intro h
  have := h ⟨none, []⟩ [c!"a:1|c", c!"b:1|c"] [c!"a:1|c\r\n", c!"b:1|c\r\n"] (by
      intro t ht
      simp only [List.mem_cons, List.not_mem_nil, or_false] at ht
      rcases ht with rfl | rfl
      · exact ⟨by unfold NoCrlf; decide, by decide⟩
      · exact ⟨by unfold NoCrlf; decide, by decide⟩) (by decide) c!"b:1|c" (by simp) (by simp)
  revert this
  decide +kernel

end Txstatsd
