import Verif.Spec.Client
import Mathlib.Data.List.Basic
import Mathlib.Data.List.Induction
import Mathlib.Tactic.Common

set_option linter.unusedSectionVars false
set_option linter.unusedSimpArgs false
set_option linter.unusedVariables false

namespace Txstatsd

/-! ## The queue -/

theorem DataQueue.runOps_eq (n : Nat) (ops : List QueueOp) :
    (DataQueue.init n).runOps ops = { limit := n, queue := (writtenSince ops).take n } := by
  induction ops using List.reverseRecOn with
  | nil => simp [DataQueue.runOps, DataQueue.init, writtenSince]
  | append_singleton ops o ih =>
    unfold DataQueue.runOps writtenSince at *
    rw [List.foldl_append, List.foldl_append, ih]
    cases o with
    | flush => simp [DataQueue.flush]
    | write m =>
      simp only [List.foldl_cons, List.foldl_nil, DataQueue.write]
      generalize List.foldl _ ([] : List Msg) ops = l
      split
      · rename_i h
        rw [List.length_take] at h
        have : l.length < n := by omega
        rw [List.take_of_length_le (by omega), List.take_of_length_le (by simp; omega)]
      · rename_i h
        rw [List.length_take] at h
        rw [List.take_append_of_le_length (by omega)]

namespace TwistedClient

/-- Client and link agree. -/
structure Core (c : TwistedClient) (l : Link) : Prop where
  conn : l.connected = c.transport.isSome
  res : l.resolved = c.gateway.isSome
  lim : c.queue.limit = 1000
  wait : c.queue.queue.length = l.waiting
  wle : l.waiting ≤ 1000
  gwv : ∀ g, c.gateway = some g → g < c.gateways.length
  gwt : ∀ g t, c.gateway = some g → c.transport = some t → ∃ gw, c.gateways[g]? = some gw ∧ gw.transport.isSome
  rea : ∀ x ∈ c.reactor, ∃ gw, c.gateways[x.1]? = some gw ∧ gw.transport.isSome

/-- Nothing waits when the link is up. -/
def Idle (c : TwistedClient) : Prop := c.gateway.isSome → c.transport.isSome → c.queue.queue = []

theorem write_fixed (c : TwistedClient) (m : Msg) :
    (c.write m).sent = c.sent ∧ (c.write m).calls = c.calls ∧ (c.write m).gateways = c.gateways ∧ (c.write m).onConnect = c.onConnect ∧
    (c.write m).onDisconnect = c.onDisconnect ∧ (c.write m).gateway = c.gateway ∧ (c.write m).transport = c.transport ∧
    (c.write m).escaped = c.escaped := by
  unfold write; split <;> simp

theorem writeAll_fixed (ms : List Msg) : ∀ c : TwistedClient,
    (c.writeAll ms).sent = c.sent ∧ (c.writeAll ms).calls = c.calls ∧ (c.writeAll ms).gateways = c.gateways ∧
    (c.writeAll ms).onConnect = c.onConnect ∧ (c.writeAll ms).onDisconnect = c.onDisconnect ∧ (c.writeAll ms).gateway = c.gateway ∧
    (c.writeAll ms).transport = c.transport ∧ (c.writeAll ms).escaped = c.escaped := by
  induction ms with
  | nil => intro c; simp [writeAll]
  | cons m ms ih =>
    intro c
    have h := ih (c.write m)
    have h1 := write_fixed c m
    rw [h1.1, h1.2.1, h1.2.2.1, h1.2.2.2.1, h1.2.2.2.2.1, h1.2.2.2.2.2.1, h1.2.2.2.2.2.2.1, h1.2.2.2.2.2.2.2] at h
    exact h

theorem flushItems_fixed (c : TwistedClient) :
    (c.flushItems).sent = c.sent ∧ (c.flushItems).calls = c.calls ∧ (c.flushItems).gateways = c.gateways ∧
    (c.flushItems).onConnect = c.onConnect ∧ (c.flushItems).onDisconnect = c.onDisconnect ∧ (c.flushItems).gateway = c.gateway ∧
    (c.flushItems).transport = c.transport ∧ (c.flushItems).escaped = c.escaped :=
  writeAll_fixed _ _

theorem write_online {c : TwistedClient} {g t : Nat} (hg : c.gateway = some g) (ht : c.transport = some t) (m : Msg) :
    c.write m = { c with reactor := c.reactor ++ [(g, m)] } := by
  unfold write; rw [hg, ht]

theorem write_offline {c : TwistedClient} (h : ¬ (c.gateway.isSome ∧ c.transport.isSome)) (m : Msg) :
    c.write m = { c with queue := c.queue.write m } := by
  unfold write
  split
  · rename_i h1 h2; simp [h1, h2] at h
  · rfl

theorem writeAll_online (ms : List Msg) : ∀ {c : TwistedClient} {g t : Nat}, c.gateway = some g → c.transport = some t →
    c.writeAll ms = { c with reactor := c.reactor ++ ms.map fun m => (g, m) } := by
  induction ms with
  | nil => intro c g t hg ht; simp [writeAll]
  | cons m ms ih =>
    intro c g t hg ht
    show (c.write m).writeAll ms = _
    rw [write_online hg ht, ih (c := { c with reactor := c.reactor ++ [(g, m)] }) hg ht]
    simp

theorem writeAll_offline (ms : List Msg) : ∀ {c : TwistedClient}, ¬ (c.gateway.isSome ∧ c.transport.isSome) →
    c.writeAll ms = { c with queue := ms.foldl DataQueue.write c.queue } := by
  induction ms with
  | nil => intro c h; simp [writeAll]
  | cons m ms ih =>
    intro c h
    show (c.write m).writeAll ms = _
    rw [write_offline h, ih (c := { c with queue := c.queue.write m }) h]
    simp

theorem foldl_write_fits (ms : List Msg) : ∀ q : DataQueue, q.queue.length + ms.length ≤ q.limit →
    ms.foldl DataQueue.write q = { q with queue := q.queue ++ ms } := by
  induction ms with
  | nil => intro q h; simp
  | cons m ms ih =>
    intro q h
    simp only [List.length_cons] at h
    rw [List.foldl_cons]
    have : q.write m = { q with queue := q.queue ++ [m] } := by unfold DataQueue.write; rw [if_pos (by omega)]
    rw [this, ih _ (by simp; omega)]
    simp

theorem flushItems_online {c : TwistedClient} {g t : Nat} (hg : c.gateway = some g) (ht : c.transport = some t) :
    c.flushItems = { c with queue := { c.queue with queue := [] }, reactor := c.reactor ++ c.queue.queue.map fun m => (g, m) } := by
  show writeAll { c with queue := { c.queue with queue := [] } } c.queue.queue = _
  rw [writeAll_online (c := { c with queue := { c.queue with queue := [] } }) _ hg ht]

theorem flushItems_offline {c : TwistedClient} (h : ¬ (c.gateway.isSome ∧ c.transport.isSome)) (hl : c.queue.queue.length ≤ c.queue.limit) :
    c.flushItems = c := by
  show writeAll { c with queue := { c.queue with queue := [] } } c.queue.queue = _
  rw [writeAll_offline (c := { c with queue := { c.queue with queue := [] } }) _ h, foldl_write_fits _ _ (by simpa using hl)]
  simp

theorem Core.write {c : TwistedClient} {l : Link} (h : Core c l) (m : Msg) : Core (c.write m) (l.offer m) := by
  obtain ⟨conn, res, lim, wait, wle, gwv, gwt, rea⟩ := h
  by_cases ho : c.gateway.isSome ∧ c.transport.isSome
  · obtain ⟨g, hg⟩ := Option.isSome_iff_exists.mp ho.1
    obtain ⟨t, ht⟩ := Option.isSome_iff_exists.mp ho.2
    rw [write_online hg ht]
    have : l.offer m = { l with accepted := l.accepted ++ [m] } := by
      unfold Link.offer; rw [if_pos (by rw [conn, res, ho.1, ho.2]; rfl)]
    rw [this]
    refine ⟨conn, res, lim, wait, wle, gwv, gwt, ?_⟩
    intro x hx
    rcases List.mem_append.mp hx with hx | hx
    · exact rea x hx
    · simp only [List.mem_singleton] at hx; subst hx; exact gwt g t hg ht
  · rw [write_offline ho]
    have hn : ¬ ((l.connected && l.resolved) = true) := by
      rw [conn, res]; intro hc; simp only [Bool.and_eq_true] at hc; exact ho ⟨hc.2, hc.1⟩
    by_cases hw : l.waiting < 1000
    · have h1 : l.offer m = { l with waiting := l.waiting + 1, accepted := l.accepted ++ [m] } := by
        unfold Link.offer; rw [if_neg hn, if_pos hw]
      have h2 : c.queue.write m = { c.queue with queue := c.queue.queue ++ [m] } := by
        unfold DataQueue.write; rw [if_pos (by omega)]
      rw [h1, h2]
      exact ⟨conn, res, lim, by simp [wait], by simp; omega, gwv, gwt, rea⟩
    · have h1 : l.offer m = l := by unfold Link.offer; rw [if_neg hn, if_neg hw]
      have h2 : c.queue.write m = c.queue := by unfold DataQueue.write; rw [if_neg (by omega)]
      rw [h1, h2]
      exact ⟨conn, res, lim, wait, wle, gwv, gwt, rea⟩

theorem contents_write_perm {c : TwistedClient} {l : Link} (h : Core c l) (hp : c.contents.Perm l.accepted) (m : Msg) :
    (c.write m).contents.Perm (l.offer m).accepted := by
  obtain ⟨conn, res, lim, wait, wle, gwv, gwt, rea⟩ := h
  by_cases ho : c.gateway.isSome ∧ c.transport.isSome
  · obtain ⟨g, hg⟩ := Option.isSome_iff_exists.mp ho.1
    obtain ⟨t, ht⟩ := Option.isSome_iff_exists.mp ho.2
    rw [write_online hg ht]
    have : l.offer m = { l with accepted := l.accepted ++ [m] } := by
      unfold Link.offer; rw [if_pos (by rw [conn, res, ho.1, ho.2]; rfl)]
    rw [this]
    refine List.Perm.trans ?_ (hp.append_right [m])
    simp only [contents, List.map_append, List.map_cons, List.map_nil, List.append_assoc]
    exact (List.perm_append_comm).append_left _ |>.append_left _
  · rw [write_offline ho]
    have hn : ¬ ((l.connected && l.resolved) = true) := by
      rw [conn, res]; intro hc; simp only [Bool.and_eq_true] at hc; exact ho ⟨hc.2, hc.1⟩
    by_cases hw : l.waiting < 1000
    · have h1 : l.offer m = { l with waiting := l.waiting + 1, accepted := l.accepted ++ [m] } := by
        unfold Link.offer; rw [if_neg hn, if_pos hw]
      have h2 : c.queue.write m = { c.queue with queue := c.queue.queue ++ [m] } := by
        unfold DataQueue.write; rw [if_pos (by omega)]
      rw [h1, h2]
      simp only [contents, ← List.append_assoc]
      exact hp.append_right [m]
    · have h1 : l.offer m = l := by unfold Link.offer; rw [if_neg hn, if_neg hw]
      have h2 : c.queue.write m = c.queue := by unfold DataQueue.write; rw [if_neg (by omega)]
      rw [h1, h2]
      exact hp

theorem contents_write_eq {c : TwistedClient} {l : Link} (h : Core c l) (hi : Idle c) (hp : c.contents = l.accepted) (m : Msg) :
    (c.write m).contents = (l.offer m).accepted ∧ Idle (c.write m) := by
  obtain ⟨conn, res, lim, wait, wle, gwv, gwt, rea⟩ := h
  by_cases ho : c.gateway.isSome ∧ c.transport.isSome
  · obtain ⟨g, hg⟩ := Option.isSome_iff_exists.mp ho.1
    obtain ⟨t, ht⟩ := Option.isSome_iff_exists.mp ho.2
    rw [write_online hg ht]
    have : l.offer m = { l with accepted := l.accepted ++ [m] } := by
      unfold Link.offer; rw [if_pos (by rw [conn, res, ho.1, ho.2]; rfl)]
    rw [this]
    have hq := hi ho.1 ho.2
    refine ⟨?_, fun _ _ => hq⟩
    simp only [contents] at hp ⊢
    rw [← hp, hq]; simp
  · rw [write_offline ho]
    refine ⟨?_, fun h1 h2 => absurd ⟨h1, h2⟩ ho⟩
    have hn : ¬ ((l.connected && l.resolved) = true) := by
      rw [conn, res]; intro hc; simp only [Bool.and_eq_true] at hc; exact ho ⟨hc.2, hc.1⟩
    by_cases hw : l.waiting < 1000
    · have h1 : l.offer m = { l with waiting := l.waiting + 1, accepted := l.accepted ++ [m] } := by
        unfold Link.offer; rw [if_neg hn, if_pos hw]
      have h2 : c.queue.write m = { c.queue with queue := c.queue.queue ++ [m] } := by
        unfold DataQueue.write; rw [if_pos (by omega)]
      rw [h1, h2]
      simp only [contents, ← List.append_assoc] at hp ⊢
      rw [hp]
    · have h1 : l.offer m = l := by unfold Link.offer; rw [if_neg hn, if_neg hw]
      have h2 : c.queue.write m = c.queue := by unfold DataQueue.write; rw [if_neg (by omega)]
      rw [h1, h2]
      exact hp

theorem Core.writeAll (ms : List Msg) : ∀ {c : TwistedClient} {l : Link}, Core c l → Core (c.writeAll ms) (ms.foldl Link.offer l) := by
  induction ms with
  | nil => intro c l h; exact h
  | cons m ms ih => intro c l h; exact ih (h.write m)

theorem contents_writeAll_perm (ms : List Msg) : ∀ {c : TwistedClient} {l : Link}, Core c l → c.contents.Perm l.accepted →
    (c.writeAll ms).contents.Perm (ms.foldl Link.offer l).accepted := by
  induction ms with
  | nil => intro c l h hp; exact hp
  | cons m ms ih => intro c l h hp; exact ih (h.write m) (contents_write_perm h hp m)

theorem contents_writeAll_eq (ms : List Msg) : ∀ {c : TwistedClient} {l : Link}, Core c l → Idle c → c.contents = l.accepted →
    (c.writeAll ms).contents = (ms.foldl Link.offer l).accepted ∧ Idle (c.writeAll ms) := by
  induction ms with
  | nil => intro c l h hi hp; exact ⟨hp, hi⟩
  | cons m ms ih => intro c l h hi hp; exact ih (h.write m) (contents_write_eq h hi hp m).2 (contents_write_eq h hi hp m).1

theorem Core.flushItems {c : TwistedClient} {l : Link} (h : Core c l) :
    Core c.flushItems l.settle ∧ c.flushItems.contents = c.contents ∧ Idle c.flushItems ∧ l.settle.accepted = l.accepted := by
  obtain ⟨conn, res, lim, wait, wle, gwv, gwt, rea⟩ := h
  by_cases ho : c.gateway.isSome ∧ c.transport.isSome
  · obtain ⟨g, hg⟩ := Option.isSome_iff_exists.mp ho.1
    obtain ⟨t, ht⟩ := Option.isSome_iff_exists.mp ho.2
    rw [flushItems_online hg ht]
    have : l.settle = { l with waiting := 0 } := by unfold Link.settle; rw [if_pos (by rw [conn, res, ho.1, ho.2]; rfl)]
    rw [this]
    refine ⟨⟨conn, res, lim, rfl, by simp, gwv, gwt, ?_⟩, ?_, fun _ _ => rfl, rfl⟩
    · intro x hx
      rcases List.mem_append.mp hx with hx | hx
      · exact rea x hx
      · obtain ⟨m, _, rfl⟩ := List.mem_map.mp hx; exact gwt g t hg ht
    · simp [contents, Function.comp_def]
  · rw [flushItems_offline ho (by omega)]
    have hn : ¬ ((l.connected && l.resolved) = true) := by
      rw [conn, res]; intro hc; simp only [Bool.and_eq_true] at hc; exact ho ⟨hc.2, hc.1⟩
    have : l.settle = l := by unfold Link.settle; rw [if_neg hn]
    rw [this]
    exact ⟨⟨conn, res, lim, wait, wle, gwv, gwt, rea⟩, rfl, fun h1 h2 => absurd ⟨h1, h2⟩ ho, rfl⟩

/-- The whole invariant. -/
structure Inv (hello bye : List Msg) (c : TwistedClient) (l : Link) : Prop where
  core : Core c l
  idle : Idle c
  perm : c.contents.Perm l.accepted
  eq : hello = [] → c.contents = l.accepted
  onc : c.onConnect = hello
  ond : c.onDisconnect = bye

/-- `connect` before its flush. -/
def attach (c : TwistedClient) (t : Nat) : TwistedClient :=
  match c.gateway with
  | none => { c with transport := some t }
  | some g => { c with transport := some t, gateways := c.gateways.modify g fun gw => { gw with transport := some t } }

theorem connect_some (c : TwistedClient) (t : Nat) : c.connect (some t) = (c.attach t).flushItems := by
  unfold connect attach
  cases hg : c.gateway <;> simp [hg]

theorem attach_fixed (c : TwistedClient) (t : Nat) :
    (c.attach t).sent = c.sent ∧ (c.attach t).calls = c.calls ∧ (c.attach t).onConnect = c.onConnect ∧
    (c.attach t).onDisconnect = c.onDisconnect ∧ (c.attach t).gateway = c.gateway ∧ (c.attach t).queue = c.queue ∧
    (c.attach t).reactor = c.reactor ∧ (c.attach t).transport = some t := by
  unfold attach; cases hg : c.gateway <;> simp

theorem attach_gateway {c : TwistedClient} {t : Nat} {i : Nat} {gw : Gateway} (h : (c.attach t).gateways[i]? = some gw) :
    ∃ gw', c.gateways[i]? = some gw' ∧ gw.host = gw'.host ∧ (gw.transport = some t ∨ gw.transport = gw'.transport) := by
  unfold attach at h
  cases hg : c.gateway with
  | none => rw [hg] at h; exact ⟨gw, h, rfl, Or.inr rfl⟩
  | some g =>
    rw [hg] at h
    simp only [List.getElem?_modify] at h
    cases hi : c.gateways[i]? with
    | none => rw [hi] at h; simp at h
    | some gw' =>
      rw [hi] at h
      simp only [Option.map_some, Option.map_eq_map, Option.some.injEq] at h
      refine ⟨gw', rfl, ?_⟩
      by_cases hgi : g = i
      · rw [if_pos hgi] at h; subst h; simp
      · rw [if_neg hgi] at h; subst h; simp

theorem attach_isSome {c : TwistedClient} {t i : Nat} (h : ∃ gw, c.gateways[i]? = some gw ∧ gw.transport.isSome) :
    ∃ gw, (c.attach t).gateways[i]? = some gw ∧ gw.transport.isSome := by
  obtain ⟨gw, h1, h2⟩ := h
  unfold attach
  cases hg : c.gateway with
  | none => exact ⟨gw, h1, h2⟩
  | some g =>
    simp only [List.getElem?_modify, h1]
    by_cases hgi : g = i
    · exact ⟨_, by simp only [hgi, if_true, Option.map_some, Option.map_eq_map]; rfl, by simp⟩
    · exact ⟨gw, by simp [hgi], h2⟩

theorem Inv.step {hello bye : List Msg} {c : TwistedClient} {l : Link} (h : Inv hello bye c l) (behave : Nat → Option Nat → Option PyErr)
    (o : ClientOp) : Inv hello bye (c.runOps behave [o]) (l.step hello bye o) := by
  obtain ⟨core, idle, perm, eq, onc, ond⟩ := h
  cases o with
  | write m =>
    refine ⟨core.write m, ?_, contents_write_perm core perm m, fun hh => (contents_write_eq core idle (eq hh) m).1, ?_, ?_⟩
    · intro h1 h2
      have hf := write_fixed c m
      have h1 : (c.write m).gateway.isSome := h1
      have h2 : (c.write m).transport.isSome := h2
      rw [hf.2.2.2.2.2.1] at h1; rw [hf.2.2.2.2.2.2.1] at h2
      obtain ⟨g, hg⟩ := Option.isSome_iff_exists.mp h1
      obtain ⟨t, ht⟩ := Option.isSome_iff_exists.mp h2
      show (c.write m).queue.queue = []
      rw [write_online hg ht]
      exact idle h1 h2
    · exact (write_fixed c m).2.2.2.1.trans onc
    · exact (write_fixed c m).2.2.2.2.1.trans ond
  | connect t =>
    have hf : ∀ {c' : TwistedClient} {l' : Link}, Core c' l' → c'.contents.Perm l'.accepted → (hello = [] → c'.contents = l'.accepted) →
        c'.onConnect = hello → c'.onDisconnect = bye → Inv hello bye c'.flushItems l'.settle := by
      intro c' l' h1 h2 h3 h4 h5
      obtain ⟨a, b, d, e⟩ := h1.flushItems
      refine ⟨a, d, by rw [b, e]; exact h2, fun hh => by rw [b, e]; exact h3 hh, ?_, ?_⟩
      · exact (flushItems_fixed c').2.2.2.1.trans h4
      · exact (flushItems_fixed c').2.2.2.2.1.trans h5
    cases t with
    | none => exact hf core perm eq onc ond
    | some t =>
      show Inv hello bye (c.connect (some t)) { l with connected := true }.settle
      rw [connect_some]
      have ha := attach_fixed c t
      have hc : (c.attach t).contents = c.contents := by unfold contents; rw [ha.1, ha.2.2.2.2.2.1, ha.2.2.2.2.2.2.1]
      refine hf ⟨?_, ?_, ?_, ?_, core.wle, ?_, ?_, ?_⟩ (by rw [hc]; exact perm) (fun hh => by rw [hc]; exact eq hh) (ha.2.2.1.trans onc)
        (ha.2.2.2.1.trans ond)
      · rw [ha.2.2.2.2.2.2.2]; rfl
      · rw [ha.2.2.2.2.1]; exact core.res
      · rw [ha.2.2.2.2.2.1]; exact core.lim
      · rw [ha.2.2.2.2.2.1]; exact core.wait
      · intro g hg
        rw [ha.2.2.2.2.1] at hg
        have := core.gwv g hg
        unfold attach; rw [hg]; simpa using this
      · intro g t' hg _
        rw [ha.2.2.2.2.1] at hg
        have := core.gwv g hg
        unfold attach; rw [hg]
        simp only [List.getElem?_modify, List.getElem?_eq_getElem this]
        exact ⟨_, rfl, by simp⟩
      · intro x hx
        rw [ha.2.2.2.2.2.2.1] at hx
        exact attach_isSome (core.rea x hx)
  | disconnect =>
    show Inv hello bye c.disconnect { bye.foldl Link.offer l with connected := false }
    have h1 := Core.writeAll bye core
    have h2 := contents_writeAll_perm bye core perm
    have hf := writeAll_fixed bye c
    unfold disconnect
    rw [ond]
    refine ⟨⟨rfl, h1.res, h1.lim, h1.wait, h1.wle, h1.gwv, ?_, h1.rea⟩, ?_, h2, ?_, hf.2.2.2.1.trans onc, hf.2.2.2.2.1.trans ond⟩
    · intro g t _ ht; simp at ht
    · intro _ ht; simp at ht
    · intro hh; exact (contents_writeAll_eq bye core idle (eq hh)).1
  | resolved ip =>
    show Inv hello bye (c.hostResolved ip) (hello.foldl Link.offer { l with resolved := true }).settle
    let c1 : TwistedClient := { c with
      host := ip
      gateway := some c.gateways.length
      gateways := c.gateways ++ [({ transport := c.transport, host := ip } : Gateway)] }
    have hc1 : Core c1 { l with resolved := true } := by
      refine ⟨core.conn, rfl, core.lim, core.wait, core.wle, ?_, ?_, ?_⟩
      · intro g hg
        simp only [c1, Option.some.injEq] at hg
        simp [c1, ← hg]
      · intro g t hg ht
        simp only [c1, Option.some.injEq] at hg
        have ht : c.transport = some t := ht
        exact ⟨_, by simp only [c1, ← hg, List.getElem?_concat_length]; rfl, by simp [ht]⟩
      · intro x hx
        obtain ⟨gw, h1, h2⟩ := core.rea x hx
        refine ⟨gw, ?_, h2⟩
        have : x.1 < c.gateways.length := by
          by_contra hlt
          rw [List.getElem?_eq_none (by omega)] at h1; simp at h1
        simp only [c1]
        rw [List.getElem?_append_left this]; exact h1
    have hw := Core.writeAll hello hc1
    obtain ⟨a, b, d, e⟩ := hw.flushItems
    have hperm := contents_writeAll_perm hello hc1 (show c1.contents.Perm l.accepted from perm)
    have hrw : c.hostResolved ip = (c1.writeAll hello).flushItems := by
      rw [← onc]; rfl
    rw [hrw]
    have hf := writeAll_fixed hello c1
    have hg := flushItems_fixed (c1.writeAll hello)
    refine ⟨a, d, by rw [b, e]; exact hperm, ?_, ?_, ?_⟩
    · intro hh
      rw [b, e]
      subst hh
      exact eq rfl
    · exact (hg.2.2.2.1.trans hf.2.2.2.1).trans onc
    · exact (hg.2.2.2.2.1.trans hf.2.2.2.2.1).trans ond
  | turn r =>
    show Inv hello bye (c.turn behave r) l
    unfold turn
    match hr : c.reactor with
    | [] => exact ⟨core, idle, perm, eq, onc, ond⟩
    | (g, m) :: rest =>
      obtain ⟨gw, h1, h2⟩ := core.rea (g, m) (by rw [hr]; simp)
      obtain ⟨t, ht⟩ := Option.isSome_iff_exists.mp h2
      simp only [h1, ht]
      have hcon : ∀ cs es, contents { c with reactor := rest, sent := c.sent ++ [⟨t, gw.host, m, r⟩], calls := cs, escaped := es } = c.contents := by
        intro cs es; simp [contents, hr]
      refine ⟨⟨core.conn, core.res, core.lim, core.wait, core.wle, core.gwv, core.gwt, ?_⟩, idle, ?_, ?_, onc, ond⟩
      · intro x hx; exact core.rea x (by rw [hr]; exact List.mem_cons_of_mem _ hx)
      · rw [hcon]; exact perm
      · intro hh; rw [hcon]; exact eq hh

theorem runOps_snoc (behave : Nat → Option Nat → Option PyErr) (c : TwistedClient) (ops : List ClientOp) (o : ClientOp) :
    c.runOps behave (ops ++ [o]) = (c.runOps behave ops).runOps behave [o] := by
  simp [runOps]

/-- The client before the host is looked at. -/
def blank (host : Str) (hello bye : List Msg) : TwistedClient where
  host := host
  queue := DataQueue.init
  transport := none
  gateway := none
  gateways := []
  onConnect := hello
  onDisconnect := bye
  reactor := []
  sent := []
  calls := []
  escaped := []

theorem inv_init (host : Str) (isIp : Bool) (hello bye : List Msg) (behave : Nat → Option Nat → Option PyErr) :
    Inv hello bye (init host isIp hello bye) (linkAfter isIp hello bye []) := by
  have h0 : Inv hello bye (blank host hello bye)
      { connected := false, resolved := false, waiting := 0, accepted := [] } :=
    ⟨⟨rfl, rfl, rfl, rfl, by simp, by simp [blank], by simp [blank], by simp [blank]⟩, fun _ _ => rfl, List.Perm.refl _, fun _ => rfl, rfl, rfl⟩
  cases isIp with
  | false => exact h0
  | true => exact h0.step behave (.resolved host)

theorem inv_run (host : Str) (isIp : Bool) (hello bye : List Msg) (behave : Nat → Option Nat → Option PyErr) (ops : List ClientOp) :
    Inv hello bye ((init host isIp hello bye).runOps behave ops) (linkAfter isIp hello bye ops) := by
  induction ops using List.reverseRecOn with
  | nil => exact inv_init host isIp hello bye behave
  | append_singleton ops o ih =>
    rw [runOps_snoc]
    have : linkAfter isIp hello bye (ops ++ [o]) = (linkAfter isIp hello bye ops).step hello bye o := by
      simp [linkAfter]
    rw [this]
    exact ih.step behave o

/-! ## What is accepted -/

theorem offer_accepted (l : Link) (m : Msg) :
    (l.offer m).accepted = l.accepted ++ [m] ∨ (l.offer m).accepted = l.accepted ∧ l.waiting = 1000 ∨ (l.offer m).accepted = l.accepted ∧ 1000 < l.waiting := by
  unfold Link.offer
  split
  · exact Or.inl rfl
  · split
    · exact Or.inl rfl
    · right
      rename_i h
      rcases Nat.lt_or_eq_of_le (Nat.le_of_not_lt h) with h | h
      · exact Or.inr ⟨rfl, h⟩
      · exact Or.inl ⟨rfl, h.symm⟩

theorem offer_sublist {l : Link} {w : List Msg} (h : l.accepted.Sublist w) (m : Msg) : (l.offer m).accepted.Sublist (w ++ [m]) := by
  rcases offer_accepted l m with h1 | h1 | h1
  · rw [h1]; exact h.append (List.Sublist.refl _)
  · rw [h1.1]; exact h.trans (List.sublist_append_left _ _)
  · rw [h1.1]; exact h.trans (List.sublist_append_left _ _)

theorem offers_sublist (ms : List Msg) : ∀ {l : Link} {w : List Msg}, l.accepted.Sublist w →
    (ms.foldl Link.offer l).accepted.Sublist (w ++ ms) := by
  induction ms with
  | nil => intro l w h; simpa using h
  | cons m ms ih =>
    intro l w h
    have := ih (offer_sublist h m)
    simpa using this

theorem settle_accepted (l : Link) : l.settle.accepted = l.accepted := by unfold Link.settle; split <;> rfl

theorem accepted_sublist (isIp : Bool) (hello bye : List Msg) (ops : List ClientOp) :
    (linkAfter isIp hello bye ops).accepted.Sublist (offered isIp hello bye ops) := by
  induction ops using List.reverseRecOn with
  | nil =>
    cases isIp with
    | false => simp [linkAfter, offered]
    | true =>
      simp only [linkAfter, offered, List.foldl_nil, if_true, Link.step, settle_accepted, List.flatMap_nil, List.append_nil]
      have := offers_sublist hello (l := { connected := false, resolved := true, waiting := 0, accepted := [] }) (w := []) (List.Sublist.refl _)
      simpa using this
  | append_singleton ops o ih =>
    have h1 : linkAfter isIp hello bye (ops ++ [o]) = (linkAfter isIp hello bye ops).step hello bye o := by simp [linkAfter]
    have h2 : offered isIp hello bye (ops ++ [o]) = offered isIp hello bye ops ++
        (match o with | .write m => [m] | .disconnect => bye | .resolved _ => hello | _ => []) := by
      cases o <;> simp [offered]
    rw [h1, h2]
    cases o with
    | write m => exact offer_sublist ih m
    | connect t =>
      cases t with
      | none => simpa [Link.step, settle_accepted] using ih
      | some t => simpa [Link.step, settle_accepted] using ih
    | disconnect => exact offers_sublist bye ih
    | resolved ip =>
      simp only [Link.step, settle_accepted]
      exact offers_sublist hello (l := { linkAfter isIp hello bye ops with resolved := true }) ih
    | turn r => simpa [Link.step] using ih

/-! ## Where datagrams go -/

/-- Hosts and transports are known ones. -/
structure Known (P : Str → Prop) (Q : Nat → Prop) (c : TwistedClient) : Prop where
  tr : ∀ t, c.transport = some t → Q t
  gw : ∀ g ∈ c.gateways, P g.host ∧ ∀ t, g.transport = some t → Q t
  snt : ∀ s ∈ c.sent, P s.host ∧ Q s.transport

theorem Known.of_fixed {P : Str → Prop} {Q : Nat → Prop} {c c' : TwistedClient} (h : Known P Q c) (h1 : c'.sent = c.sent)
    (h2 : c'.gateways = c.gateways) (h3 : c'.transport = c.transport) : Known P Q c' := by
  obtain ⟨a, b, d⟩ := h
  exact ⟨by rw [h3]; exact a, by rw [h2]; exact b, by rw [h1]; exact d⟩

theorem Known.writeAll {P : Str → Prop} {Q : Nat → Prop} {c : TwistedClient} (h : Known P Q c) (ms : List Msg) : Known P Q (c.writeAll ms) :=
  h.of_fixed (writeAll_fixed ms c).1 (writeAll_fixed ms c).2.2.1 (writeAll_fixed ms c).2.2.2.2.2.2.1

theorem Known.flushItems {P : Str → Prop} {Q : Nat → Prop} {c : TwistedClient} (h : Known P Q c) : Known P Q c.flushItems :=
  h.of_fixed (flushItems_fixed c).1 (flushItems_fixed c).2.2.1 (flushItems_fixed c).2.2.2.2.2.2.1

theorem Known.hostResolved {P : Str → Prop} {Q : Nat → Prop} {c : TwistedClient} (h : Known P Q c) {ip : Str} (hip : P ip) :
    Known P Q (c.hostResolved ip) := by
  unfold TwistedClient.hostResolved
  refine Known.flushItems (Known.writeAll ?_ _)
  refine ⟨h.tr, ?_, h.snt⟩
  intro g hg
  rcases List.mem_append.mp hg with hg | hg
  · exact h.gw g hg
  · simp only [List.mem_singleton] at hg; subst hg; exact ⟨hip, h.tr⟩

theorem Known.step {P : Str → Prop} {Q : Nat → Prop} {c : TwistedClient} (h : Known P Q c) (behave : Nat → Option Nat → Option PyErr)
    (o : ClientOp) (hip : ∀ ip, o = .resolved ip → P ip) (htr : ∀ t, o = .connect (some t) → Q t) : Known P Q (c.runOps behave [o]) := by
  cases o with
  | write m => exact h.writeAll [m]
  | connect t =>
    cases t with
    | none => exact h.flushItems
    | some t =>
      show Known P Q (c.connect (some t))
      rw [connect_some]
      have ha := attach_fixed c t
      refine Known.flushItems ⟨?_, ?_, ?_⟩
      · intro t' ht'
        rw [ha.2.2.2.2.2.2.2] at ht'
        simp only [Option.some.injEq] at ht'
        subst ht'; exact htr t rfl
      · intro g hg
        obtain ⟨i, hi⟩ := List.mem_iff_getElem?.mp hg
        obtain ⟨gw', h1, h2, h3⟩ := attach_gateway hi
        have := h.gw gw' (List.mem_iff_getElem?.mpr ⟨i, h1⟩)
        refine ⟨by rw [h2]; exact this.1, ?_⟩
        intro t' ht'
        rcases h3 with h3 | h3
        · rw [h3] at ht'; simp only [Option.some.injEq] at ht'; subst ht'; exact htr t rfl
        · rw [h3] at ht'; exact this.2 t' ht'
      · rw [ha.1]; exact h.snt
  | disconnect =>
    show Known P Q c.disconnect
    have := h.writeAll c.onDisconnect
    exact ⟨by intro t ht; simp [TwistedClient.disconnect] at ht, this.gw, this.snt⟩
  | resolved ip => exact h.hostResolved (hip ip rfl)
  | turn r =>
    show Known P Q (c.turn behave r)
    unfold turn
    match hr : c.reactor with
    | [] => exact h
    | (g, m) :: rest =>
      simp only
      match h1 : c.gateways[g]? with
      | none => exact ⟨h.tr, h.gw, h.snt⟩
      | some gw =>
        simp only
        match ht : gw.transport with
        | none => exact ⟨h.tr, h.gw, h.snt⟩
        | some t =>
          refine ⟨h.tr, h.gw, ?_⟩
          intro s hs
          rcases List.mem_append.mp hs with hs | hs
          · exact h.snt s hs
          · simp only [List.mem_singleton] at hs
            subst hs
            have := h.gw gw (List.mem_iff_getElem?.mpr ⟨g, h1⟩)
            exact ⟨this.1, this.2 t ht⟩

theorem known_run (P : Str → Prop) (Q : Nat → Prop) (host : Str) (isIp : Bool) (hello bye : List Msg)
    (behave : Nat → Option Nat → Option PyErr) (ops : List ClientOp) (h0 : isIp = true → P host)
    (hip : ∀ ip, ClientOp.resolved ip ∈ ops → P ip) (htr : ∀ t, ClientOp.connect (some t) ∈ ops → Q t) :
    Known P Q ((init host isIp hello bye).runOps behave ops) := by
  induction ops using List.reverseRecOn with
  | nil =>
    have hk : Known P Q (blank host hello bye) := ⟨by simp [blank], by simp [blank], by simp [blank]⟩
    cases isIp with
    | false => exact hk
    | true => exact hk.hostResolved (h0 rfl)
  | append_singleton ops o ih =>
    rw [runOps_snoc]
    refine (ih (fun ip h => hip ip (by simp [h])) (fun t h => htr t (by simp [h]))).step behave o ?_ ?_
    · intro ip h; exact hip ip (by simp [h])
    · intro t h; exact htr t (by simp [h])

/-! ## Callbacks -/

theorem gatewayWrite_calls (behave : Nat → Option Nat → Option PyErr) (s : Sent) :
    (match s.msg.callback with | none => [] | some k => (gatewayWrite s.result (s.msg.callback.map behave)).1.map fun a => (k, a)) =
      expectedCalls behave s := by
  unfold expectedCalls gatewayWrite caughtByWrite
  cases hk : s.msg.callback with
  | none => simp
  | some k =>
    cases hr : s.result with
    | error e =>
      simp only [Option.map_some]
      by_cases he : e = .overflowError ∨ e = .typeError ∨ e = .socketError
      · rw [if_pos he, if_pos (by rcases he with rfl | rfl | rfl <;> rfl)]; rfl
      · rw [if_neg he, if_neg (by cases e <;> simp_all)]; rfl
    | ok n =>
      simp only [Option.map_some]
      cases hb : behave k (some n) with
      | none => rfl
      | some e =>
        simp only
        by_cases he : e = .overflowError ∨ e = .typeError ∨ e = .socketError
        · rw [if_pos he, if_pos (by rcases he with rfl | rfl | rfl <;> rfl)]; rfl
        · rw [if_neg he, if_neg (by cases e <;> simp_all)]; rfl

theorem calls_step (behave : Nat → Option Nat → Option PyErr) (c : TwistedClient) (o : ClientOp)
    (h : c.calls = c.sent.flatMap (expectedCalls behave)) :
    (c.runOps behave [o]).calls = (c.runOps behave [o]).sent.flatMap (expectedCalls behave) := by
  cases o with
  | write m => show (c.write m).calls = _; rw [show c.runOps behave [.write m] = c.write m from rfl, (write_fixed c m).1, (write_fixed c m).2.1]; exact h
  | connect t =>
    cases t with
    | none =>
      rw [show c.runOps behave [.connect none] = c.flushItems from rfl, (flushItems_fixed c).1, (flushItems_fixed c).2.1]; exact h
    | some t =>
      rw [show c.runOps behave [.connect (some t)] = c.connect (some t) from rfl, connect_some, (flushItems_fixed _).1, (flushItems_fixed _).2.1,
        (attach_fixed c t).1, (attach_fixed c t).2.1]
      exact h
  | disconnect =>
    show (c.writeAll c.onDisconnect).calls = (c.writeAll c.onDisconnect).sent.flatMap (expectedCalls behave)
    rw [(writeAll_fixed _ c).1, (writeAll_fixed _ c).2.1]; exact h
  | resolved ip =>
    show (c.hostResolved ip).calls = (c.hostResolved ip).sent.flatMap (expectedCalls behave)
    unfold hostResolved
    rw [(flushItems_fixed _).1, (flushItems_fixed _).2.1, (writeAll_fixed _ _).1, (writeAll_fixed _ _).2.1]; exact h
  | turn r =>
    show (c.turn behave r).calls = (c.turn behave r).sent.flatMap (expectedCalls behave)
    unfold turn
    match hr : c.reactor with
    | [] => exact h
    | (g, m) :: rest =>
      simp only
      match h1 : c.gateways[g]? with
      | none => exact h
      | some gw =>
        simp only
        match ht : gw.transport with
        | none => exact h
        | some t =>
          simp only [List.flatMap_append, List.flatMap_cons, List.flatMap_nil, List.append_nil]
          rw [h, ← gatewayWrite_calls behave ⟨t, gw.host, m, r⟩]
          rfl

theorem calls_run (behave : Nat → Option Nat → Option PyErr) (host : Str) (isIp : Bool) (hello bye : List Msg) (ops : List ClientOp) :
    ((init host isIp hello bye).runOps behave ops).calls =
      ((init host isIp hello bye).runOps behave ops).sent.flatMap (expectedCalls behave) := by
  induction ops using List.reverseRecOn with
  | nil =>
    cases isIp with
    | false => rfl
    | true =>
      show (hostResolved _ host).calls = (hostResolved _ host).sent.flatMap _
      unfold hostResolved
      rw [(flushItems_fixed _).1, (flushItems_fixed _).2.1, (writeAll_fixed _ _).1, (writeAll_fixed _ _).2.1]; rfl
  | append_singleton ops o ih => rw [runOps_snoc]; exact calls_step behave _ o ih

end TwistedClient

/-! ## The plain client -/

theorem UdpClient.runOps_eq (a : Option (Str × Nat)) (ops : List UdpOp) :
    (UdpClient.runOps { address := a, socket := false, sendtos := [] } ops) =
      { address := a, socket := (writtenOnline ops).1,
        sendtos := match a with | none => [] | some (h, p) => (writtenOnline ops).2.map fun d => (d, h, p) } := by
  induction ops using List.reverseRecOn with
  | nil => cases a <;> rfl
  | append_singleton ops o ih =>
    unfold UdpClient.runOps writtenOnline at *
    rw [List.foldl_append, List.foldl_append, ih]
    generalize List.foldl _ (false, ([] : List Str)) ops = st
    obtain ⟨b, ds⟩ := st
    cases o with
    | connect => cases a <;> rfl
    | disconnect => cases a <;> rfl
    | write d r =>
      cases a with
      | none => cases b <;> rfl
      | some hp =>
        obtain ⟨h, p⟩ := hp
        cases b with
        | false => rfl
        | true =>
          simp only [List.foldl_cons, List.foldl_nil, UdpClient.write]
          cases r with
          | ok n => simp
          | error e => simp only; split <;> simp

end Txstatsd
