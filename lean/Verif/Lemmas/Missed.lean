import Verif.Spec.Missed
import Verif.Lemmas.Receive

set_option linter.unusedSectionVars false
set_option linter.unusedSimpArgs false
set_option linter.unusedVariables false

namespace Txstatsd
open Spec
section
variable [Rounding] {PF PM : Type}

theorem keys_put_known {V : Type} {d : Dict V} {k : Str} (h : k ∈ d.keys) (v : V) : (d.put k v).keys = d.keys := by
  rw [Dict.keys_put]; simp [h]

theorem process_known {C T G : Type} {I : Impl C T G PF PM} (hI : I.Local) (w : World) (s : PS C T G PF PM) (msg : Str)
    (hk : s.byType.keys = s.processTimings.keys) (h : ∀ t, Handled I w s t msg → t ∈ s.byType.keys) :
    (process I w s msg).1.processTimings.keys = s.processTimings.keys ∧ (process I w s msg).1.byType.keys = s.byType.keys := by
  cases hp : parseMessage msg with
  | none => simp [process, hp]
  | some m =>
    have hd := dispatch_handled (I := I) (w := w) (s := { s with ticks := s.ticks + 1 }) (msg := msg) (m := m)
    have hh := h m.mtype
    unfold Handled at hh
    simp only [process, hp, processMessage] at hh ⊢
    cases hdd : dispatch I w { s with ticks := s.ticks + 1 } msg m with
    | none => exact ⟨rfl, rfl⟩
    | some r =>
      have hreg : m.mtype ∈ builtinTypes ∨ m.mtype ∈ s.plugins.keys := hd.1 ⟨r, hdd⟩
      obtain ⟨ha, hb, hc⟩ := dispatch_recv hI w hdd
      rw [hdd] at hh
      simp only [finish] at hh ⊢
      cases he : r.2.exc with
      | none =>
        simp only [he] at hh
        have hmem := hh ⟨⟨m.key, m.fields, parsed_iff.2 hp⟩, hreg, trivial⟩
        simp only [account, ha, hb]
        exact ⟨keys_put_known (hk ▸ hmem) _, keys_put_known hmem _⟩
      | some e => simp only [ha, hb, and_self]

/-- An arrival while a flush reports the receive statistics. -/
theorem balanced_arrive (ops : PluginOps PF PM) (w : World) (t : Str) {v : Server Num (List PyFloat) (List (PyFloat × Str)) PF PM}
    (hv : MPWf ops v.ps) {h : Nat} (hb : Balanced t v h) (m : Str) (hr : ∃ g ∈ v.gens, Receiving g.pc)
    (hk : ∀ t, Handled (messageProcessor ops) w v.ps t m → t ∈ v.ps.byType.keys) :
    (¬ (Handled (messageProcessor ops) w v.ps t m ∧ ¬ Passed t v) → Balanced t (v.step (messageProcessor ops) w (.arrive m)) h) ∧
    ((Handled (messageProcessor ops) w v.ps t m ∧ ¬ Passed t v) → Balanced t (v.step (messageProcessor ops) w (.arrive m)) (h + 1)) := by
  obtain ⟨hcl, hb⟩ := hb
  obtain ⟨g0, hg0, hr0⟩ := hr
  rcases hb with ⟨hno, _⟩ | ⟨i, interval, percent, ts, cursor, cur, pend, hg, hoth, hcur, hck, hb⟩
  · exact absurd hr0 (hno g0 hg0)
  obtain ⟨hpt, hbt⟩ := process_known (mp_local ops) w v.ps m hv.shared.recv hk
  have hlen : (process (messageProcessor ops) w v.ps m).1.processTimings.length = v.ps.processTimings.length := by
    have := congrArg List.length hpt
    simpa [Dict.keys] using this
  have hpass : Passed t v ↔ t ∈ v.ps.processTimings.keys.take cursor := by
    constructor
    · rintro ⟨g, hgm, ts', size', cursor', cur', pend', hpc, hmem⟩
      obtain ⟨j, hj⟩ := List.mem_iff_getElem?.1 hgm
      by_cases hji : j = i
      · subst hji
        rw [hg, Option.some.injEq] at hj
        subst hj
        simp only [Pc.sumRecv.injEq] at hpc
        rw [hpc.2.2.1]; exact hmem
      · exact absurd (by rw [hpc]; trivial) (hoth j g hji hj)
    · intro hmem
      exact ⟨_, List.mem_of_getElem? hg, _, _, _, _, _, rfl, hmem⟩
  obtain ⟨h1, h2⟩ := process_byType (mp_local ops) w v.ps m t
  have key : ∀ h' : Nat, recvSum t v.out + recvSum t pend + (if t ∈ v.ps.processTimings.keys.take cursor then 0
        else (((process (messageProcessor ops) w v.ps m).1.byType.find t).getD 0 : Nat)) = h' →
      Balanced t (v.step (messageProcessor ops) w (.arrive m)) h' := by
    intro h' he
    refine ⟨hcl, Or.inr ⟨i, interval, percent, ts, cursor, cur, pend, ?_, hoth, ?_, ?_, ?_⟩⟩
    · simp only [Server.step, hlen]; exact hg
    · simp only [Server.step, hlen]; exact hcur
    · simp only [Server.step, hbt]; exact hck
    · simp only [Server.step, hpt]; exact he
  constructor
  · intro hn
    refine key h ?_
    by_cases hp : t ∈ v.ps.processTimings.keys.take cursor
    · rw [if_pos hp] at hb ⊢; exact hb
    · rw [if_neg hp] at hb ⊢
      rw [h2 (fun hh => hn ⟨hh, fun hp' => hp (hpass.1 hp')⟩)]; exact hb
  · rintro ⟨hh, hp⟩
    rw [hpass] at hp
    refine key (h + 1) ?_
    rw [if_neg hp] at hb ⊢
    rw [h1 hh]
    simp only [Option.getD_some]
    push_cast
    rw [← hb]; ring

theorem missed_run (ops : PluginOps PF PM) (hq : Quiet ops c!"statsd.") (w : World) (t : Str) (es : List Event) :
    ∀ (v : Server Num (List PyFloat) (List (PyFloat × Str)) PF PM) (h : Nat), MPWf ops v.ps → Balanced t v h →
    Solo (messageProcessor ops) w v es →
    ∃ h', Balanced t (v.run (messageProcessor ops) w es) h' ∧
      h' + missedIn (messageProcessor ops) w t v es = h + handledIn (messageProcessor ops) w t v es := by
  classical
  induction es with
  | nil => intro v h hv hb _; exact ⟨h, hb, rfl⟩
  | cons e es ih =>
    intro v h hv hb hc
    rw [run_cons]
    have hstep : ∃ h1, Balanced t (v.step (messageProcessor ops) w e) h1 ∧
        h1 + missedIn (messageProcessor ops) w t v [e] = h + handledIn (messageProcessor ops) w t v [e] := by
      cases e with
      | arrive m =>
        by_cases hr : ∃ g ∈ v.gens, Receiving g.pc
        · obtain ⟨a1, a2⟩ := balanced_arrive ops w t hv hb m hr (hc.1 hr)
          simp only [missedIn, handledIn, Nat.add_zero]
          by_cases hh : Handled (messageProcessor ops) w v.ps t m
          · by_cases hp : Passed t v
            · exact ⟨h, a1 (fun h => h.2 hp), by simp [hh, hp]⟩
            · exact ⟨h + 1, a2 ⟨hh, hp⟩, by simp [hh, hp]⟩
          · exact ⟨h, a1 (fun h => hh h.1), by simp [hh]⟩
        · have hno : ∀ g ∈ v.gens, ¬ Receiving g.pc := fun g hg hrr => hr ⟨g, hg, hrr⟩
          have hp : ¬ Passed t v := by
            rintro ⟨g, hg, ts, size, cursor, cur, pend, hpc, _⟩
            exact hno g hg (by rw [hpc]; trivial)
          exact ⟨_, balanced_step ops hq w t hv hb (.arrive m) ⟨hno, trivial⟩, by simp [missedIn, hp]⟩
      | spawn i p => exact ⟨_, balanced_step ops hq w t hv hb (.spawn i p) ⟨trivial, trivial⟩, by simp [missedIn]⟩
      | advance i => exact ⟨_, balanced_step ops hq w t hv hb (.advance i) ⟨hc.1, trivial⟩, by simp [missedIn]⟩
    obtain ⟨h1, hb1, he1⟩ := hstep
    obtain ⟨h2, hb2, he2⟩ := ih _ h1 (mpwf_step ops w hv e) hb1 hc.2
    refine ⟨h2, hb2, ?_⟩
    simp only [missedIn, handledIn, Nat.add_zero] at he1 ⊢
    omega

theorem micro_byType (ops : PluginOps PF PM) (w : World) {s : MPState PF PM} (hs : MPWf ops s) (g : Gen) :
    (micro (messageProcessor ops) w s g).1.byType = s.byType ∨ (micro (messageProcessor ops) w s g).1.byType = [] := by
  obtain ⟨interval, percent, pc⟩ := g
  cases pc with
  | fresh => exact .inl rfl
  | phaseStart k ts acc => exact .inl rfl
  | inPhase k ts acc start size cursor events pend =>
    left
    cases pend with
    | cons d pend => rfl
    | nil =>
      have hf := visit_frame ops w (Int.fdiv interval 1000) percent ts k hs cursor
      rcases hv : phaseVisit (messageProcessor ops) w (Int.fdiv interval 1000) percent ts k s cursor with ⟨s', x⟩
      rw [hv] at hf
      simp only [micro, hv]
      split
      · rfl
      · split
        · rcases x with e | (_ | ds) <;> exact hf.byType
        · rfl
  | sumInit ts acc pend => cases pend <;> exact .inl rfl
  | sumPer ts todo cur pend =>
    cases pend with
    | cons d pend => exact .inl rfl
    | nil =>
      cases cur with
      | some d => exact .inl rfl
      | none => cases todo <;> exact .inl rfl
  | sumRecv ts size cursor cur pend =>
    cases pend with
    | cons d pend => exact .inl rfl
    | nil =>
      cases cur with
      | some p =>
        left
        simp only [micro]
        split <;> rfl
      | none =>
        simp only [micro]
        split
        · exact .inl rfl
        · split
          · split <;> exact .inl rfl
          · exact .inr rfl
  | done => exact .inl rfl
  | crashed e => exact .inl rfl

theorem wiped_run (ops : PluginOps PF PM) (w : World) (t : Str) (es : List Event) :
    ∀ v : Server Num (List PyFloat) (List (PyFloat × Str)) PF PM, MPWf ops v.ps →
    ((v.run (messageProcessor ops) w es).ps.byType.find t).getD 0 + wipedIn (messageProcessor ops) w t v es =
      (v.ps.byType.find t).getD 0 + handledIn (messageProcessor ops) w t v es := by
  classical
  induction es with
  | nil => intro v _; rfl
  | cons e es ih =>
    intro v hv
    rw [run_cons]
    have h := ih _ (mpwf_step ops w hv e)
    simp only [wipedIn, handledIn]
    cases e with
    | arrive m =>
      obtain ⟨h1, h2⟩ := process_byType (mp_local ops) w v.ps m t
      have hs : (v.step (messageProcessor ops) w (.arrive m)).ps = (process (messageProcessor ops) w v.ps m).1 := rfl
      by_cases hh : Handled (messageProcessor ops) w v.ps t m
      · have h1 := h1 hh
        simp only [if_pos hh]
        rw [hs] at h ⊢
        rw [h1, Option.getD_some] at h ⊢
        omega
      · have h2 := h2 hh
        simp only [if_neg hh]
        rw [hs] at h ⊢
        rw [h2] at h ⊢
        omega
    | spawn i p =>
      have hs : (v.step (messageProcessor ops) w (.spawn i p)).ps = v.ps := rfl
      simp only [hs] at h ⊢
      omega
    | advance i =>
      have hb : (v.step (messageProcessor ops) w (.advance i)).ps.byType = v.ps.byType ∨
          (v.step (messageProcessor ops) w (.advance i)).ps.byType = [] := by
        cases hg : v.gens[i]? with
        | none => left; simp [Server.step, hg]
        | some g => simp only [Server.step, hg]; exact micro_byType ops w hv g
      rcases hb with hb | hb
      · simp only [hb] at h ⊢; omega
      · simp only [hb] at h ⊢
        have h0 : ((Dict.find ([] : Dict Nat) t).getD 0) = 0 := rfl
        omega

/-! ## What is read is reported -/

theorem sum_set {α : Type} (f : α → ℚ) : ∀ (l : List α) (i : Nat) (a b : α), l[i]? = some a →
    ((l.set i b).map f).sum + f a = (l.map f).sum + f b
  | [], i, a, b, h => by simp at h
  | x :: l, 0, a, b, h => by
    simp only [List.getElem?_cons_zero, Option.some.injEq] at h
    subst h
    simp only [List.set_cons_zero, List.map_cons, List.sum_cons]
    ring
  | x :: l, i + 1, a, b, h => by
    have := sum_set f l i a b (by simpa using h)
    simp only [List.set_cons_succ, List.map_cons, List.sum_cons]
    linarith

/-- The counts of type `t` under way. -/
def recvFlight (t : Str) (gens : List Gen) : ℚ := (gens.map fun g => recvSum t (inFlight g.pc)).sum

theorem micro_read (ops : PluginOps PF PM) (hq : Quiet ops c!"statsd.") (w : World) {s : MPState PF PM} (hs : MPWf ops s)
    (g : Gen) (t : Str) (hc : ¬ Receiving g.pc → ∀ d ∈ inFlight g.pc, d.name ≠ recvName t) :
    let r := micro (messageProcessor ops) w s g
    (¬ Receiving r.2.1.pc → ∀ d ∈ inFlight r.2.1.pc, d.name ≠ recvName t) ∧
    recvSum t (inFlight r.2.1.pc) + recvSum t r.2.2.toList = recvSum t (inFlight g.pc) +
      ((match g.pc with
        | .sumRecv _ size cursor none [] =>
          if s.processTimings.length = size ∧ s.processTimings.keys[cursor]? = some t then (s.byType.find t).getD 0 else 0
        | _ => 0 : Nat) : ℚ) := by
  intro r
  have hz : recvSum t ([] : List Datapoint) = 0 := rfl
  by_cases hg : Receiving g.pc
  · obtain ⟨interval, percent, pc⟩ := g
    cases pc with
    | sumRecv ts size cursor cur pend =>
      cases pend with
      | cons d pend =>
        refine ⟨fun h => absurd trivial h, ?_⟩
        have hd : recvSum t pend + recvSum t [d] = recvSum t (d :: pend) + ((0 : Nat) : ℚ) := by
          rw [show d :: pend = [d] ++ pend from rfl, recvSum_append]
          push_cast
          ring
        cases cur <;> exact hd
      | nil =>
        cases cur with
        | some p =>
          obtain ⟨t', d⟩ := p
          cases hh : s.byType.has t' with
          | true =>
            have hm : r = ({ s with lastProcess := s.lastProcess.add d }, ⟨interval, percent, .sumRecv ts size cursor none []⟩, none) := by
              show micro _ _ _ _ = _
              unfold micro
              simp only [hh, if_true]
            rw [hm]
            exact ⟨fun h => absurd trivial h, by simp [inFlight, hz]⟩
          | false =>
            have hm : r = (s, ⟨interval, percent, .crashed .keyError⟩, none) := by
              show micro _ _ _ _ = _
              unfold micro
              simp only [hh, Bool.false_eq_true, if_false]
            rw [hm]
            exact ⟨fun _ d hd => by simp [inFlight] at hd, by simp [inFlight, hz]⟩
        | none =>
          by_cases hsz : s.processTimings.length = size
          · rcases hp : s.processTimings[cursor]? with _ | ⟨t', d⟩
            · have hm : r = ({ s with processTimings := [], byType := [] }, ⟨interval, percent, .done⟩, none) := by
                show micro _ _ _ _ = _
                unfold micro
                simp only [ne_eq, hsz, not_true_eq_false, if_false, hp]
              have hk : s.processTimings.keys[cursor]? = none := by unfold Dict.keys; rw [List.getElem?_map, hp]; rfl
              rw [hm]
              refine ⟨fun _ d hd => by simp [inFlight] at hd, ?_⟩
              simp only [hk, inFlight, Option.toList_none, hz]
              simp
            · have hkm : t' ∈ s.byType.keys := by
                rw [hs.shared.recv]; exact Dict.mem_keys_of_mem (List.mem_of_getElem? hp)
              obtain ⟨n, hn⟩ : ∃ n, s.byType.find t' = some n := by
                rw [← Dict.find_isSome_iff] at hkm; exact Option.isSome_iff_exists.1 hkm
              have hm : r = (s, ⟨interval, percent, .sumRecv ts size (cursor + 1) (some (t', d))
                  (receivePoints (messageProcessor ops) ts t' n d)⟩, none) := by
                show micro _ _ _ _ = _
                unfold micro
                simp only [ne_eq, hsz, not_true_eq_false, if_false, hp, hn]
              have hk : s.processTimings.keys[cursor]? = some t' := by unfold Dict.keys; rw [List.getElem?_map, hp]; rfl
              rw [hm]
              refine ⟨fun h => absurd trivial h, ?_⟩
              simp only [hk, inFlight, Option.toList_none, hz, recvSum_points, hsz, true_and, Option.some.injEq]
              by_cases ht : t' = t
              · subst ht
                simp [hn]
              · simp [ht]
          · have hm : r = (s, ⟨interval, percent, .crashed .runtimeError⟩, none) := by
              show micro _ _ _ _ = _
              unfold micro
              simp only [ne_eq, hsz, not_false_eq_true, if_true]
            rw [hm]
            refine ⟨fun _ d hd => by simp [inFlight] at hd, ?_⟩
            simp [inFlight, hz, hsz]
    | _ => exact absurd hg id
  · obtain ⟨h1, h2, h3, h4, h5⟩ := micro_clean ops hq w hs hg t (hc hg)
    refine ⟨fun _ => h4, ?_⟩
    have h0 : (match g.pc with
        | .sumRecv _ size cursor none [] =>
          if s.processTimings.length = size ∧ s.processTimings.keys[cursor]? = some t then (s.byType.find t).getD 0 else 0
        | _ => 0 : Nat) = 0 := by
      split
      · next h => rw [h] at hg; exact absurd trivial hg
      · rfl
    rw [h0, recvSum_clean h3, recvSum_clean h4, recvSum_clean (hc hg)]
    simp

theorem read_run (ops : PluginOps PF PM) (hq : Quiet ops c!"statsd.") (w : World) (t : Str) (es : List Event) :
    ∀ v : Server Num (List PyFloat) (List (PyFloat × Str)) PF PM, MPWf ops v.ps →
    (∀ g ∈ v.gens, ¬ Receiving g.pc → ∀ d ∈ inFlight g.pc, d.name ≠ recvName t) →
    (∀ g ∈ (v.run (messageProcessor ops) w es).gens, ¬ Receiving g.pc → ∀ d ∈ inFlight g.pc, d.name ≠ recvName t) ∧
    recvSum t (v.run (messageProcessor ops) w es).out + recvFlight t (v.run (messageProcessor ops) w es).gens =
      recvSum t v.out + recvFlight t v.gens + readIn (messageProcessor ops) w t v es := by
  induction es with
  | nil => intro v _ hc; exact ⟨hc, by simp [readIn, Server.run]⟩
  | cons e es ih =>
    intro v hv hc
    rw [run_cons]
    have hstep : (∀ g ∈ (v.step (messageProcessor ops) w e).gens, ¬ Receiving g.pc → ∀ d ∈ inFlight g.pc, d.name ≠ recvName t) ∧
        recvSum t (v.step (messageProcessor ops) w e).out + recvFlight t (v.step (messageProcessor ops) w e).gens =
          recvSum t v.out + recvFlight t v.gens + justRead t v e := by
      cases e with
      | arrive m => exact ⟨hc, by simp [Server.step, justRead]⟩
      | spawn i p =>
        refine ⟨?_, by simp [Server.step, justRead, recvFlight, inFlight, recvSum_clean]⟩
        intro g hg
        simp only [Server.step, List.mem_append, List.mem_singleton] at hg
        rcases hg with hg | rfl
        · exact hc g hg
        · intro _ d hd; simp [inFlight] at hd
      | advance i =>
        cases hg : v.gens[i]? with
        | none => exact ⟨by simpa [Server.step, hg] using hc, by simp [Server.step, hg, justRead]⟩
        | some g =>
          obtain ⟨h1, h2⟩ := micro_read ops hq w hv g t (hc g (List.mem_of_getElem? hg))
          simp only [Server.step, hg]
          constructor
          · intro g' hg'
            rcases mem_set_iff hg' with rfl | ⟨j, hj, hgj⟩
            · exact h1
            · exact hc g' (List.mem_of_getElem? hgj)
          · have hset := sum_set (fun g : Gen => recvSum t (inFlight g.pc)) v.gens i g (micro (messageProcessor ops) w v.ps g).2.1 hg
            have hj : justRead t v (.advance i) = (match g.pc with
                | .sumRecv _ size cursor none [] =>
                  if v.ps.processTimings.length = size ∧ v.ps.processTimings.keys[cursor]? = some t then (v.ps.byType.find t).getD 0 else 0
                | _ => 0 : Nat) := by
              obtain ⟨interval, percent, pc⟩ := g
              simp only [justRead, hg]
              cases pc with
              | sumRecv ts size cursor cur pend => cases cur <;> cases pend <;> rfl
              | _ => rfl
            rw [← hj] at h2
            unfold recvFlight
            rw [recvSum_append]
            linarith
    obtain ⟨h1, h2⟩ := ih _ (mpwf_step ops w hv e) hstep.1
    refine ⟨h1, ?_⟩
    rw [h2, hstep.2]
    simp only [readIn]
    push_cast
    ring

end
end Txstatsd
