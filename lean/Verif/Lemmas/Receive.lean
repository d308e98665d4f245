import Verif.Lemmas.Uninterrupted

set_option linter.unusedSectionVars false
set_option linter.unusedSimpArgs false
set_option linter.unusedVariables false

namespace Txstatsd
open Spec
section
variable [Rounding] {PF PM : Type}

/-- The name under which the messages of type `t` are counted. -/
def recvName (t : Str) : Str := c!"statsd.receive." ++ t ++ c!".count"

theorem not_recv_of_stats {t n : Str} (h : c!"stats." <+: n ∨ c!"stats_counts." <+: n) : n ≠ recvName t := by
  rintro rfl
  simp [recvName, List.cons_prefix_cons] at h

theorem counterVisit_clean {secs ts : ℤ} {s : MPState PF PM} {i : Nat} {ds : List Datapoint}
    (h : (counterVisit secs ts s i).2 = .ok (some ds)) :
    ∀ d ∈ ds, c!"stats." <+: d.name ∨ c!"stats_counts." <+: d.name := by
  unfold counterVisit at h
  cases hi : s.counters[i]? with
  | none => simp [hi] at h
  | some p =>
    obtain ⟨key, c⟩ := p
    simp only [hi] at h
    split at h
    · simp at h
    · simp only [Except.ok.injEq, Option.some.injEq] at h
      subst h
      intro d hd
      simp only [List.mem_cons, List.not_mem_nil, or_false] at hd
      rcases hd with rfl | rfl
      · exact Or.inl ⟨_, rfl⟩
      · exact Or.inr ⟨_, rfl⟩

theorem visit_clean (ops : PluginOps PF PM) (hq : Quiet ops c!"statsd.") (w : World) (secs percent ts : ℤ) (k : Nat)
    {s : MPState PF PM} (hs : MPWf ops s) (i : Nat) (t : Str) {ds : List Datapoint}
    (h : (phaseVisit (messageProcessor ops) w secs percent ts k s i).2 = .ok (some ds)) :
    ∀ d ∈ ds, d.name ≠ recvName t := by
  intro d hd
  by_cases hk : k = 0
  · subst hk
    exact not_recv_of_stats (counterVisit_clean (s := s) (i := i) h d hd)
  · rcases visit_names ops w secs percent ts hk hs i h d hd with h1 | ⟨t', k', m, l, h0, h1, h2⟩
    · exact not_recv_of_stats (Or.inl h1)
    · intro he
      refine hq _ _ h0 _ _ _ _ _ h1 d h2 ?_
      rw [he]
      exact ⟨c!"receive." ++ t ++ c!".count", by simp [recvName]⟩

/-- A step of a generator that is not reporting receive statistics. -/
theorem micro_clean (ops : PluginOps PF PM) (hq : Quiet ops c!"statsd.") (w : World) {s : MPState PF PM} (hs : MPWf ops s)
    {g : Gen} (hg : ¬ Receiving g.pc) (t : Str) (hc : ∀ d ∈ inFlight g.pc, d.name ≠ recvName t) :
    let r := micro (messageProcessor ops) w s g
    r.1.byType = s.byType ∧ r.1.processTimings = s.processTimings ∧ (∀ d ∈ r.2.2.toList, d.name ≠ recvName t) ∧
    (∀ d ∈ inFlight r.2.1.pc, d.name ≠ recvName t) ∧
    (¬ Receiving r.2.1.pc ∨ ∃ ts, r.2.1.pc = .sumRecv ts s.processTimings.length 0 none []) := by
  intro r
  have hr : r = micro (messageProcessor ops) w s g := rfl
  obtain ⟨interval, percent, pc⟩ := g
  have hn : ∀ d ∈ ([] : List Datapoint), d.name ≠ recvName t := by simp
  have hfl : ∀ x : Str, c!"statsd." ++ c!"flush." <+: x → x ≠ recvName t := by
    rintro x ⟨y, rfl⟩ h; simp [recvName] at h
  cases pc with
  | fresh => exact ⟨rfl, rfl, hn, hn, Or.inl fun h => h⟩
  | phaseStart k ts acc => exact ⟨rfl, rfl, hn, hn, Or.inl fun h => h⟩
  | inPhase k ts acc start size cursor events pend =>
    cases pend with
    | cons d pend =>
      refine ⟨rfl, rfl, ?_, ?_, Or.inl fun h => h⟩
      · intro d' hd'
        simp only [hr, micro, Option.toList_some, List.mem_singleton] at hd'
        subst hd'; exact hc _ (by simp [inFlight])
      · intro d' hd'
        simp only [hr, micro, inFlight] at hd'
        exact hc _ (by simp [inFlight, hd'])
    | nil =>
      by_cases h1 : phaseLen (messageProcessor ops) s k ≠ size
      · have : r = (s, ⟨interval, percent, .crashed .runtimeError⟩, none) := by
          rw [hr]; unfold micro; simp only [if_pos h1]
        rw [this]; exact ⟨rfl, rfl, hn, hn, Or.inl fun h => h⟩
      · by_cases h2 : cursor < size
        · have hr' : r = match phaseVisit (messageProcessor ops) w (Int.fdiv interval 1000) percent ts k s cursor with
            | (s, .error e) => (s, ⟨interval, percent, .crashed e⟩, none)
            | (s, .ok none) => (s, ⟨interval, percent, .inPhase k ts acc start size (cursor + 1) events []⟩, none)
            | (s, .ok (some ds)) =>
              (s, ⟨interval, percent, .inPhase k ts acc start size (cursor + 1) (events + 1) ds⟩, none) := by
            rw [hr]; unfold micro; simp only [if_neg h1, if_pos h2]
            rcases phaseVisit (messageProcessor ops) w (Int.fdiv interval 1000) percent ts k s cursor with ⟨s', e | (_ | ds)⟩ <;> rfl
          have hf := visit_frame ops w (Int.fdiv interval 1000) percent ts k hs cursor
          have hcl := fun ds => visit_clean ops hq w (Int.fdiv interval 1000) percent ts k hs cursor t (ds := ds)
          rcases hv : phaseVisit (messageProcessor ops) w (Int.fdiv interval 1000) percent ts k s cursor with ⟨s', x⟩
          rw [hv] at hr' hf hcl
          rcases x with e | (_ | ds)
          · rw [hr']; exact ⟨hf.byType, hf.processTimings, hn, hn, Or.inl fun h => h⟩
          · rw [hr']; exact ⟨hf.byType, hf.processTimings, hn, hn, Or.inl fun h => h⟩
          · rw [hr']; exact ⟨hf.byType, hf.processTimings, hn, hcl ds rfl, Or.inl fun h => h⟩
        · by_cases h3 : k < 4
          · have : r = ({ s with ticks := s.ticks + 1 }, ⟨interval, percent, .phaseStart (k + 1) ts
              (acc ++ [(phaseName k, events, Num.flt (rnd (w.clk s.ticks - start)))])⟩, none) := by
              rw [hr]; unfold micro; simp only [if_neg h1, if_neg h2, if_pos h3]
            rw [this]; exact ⟨rfl, rfl, hn, hn, Or.inl fun h => h⟩
          · have : r = ({ s with ticks := s.ticks + 1 }, ⟨interval, percent, .sumInit ts
              (acc ++ [(phaseName k, events, Num.flt (rnd (w.clk s.ticks - start)))])
              [numStatsPoint (messageProcessor ops) (acc ++ [(phaseName k, events, Num.flt (rnd (w.clk s.ticks - start)))]) ts]⟩, none) := by
              rw [hr]; unfold micro; simp only [if_neg h1, if_neg h2, if_neg h3]
            rw [this]
            refine ⟨rfl, rfl, hn, ?_, Or.inl fun h => h⟩
            intro d hd
            simp only [inFlight, List.mem_singleton] at hd
            subst hd
            show c!"statsd." ++ c!"numStats" ≠ _
            simp [recvName]
  | sumInit ts acc pend =>
    cases pend with
    | cons d pend =>
      refine ⟨rfl, rfl, ?_, ?_, Or.inl fun h => h⟩
      · intro d' hd'
        simp only [hr, micro, Option.toList_some, List.mem_singleton] at hd'
        subst hd'; exact hc _ (by simp [inFlight])
      · intro d' hd'
        simp only [hr, micro, inFlight] at hd'
        exact hc _ (by simp [inFlight, hd'])
    | nil => exact ⟨rfl, rfl, hn, hn, Or.inl fun h => h⟩
  | sumPer ts todo cur pend =>
    cases pend with
    | cons d pend =>
      refine ⟨rfl, rfl, ?_, ?_, Or.inl fun h => h⟩
      · intro d' hd'
        simp only [hr, micro, Option.toList_some, List.mem_singleton] at hd'
        subst hd'; exact hc _ (by simp [inFlight])
      · intro d' hd'
        simp only [hr, micro, inFlight] at hd'
        exact hc _ (by simp [inFlight, hd'])
    | nil =>
      cases cur with
      | some d => exact ⟨rfl, rfl, hn, hn, Or.inl fun h => h⟩
      | none =>
        cases todo with
        | cons p todo =>
          refine ⟨rfl, rfl, hn, ?_, Or.inl fun h => h⟩
          intro d hd
          have hd : d ∈ perMetricPoints (messageProcessor ops) ts p := hd
          simp only [perMetricPoints, List.mem_cons, List.not_mem_nil, or_false] at hd
          rcases hd with rfl | rfl <;> exact hfl _ ⟨_, rfl⟩
        | nil => exact ⟨rfl, rfl, hn, hn, Or.inr ⟨ts, rfl⟩⟩
  | sumRecv ts size cursor cur pend => exact absurd trivial hg
  | done => exact ⟨rfl, rfl, hn, hn, Or.inl fun h => h⟩
  | crashed e => exact ⟨rfl, rfl, hn, hn, Or.inl fun h => h⟩

/-- The sum of the reported counts. -/
def recvSum (t : Str) (l : List Datapoint) : ℚ := ((named (recvName t) l).map fun d => d.value.rat).sum

theorem recvSum_append (t : Str) (a b : List Datapoint) : recvSum t (a ++ b) = recvSum t a + recvSum t b := by
  simp [recvSum, named_append]

theorem recvSum_clean {t : Str} {l : List Datapoint} (h : ∀ d ∈ l, d.name ≠ recvName t) : recvSum t l = 0 := by
  unfold recvSum; rw [named_nil_of h]; rfl

theorem recvSum_points (ops : PluginOps PF PM) (ts : ℤ) (t t' : Str) (n : Nat) (d : Num) :
    recvSum t (receivePoints (messageProcessor ops) ts t' n d) = if t' = t then (n : ℚ) else 0 := by
  have hd : ¬ (t' ++ c!".duration" = t ++ c!".count") := by
    intro h
    have hl := congrArg List.getLast? h
    simp at hl
  have hip : (messageProcessor ops).internalPrefix ++ c!"receive." = c!"statsd.receive." := rfl
  unfold recvSum recvName receivePoints
  by_cases hp : t' = t
  · subst hp
    simp [named, List.filter_cons, hip, Num.rat]
  · simp only [named, List.filter_cons, hip, List.append_assoc, List.append_cancel_left_eq, hd,
        List.append_cancel_right_eq, hp, decide_false, Bool.false_eq_true, if_false, List.filter_nil, List.map_nil,
        List.sum_nil]

/-- The balance of the receive statistics of type `t`, `h` messages having been handled. -/
def Balanced (t : Str) (v : Server Num (List PyFloat) (List (PyFloat × Str)) PF PM) (h : Nat) : Prop :=
  (∀ g ∈ v.gens, ¬ Receiving g.pc → ∀ d ∈ inFlight g.pc, d.name ≠ recvName t) ∧
  (((∀ g ∈ v.gens, ¬ Receiving g.pc) ∧ recvSum t v.out + ((v.ps.byType.find t).getD 0 : Nat) = h) ∨
   (∃ (i : Nat) (interval percent ts : ℤ) (cursor : Nat) (cur : Option (Str × Num)) (pend : List Datapoint),
      v.gens[i]? = some ⟨interval, percent, .sumRecv ts v.ps.processTimings.length cursor cur pend⟩ ∧
      (∀ j g, j ≠ i → v.gens[j]? = some g → ¬ Receiving g.pc) ∧ cursor ≤ v.ps.processTimings.length ∧
      (∀ p, cur = some p → p.1 ∈ v.ps.byType.keys) ∧
      recvSum t v.out + recvSum t pend + (if t ∈ v.ps.processTimings.keys.take cursor then 0
        else ((v.ps.byType.find t).getD 0 : Nat)) = h))

theorem mem_set_iff {α : Type} {l : List α} {i : Nat} {b g : α} (h : g ∈ l.set i b) :
    g = b ∨ ∃ j, j ≠ i ∧ l[j]? = some g := by
  obtain ⟨j, hj⟩ := List.mem_iff_getElem?.1 h
  by_cases hji : j = i
  · subst hji
    have hlt : j < (l.set j b).length := (List.getElem?_eq_some_iff.1 hj).1
    rw [List.length_set] at hlt
    rw [List.getElem?_set_self hlt] at hj
    left; simpa using hj.symm
  · rw [List.getElem?_set_ne (Ne.symm hji)] at hj
    exact Or.inr ⟨j, hji, hj⟩

theorem balanced_step (ops : PluginOps PF PM) (hq : Quiet ops c!"statsd.") (w : World) (t : Str)
    {v : Server Num (List PyFloat) (List (PyFloat × Str)) PF PM} (hv : MPWf ops v.ps) {h : Nat} (hb : Balanced t v h)
    (e : Event) (he : Calm (messageProcessor ops) w v [e]) :
    Balanced t (v.step (messageProcessor ops) w e) (h + handledIn (messageProcessor ops) w t v [e]) := by
  classical
  obtain ⟨hcl, hb⟩ := hb
  cases e with
  | arrive m =>
    have hno : ∀ g ∈ v.gens, ¬ Receiving g.pc := he.1
    have hb : recvSum t v.out + ((v.ps.byType.find t).getD 0 : Nat) = h := by
      rcases hb with ⟨_, hb⟩ | ⟨i, interval, percent, ts, cursor, cur, pend, hg, _⟩
      · exact hb
      · exact absurd trivial (hno _ (List.mem_of_getElem? hg))
    refine ⟨hcl, Or.inl ⟨hno, ?_⟩⟩
    simp only [handledIn, Nat.add_zero, Server.step]
    obtain ⟨h1, h2⟩ := process_byType (mp_local ops) w v.ps m t
    by_cases hh : Handled (messageProcessor ops) w v.ps t m
    · rw [h1 hh, if_pos hh]
      simp only [Option.getD_some]
      push_cast
      rw [← hb]; ring
    · rw [h2 hh, if_neg hh]; simpa using hb
  | spawn i p =>
    simp only [handledIn, Nat.add_zero]
    refine ⟨?_, ?_⟩
    · intro g hg
      simp only [Server.step, List.mem_append, List.mem_singleton] at hg
      rcases hg with hg | rfl
      · exact hcl g hg
      · intro _ d hd; simp [inFlight] at hd
    · rcases hb with ⟨hno, hb⟩ | ⟨i, interval, percent, ts, cursor, cur, pend, hg, hoth, hcur, hk, hb⟩
      · refine Or.inl ⟨?_, hb⟩
        intro g hg
        simp only [Server.step, List.mem_append, List.mem_singleton] at hg
        rcases hg with hg | rfl
        · exact hno g hg
        · exact fun h => h
      · have hlt : i < v.gens.length := (List.getElem?_eq_some_iff.1 hg).1
        refine Or.inr ⟨i, interval, percent, ts, cursor, cur, pend, ?_, ?_, hcur, hk, hb⟩
        · simp only [Server.step]; rw [List.getElem?_append_left hlt]; exact hg
        · intro j g hj hgj
          simp only [Server.step] at hgj
          by_cases hjl : j < v.gens.length
          · rw [List.getElem?_append_left hjl] at hgj; exact hoth j g hj hgj
          · rw [List.getElem?_append_right (by omega), List.getElem?_singleton] at hgj
            split_ifs at hgj
            simp only [Option.some.injEq] at hgj
            subst hgj; exact fun h => h
  | advance i =>
    have hoth : ∀ j g, j ≠ i → v.gens[j]? = some g → ¬ Receiving g.pc := he.1
    simp only [handledIn, Nat.add_zero]
    unfold Server.step
    simp only
    cases hg : v.gens[i]? with
    | none => exact ⟨hcl, hb⟩
    | some g =>
      simp only
      have hlt : i < v.gens.length := (List.getElem?_eq_some_iff.1 hg).1
      by_cases hrec : Receiving g.pc
      · -- the reporting generator
        rcases hb with ⟨hno, hb⟩ | ⟨i', interval, percent, ts, cursor, cur, pend, hg', hoth', hcur, hk, hb⟩
        · exact absurd hrec (hno g (List.mem_of_getElem? hg))
        · have hii : i' = i := by
            by_contra hne
            exact hoth' i g (Ne.symm hne) hg hrec
          subst hii
          rw [hg] at hg'
          simp only [Option.some.injEq] at hg'
          subst hg'
          have hmem : ∀ b, ∀ g' ∈ v.gens.set i' b, g' ≠ b → ¬ Receiving g'.pc ∧ g' ∈ v.gens := by
            intro b g' hg' hne
            rcases mem_set_iff hg' with h | ⟨j, hj, hgj⟩
            · exact absurd h hne
            · exact ⟨hoth j g' hj hgj, List.mem_of_getElem? hgj⟩
          have hclean : ∀ b : Gen, (¬ Receiving b.pc → ∀ d ∈ inFlight b.pc, d.name ≠ recvName t) →
              ∀ g' ∈ v.gens.set i' b, ¬ Receiving g'.pc → ∀ d ∈ inFlight g'.pc, d.name ≠ recvName t := by
            intro b hb' g' hg' hnr
            rcases mem_set_iff hg' with rfl | ⟨j, hj, hgj⟩
            · exact hb' hnr
            · exact hcl g' (List.mem_of_getElem? hgj) hnr
          have hothers : ∀ b : Gen, ∀ j g', j ≠ i' → (v.gens.set i' b)[j]? = some g' → ¬ Receiving g'.pc := by
            intro b j g' hj hgj
            rw [List.getElem?_set_ne (Ne.symm hj)] at hgj
            exact hoth j g' hj hgj
          cases pend with
          | cons d pend =>
            refine ⟨hclean _ (fun h => absurd trivial h), Or.inr ⟨i', interval, percent, ts, cursor, cur, pend, ?_, hothers _, hcur, hk, ?_⟩⟩
            · simp [micro, hlt]
            · simp only [micro, Option.toList_some]
              rw [recvSum_append]
              rw [show d :: pend = [d] ++ pend from rfl, recvSum_append] at hb
              rw [← add_assoc] at hb
              exact hb
          | nil =>
            cases cur with
            | some p =>
              obtain ⟨t', d⟩ := p
              have hh : v.ps.byType.has t' = true := by rw [Dict.has_iff]; exact hk _ rfl
              have hm : micro (messageProcessor ops) w v.ps ⟨interval, percent, .sumRecv ts v.ps.processTimings.length cursor (some (t', d)) []⟩ =
                  ({ v.ps with lastProcess := v.ps.lastProcess.add d }, ⟨interval, percent, .sumRecv ts v.ps.processTimings.length cursor none []⟩, none) := by
                unfold micro; simp only [hh, if_true]
              rw [hm]
              refine ⟨hclean _ (fun h => absurd trivial h), Or.inr ⟨i', interval, percent, ts, cursor, none, [], ?_, hothers _, hcur,
                (fun p h => by cases h), ?_⟩⟩
              · simp [hlt]
              · simpa using hb
            | none =>
              by_cases hc : cursor < v.ps.processTimings.length
              · obtain ⟨t', d, hp⟩ : ∃ t' d, v.ps.processTimings[cursor]? = some (t', d) :=
                  ⟨_, _, List.getElem?_eq_getElem hc⟩
                have hkm : t' ∈ v.ps.byType.keys := by
                  rw [hv.shared.recv]; exact Dict.mem_keys_of_mem (List.mem_of_getElem? hp)
                obtain ⟨n, hn⟩ : ∃ n, v.ps.byType.find t' = some n := by
                  rw [← Dict.find_isSome_iff] at hkm; exact Option.isSome_iff_exists.1 hkm
                have hm : micro (messageProcessor ops) w v.ps ⟨interval, percent, .sumRecv ts v.ps.processTimings.length cursor none []⟩ =
                    (v.ps, ⟨interval, percent, .sumRecv ts v.ps.processTimings.length (cursor + 1) (some (t', d))
                      (receivePoints (messageProcessor ops) ts t' n d)⟩, none) := by
                  unfold micro; simp only [ne_eq, not_true_eq_false, if_false, hp, hn]
                rw [hm]
                refine ⟨hclean _ (fun h => absurd trivial h), Or.inr ⟨i', interval, percent, ts, cursor + 1, some (t', d),
                  receivePoints (messageProcessor ops) ts t' n d, ?_, hothers _, hc, fun p h => ?_, ?_⟩⟩
                · simp [hlt]
                · simp only [Option.some.injEq] at h; subst h; exact hkm
                · have hkp : v.ps.processTimings.keys[cursor]? = some t' := by
                    unfold Dict.keys; rw [List.getElem?_map, hp]; rfl
                  have htk : v.ps.processTimings.keys.take (cursor + 1) = v.ps.processTimings.keys.take cursor ++ [t'] := by
                    rw [List.take_add_one, hkp]; rfl
                  have hnd : t' ∉ v.ps.processTimings.keys.take cursor := by
                    intro hmem
                    have hw : v.ps.processTimings.keys.Nodup := hv.shared.processTimings
                    have := hw.sublist (List.take_sublist (cursor + 1) _)
                    rw [htk, List.nodup_append] at this
                    exact this.2.2 t' hmem t' (by simp) rfl
                  simp only [Option.toList_none, List.append_nil]
                  rw [recvSum_points, htk]
                  have hz : recvSum t ([] : List Datapoint) = 0 := rfl
                  rw [hz] at hb
                  by_cases htt : t' = t
                  · subst htt
                    rw [if_neg hnd, hn] at hb
                    simp only [Option.getD_some] at hb
                    simp only [if_true, List.mem_append, List.mem_singleton, or_true]
                    rw [← hb]; ring
                  · have htt' : ¬ t = t' := fun h => htt h.symm
                    simp only [htt, if_false, List.mem_append, List.mem_singleton, htt', or_false]
                    exact hb
              · have hp : v.ps.processTimings[cursor]? = none := by
                  rw [List.getElem?_eq_none_iff]; omega
                have hm : micro (messageProcessor ops) w v.ps ⟨interval, percent, .sumRecv ts v.ps.processTimings.length cursor none []⟩ =
                    ({ v.ps with processTimings := [], byType := [] }, ⟨interval, percent, .done⟩, none) := by
                  unfold micro; simp only [ne_eq, not_true_eq_false, if_false, hp]
                rw [hm]
                refine ⟨hclean _ (fun _ d hd => by simp [inFlight] at hd), Or.inl ⟨?_, ?_⟩⟩
                · intro g' hg'
                  rcases mem_set_iff hg' with rfl | ⟨j, hj, hgj⟩
                  · exact fun h => h
                  · exact hoth j g' hj hgj
                · have hz : recvSum t ([] : List Datapoint) = 0 := rfl
                  have hcl' : v.ps.processTimings.keys.take cursor = v.ps.processTimings.keys := by
                    apply List.take_of_length_le
                    simp only [Dict.keys, List.length_map]; omega
                  rw [hz, hcl'] at hb
                  simp only [Option.toList_none, List.append_nil]
                  have : ((Dict.find ([] : Dict Nat) t).getD 0) = 0 := rfl
                  rw [this]
                  by_cases hmem : t ∈ v.ps.processTimings.keys
                  · rw [if_pos hmem] at hb
                    simpa using hb
                  · rw [if_neg hmem] at hb
                    rw [← hv.shared.recv, ← Dict.find_eq_none] at hmem
                    rw [hmem] at hb
                    simpa using hb
      · -- some other generator
        have hno : ∀ g ∈ v.gens, ¬ Receiving g.pc := by
          intro g' hg'
          obtain ⟨j, hj⟩ := List.mem_iff_getElem?.1 hg'
          by_cases hji : j = i
          · subst hji; rw [hg] at hj; simp only [Option.some.injEq] at hj; subst hj; exact hrec
          · exact hoth j g' hji hj
        have hb : recvSum t v.out + ((v.ps.byType.find t).getD 0 : Nat) = h := by
          rcases hb with ⟨_, hb⟩ | ⟨i, interval, percent, ts, cursor, cur, pend, hg, _⟩
          · exact hb
          · exact absurd trivial (hno _ (List.mem_of_getElem? hg))
        obtain ⟨h1, h2, h3, h4, h5⟩ := micro_clean ops hq w hv hrec t (hcl g (List.mem_of_getElem? hg) hrec)
        rcases hm : micro (messageProcessor ops) w v.ps g with ⟨s', ⟨iv, pc', pc⟩, d⟩
        rw [hm] at h1 h2 h3 h4 h5
        simp only at h1 h2 h3 h4 h5 ⊢
        have hsum : recvSum t (v.out ++ d.toList) = recvSum t v.out := by
          rw [recvSum_append, recvSum_clean h3, add_zero]
        refine ⟨?_, ?_⟩
        · intro g' hg' hnr
          rcases mem_set_iff hg' with rfl | ⟨j, hj, hgj⟩
          · exact h4
          · exact hcl g' (List.mem_of_getElem? hgj) hnr
        · rcases h5 with h5 | ⟨ts, h5⟩
          · refine Or.inl ⟨?_, by rw [hsum, h1]; exact hb⟩
            intro g' hg'
            rcases mem_set_iff hg' with rfl | ⟨j, hj, hgj⟩
            · exact h5
            · exact hoth j g' hj hgj
          · subst h5
            refine Or.inr ⟨i, iv, pc', ts, 0, none, [], ?_, ?_, Nat.zero_le _, (fun p h => by cases h), ?_⟩
            · simp [hlt, h2]
            · intro j g' hj hgj
              rw [List.getElem?_set_ne (Ne.symm hj)] at hgj
              exact hoth j g' hj hgj
            · simp only [List.take_zero, List.not_mem_nil, if_false]
              rw [hsum, h1, recvSum_clean (l := []) (by simp), add_zero]
              exact hb

theorem balanced_run (ops : PluginOps PF PM) (hq : Quiet ops c!"statsd.") (w : World) (t : Str) (es : List Event) :
    ∀ (v : Server Num (List PyFloat) (List (PyFloat × Str)) PF PM) (h : Nat), MPWf ops v.ps → Balanced t v h →
    Calm (messageProcessor ops) w v es →
    Balanced t (v.run (messageProcessor ops) w es) (h + handledIn (messageProcessor ops) w t v es) := by
  induction es with
  | nil => intro v h hv hb _; exact hb
  | cons e es ih =>
    intro v h hv hb hc
    rw [run_cons]
    have := ih _ _ (mpwf_step ops w hv e) (balanced_step ops hq w t hv hb e ⟨hc.1, trivial⟩) hc.2
    rw [Nat.add_assoc] at this
    simpa [handledIn, Nat.add_assoc] using this

/-! ## A computable form of the number of handled messages -/

/-- `Handled`, computed. -/
def handledB {C T G : Type} (I : Impl C T G PF PM) (w : World) (s : PS C T G PF PM) (t msg : Str) : Bool :=
  match parseMessage msg with
  | none => false
  | some m => decide (m.mtype = t) && (decide (t ∈ builtinTypes) || decide (t ∈ s.plugins.keys)) &&
      (process I w s msg).2.exc.isNone

theorem handledB_iff {C T G : Type} (I : Impl C T G PF PM) (w : World) (s : PS C T G PF PM) (t msg : Str) :
    Handled I w s t msg ↔ handledB I w s t msg = true := by
  unfold Handled handledB
  cases hp : parseMessage msg with
  | none =>
    simp only [Bool.false_eq_true, iff_false]
    rintro ⟨⟨k, f, h⟩, _⟩
    rw [parsed_iff, hp] at h; cases h
  | some m =>
    simp only [Bool.and_eq_true, Bool.or_eq_true, decide_eq_true_eq, Option.isNone_iff_eq_none]
    constructor
    · rintro ⟨⟨k, f, h⟩, h2, h3⟩
      rw [parsed_iff, hp] at h
      simp only [Option.some.injEq] at h
      exact ⟨⟨by rw [h], h2⟩, h3⟩
    · rintro ⟨⟨rfl, h2⟩, h3⟩
      exact ⟨⟨m.key, m.fields, parsed_iff.2 hp⟩, h2, h3⟩

/-- `handledIn`, computed. -/
def handledInB {C T G : Type} (I : Impl C T G PF PM) (w : World) (t : Str) : Server C T G PF PM → List Event → Nat
  | _, [] => 0
  | v, e :: es =>
    (match e with
      | .arrive m => if handledB I w v.ps t m then 1 else 0
      | _ => 0) + handledInB I w t (v.step I w e) es

theorem handledIn_eq {C T G : Type} (I : Impl C T G PF PM) (w : World) (t : Str) (es : List Event) :
    ∀ v : Server C T G PF PM, handledIn I w t v es = handledInB I w t v es := by
  induction es with
  | nil => intro v; rfl
  | cons e es ih =>
    intro v
    cases e with
    | arrive m => simp only [handledIn, handledInB, ih, handledB_iff]
    | spawn a b => simp only [handledIn, handledInB, ih]
    | advance i => simp only [handledIn, handledInB, ih]

end
end Txstatsd
