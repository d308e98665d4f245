import Verif.Spec.Missed
import Verif.Lemmas.Missed
import Verif.Lemmas.WatchConf

set_option linter.unusedSectionVars false
set_option linter.unusedSimpArgs false
set_option linter.unusedVariables false

namespace Txstatsd
open Spec
section
variable [Rounding] {C T G PF PM : Type} {I : Impl C T G PF PM} {w : World} {t : Str} {Q : PS C T G PF PM → Prop} {Ok : Str → Prop}

/-- The name under which the messages of type `t` are counted. -/
def recvNameI (I : Impl C T G PF PM) (t : Str) : Str := I.internalPrefix ++ (c!"receive." ++ t ++ c!".count")

/-- An invariant of a server under which the visits of a flush leave the receive statistics alone. -/
structure Tracked (I : Impl C T G PF PM) (w : World) (Q : PS C T G PF PM → Prop) (Ok : Str → Prop) : Prop where
  loc : I.Local
  shared : ∀ {s}, Q s → Shared s
  step : ∀ {v : Server C T G PF PM}, Q v.ps → ∀ e, (∀ m, e = .arrive m → Ok m) → Q (v.step I w e).ps
  visit : ∀ {s}, Q s → ∀ (secs percent ts : ℤ) (k i : Nat),
    (phaseVisit I w secs percent ts k s i).1.byType = s.byType ∧ (phaseVisit I w secs percent ts k s i).1.processTimings = s.processTimings

/-- The points of the visits are not named like the counts of type `t`. -/
def CleanVisits (I : Impl C T G PF PM) (w : World) (t : Str) (Q : PS C T G PF PM → Prop) : Prop :=
  ∀ s, Q s → ∀ (secs percent ts : ℤ) (k i : Nat) (ds : List Datapoint), (phaseVisit I w secs percent ts k s i).2 = .ok (some ds) →
    ∀ d ∈ ds, d.name ≠ recvNameI I t

/-- A step of a generator that is not reporting receive statistics. -/
theorem micro_cleanI (K : Tracked I w Q Ok) (hq : CleanVisits I w t Q) {s : PS C T G PF PM} (hs : Q s)
    {g : Gen} (hg : ¬ Receiving g.pc) (hc : ∀ d ∈ inFlight g.pc, d.name ≠ recvNameI I t) :
    let r := micro I w s g
    r.1.byType = s.byType ∧ r.1.processTimings = s.processTimings ∧ (∀ d ∈ r.2.2.toList, d.name ≠ recvNameI I t) ∧
    (∀ d ∈ inFlight r.2.1.pc, d.name ≠ recvNameI I t) ∧
    (¬ Receiving r.2.1.pc ∨ ∃ ts, r.2.1.pc = .sumRecv ts s.processTimings.length 0 none []) := by
  intro r
  have hr : r = micro I w s g := rfl
  obtain ⟨interval, percent, pc⟩ := g
  have hn : ∀ d ∈ ([] : List Datapoint), d.name ≠ recvNameI I t := by simp
  have hfl : ∀ x y : Str, x = I.internalPrefix ++ (c!"flush." ++ y) → x ≠ recvNameI I t := by
    rintro x y rfl h; simp [recvNameI] at h
  cases pc with
  | fresh => exact ⟨rfl, rfl, hn, hn, Or.inl fun h => h⟩
  | phaseStart k ts acc => exact ⟨rfl, rfl, hn, hn, Or.inl fun h => h⟩
  | inPhase k ts acc start size cursor events pend =>
    cases pend with
    | cons d pend =>
      refine ⟨rfl, rfl, ?_, ?_, Or.inl fun h => h⟩
      · intro d' hd'
        simp only [hr, micro, Option.toList_some, List.mem_singleton] at hd'
        subst hd'; exact hc _ (by simp [inFlight])
      · intro d' hd'
        simp only [hr, micro, inFlight] at hd'
        exact hc _ (by simp [inFlight, hd'])
    | nil =>
      by_cases h1 : phaseLen I s k ≠ size
      · have : r = (s, ⟨interval, percent, .crashed .runtimeError⟩, none) := by
          rw [hr]; unfold micro; simp only [if_pos h1]
        rw [this]; exact ⟨rfl, rfl, hn, hn, Or.inl fun h => h⟩
      · by_cases h2 : cursor < size
        · have hr' : r = match phaseVisit I w (Int.fdiv interval 1000) percent ts k s cursor with
            | (s, .error e) => (s, ⟨interval, percent, .crashed e⟩, none)
            | (s, .ok none) => (s, ⟨interval, percent, .inPhase k ts acc start size (cursor + 1) events []⟩, none)
            | (s, .ok (some ds)) =>
              (s, ⟨interval, percent, .inPhase k ts acc start size (cursor + 1) (events + 1) ds⟩, none) := by
            rw [hr]; unfold micro; simp only [if_neg h1, if_pos h2]
            rcases phaseVisit I w (Int.fdiv interval 1000) percent ts k s cursor with ⟨s', e | (_ | ds)⟩ <;> rfl
          have hf := K.visit hs (Int.fdiv interval 1000) percent ts k cursor
          have hcl := fun ds => hq _ hs (Int.fdiv interval 1000) percent ts k cursor ds
          rcases hv : phaseVisit I w (Int.fdiv interval 1000) percent ts k s cursor with ⟨s', x⟩
          rw [hv] at hr' hf hcl
          rcases x with e | (_ | ds)
          · rw [hr']; exact ⟨hf.1, hf.2, hn, hn, Or.inl fun h => h⟩
          · rw [hr']; exact ⟨hf.1, hf.2, hn, hn, Or.inl fun h => h⟩
          · rw [hr']; exact ⟨hf.1, hf.2, hn, hcl ds rfl, Or.inl fun h => h⟩
        · by_cases h3 : k < 4
          · have : r = ({ s with ticks := s.ticks + 1 }, ⟨interval, percent, .phaseStart (k + 1) ts
              (acc ++ [(phaseName k, events, Num.flt (rnd (w.clk s.ticks - start)))])⟩, none) := by
              rw [hr]; unfold micro; simp only [if_neg h1, if_neg h2, if_pos h3]
            rw [this]; exact ⟨rfl, rfl, hn, hn, Or.inl fun h => h⟩
          · have : r = ({ s with ticks := s.ticks + 1 }, ⟨interval, percent, .sumInit ts
              (acc ++ [(phaseName k, events, Num.flt (rnd (w.clk s.ticks - start)))])
              [numStatsPoint I (acc ++ [(phaseName k, events, Num.flt (rnd (w.clk s.ticks - start)))]) ts]⟩, none) := by
              rw [hr]; unfold micro; simp only [if_neg h1, if_neg h2, if_neg h3]
            rw [this]
            refine ⟨rfl, rfl, hn, ?_, Or.inl fun h => h⟩
            intro d hd
            simp only [inFlight, List.mem_singleton] at hd
            subst hd
            show I.internalPrefix ++ c!"numStats" ≠ _
            simp [recvNameI]
  | sumInit ts acc pend =>
    cases pend with
    | cons d pend =>
      refine ⟨rfl, rfl, ?_, ?_, Or.inl fun h => h⟩
      · intro d' hd'
        simp only [hr, micro, Option.toList_some, List.mem_singleton] at hd'
        subst hd'; exact hc _ (by simp [inFlight])
      · intro d' hd'
        simp only [hr, micro, inFlight] at hd'
        exact hc _ (by simp [inFlight, hd'])
    | nil => exact ⟨rfl, rfl, hn, hn, Or.inl fun h => h⟩
  | sumPer ts todo cur pend =>
    cases pend with
    | cons d pend =>
      refine ⟨rfl, rfl, ?_, ?_, Or.inl fun h => h⟩
      · intro d' hd'
        simp only [hr, micro, Option.toList_some, List.mem_singleton] at hd'
        subst hd'; exact hc _ (by simp [inFlight])
      · intro d' hd'
        simp only [hr, micro, inFlight] at hd'
        exact hc _ (by simp [inFlight, hd'])
    | nil =>
      cases cur with
      | some d => exact ⟨rfl, rfl, hn, hn, Or.inl fun h => h⟩
      | none =>
        cases todo with
        | cons p todo =>
          refine ⟨rfl, rfl, hn, ?_, Or.inl fun h => h⟩
          intro d hd
          have hd : d ∈ perMetricPoints I ts p := hd
          simp only [perMetricPoints, List.mem_cons, List.not_mem_nil, or_false] at hd
          rcases hd with rfl | rfl
          · exact hfl _ (p.1 ++ c!".count") (by simp)
          · exact hfl _ (p.1 ++ c!".duration") (by simp)
        | nil => exact ⟨rfl, rfl, hn, hn, Or.inr ⟨ts, rfl⟩⟩
  | sumRecv ts size cursor cur pend => exact absurd trivial hg
  | done => exact ⟨rfl, rfl, hn, hn, Or.inl fun h => h⟩
  | crashed e => exact ⟨rfl, rfl, hn, hn, Or.inl fun h => h⟩

/-- The sum of the reported counts. -/
def recvSumI (I : Impl C T G PF PM) (t : Str) (l : List Datapoint) : ℚ := ((named (recvNameI I t) l).map fun d => d.value.rat).sum

theorem recvSum_appendI (I : Impl C T G PF PM) (t : Str) (a b : List Datapoint) : recvSumI I t (a ++ b) = recvSumI I t a + recvSumI I t b := by
  simp [recvSumI, named_append]

theorem recvSum_cleanI {t : Str} {l : List Datapoint} (h : ∀ d ∈ l, d.name ≠ recvNameI I t) : recvSumI I t l = 0 := by
  unfold recvSumI; rw [named_nil_of h]; rfl

theorem recvSum_pointsI (I : Impl C T G PF PM) (ts : ℤ) (t t' : Str) (n : Nat) (d : Num) :
    recvSumI I t (receivePoints I ts t' n d) = if t' = t then (n : ℚ) else 0 := by
  have hd : ¬ (t' ++ c!".duration" = t ++ c!".count") := by
    intro h
    have hl := congrArg List.getLast? h
    simp at hl
  unfold recvSumI recvNameI receivePoints
  by_cases hp : t' = t
  · subst hp
    simp [named, List.filter_cons, Num.rat]
  · simp only [named, List.filter_cons, List.append_assoc, List.append_cancel_left_eq, hd,
        List.append_cancel_right_eq, hp, decide_false, Bool.false_eq_true, if_false, List.filter_nil, List.map_nil,
        List.sum_nil]

/-- The balance of the receive statistics of type `t`, `h` messages having been handled. -/
def BalancedI (I : Impl C T G PF PM) (t : Str) (v : Server C T G PF PM) (h : Nat) : Prop :=
  (∀ g ∈ v.gens, ¬ Receiving g.pc → ∀ d ∈ inFlight g.pc, d.name ≠ recvNameI I t) ∧
  (((∀ g ∈ v.gens, ¬ Receiving g.pc) ∧ recvSumI I t v.out + ((v.ps.byType.find t).getD 0 : Nat) = h) ∨
   (∃ (i : Nat) (interval percent ts : ℤ) (cursor : Nat) (cur : Option (Str × Num)) (pend : List Datapoint),
      v.gens[i]? = some ⟨interval, percent, .sumRecv ts v.ps.processTimings.length cursor cur pend⟩ ∧
      (∀ j g, j ≠ i → v.gens[j]? = some g → ¬ Receiving g.pc) ∧ cursor ≤ v.ps.processTimings.length ∧
      (∀ p, cur = some p → p.1 ∈ v.ps.byType.keys) ∧
      recvSumI I t v.out + recvSumI I t pend + (if t ∈ v.ps.processTimings.keys.take cursor then 0
        else ((v.ps.byType.find t).getD 0 : Nat)) = h))

theorem balanced_stepI (K : Tracked I w Q Ok) (hq : CleanVisits I w t Q)
    {v : Server C T G PF PM} (hv : Q v.ps) {h : Nat} (hb : BalancedI I t v h)
    (e : Event) (he : Spec.Calm I w v [e]) :
    BalancedI I t (v.step I w e) (h + handledIn I w t v [e]) := by
  classical
  obtain ⟨hcl, hb⟩ := hb
  cases e with
  | arrive m =>
    have hno : ∀ g ∈ v.gens, ¬ Receiving g.pc := he.1
    have hb : recvSumI I t v.out + ((v.ps.byType.find t).getD 0 : Nat) = h := by
      rcases hb with ⟨_, hb⟩ | ⟨i, interval, percent, ts, cursor, cur, pend, hg, _⟩
      · exact hb
      · exact absurd trivial (hno _ (List.mem_of_getElem? hg))
    refine ⟨hcl, Or.inl ⟨hno, ?_⟩⟩
    simp only [handledIn, Nat.add_zero, Server.step]
    obtain ⟨h1, h2⟩ := process_byType (K.loc) w v.ps m t
    by_cases hh : Handled I w v.ps t m
    · rw [h1 hh, if_pos hh]
      simp only [Option.getD_some]
      push_cast
      rw [← hb]; ring
    · rw [h2 hh, if_neg hh]; simpa using hb
  | spawn i p =>
    simp only [handledIn, Nat.add_zero]
    refine ⟨?_, ?_⟩
    · intro g hg
      simp only [Server.step, List.mem_append, List.mem_singleton] at hg
      rcases hg with hg | rfl
      · exact hcl g hg
      · intro _ d hd; simp [inFlight] at hd
    · rcases hb with ⟨hno, hb⟩ | ⟨i, interval, percent, ts, cursor, cur, pend, hg, hoth, hcur, hk, hb⟩
      · refine Or.inl ⟨?_, hb⟩
        intro g hg
        simp only [Server.step, List.mem_append, List.mem_singleton] at hg
        rcases hg with hg | rfl
        · exact hno g hg
        · exact fun h => h
      · have hlt : i < v.gens.length := (List.getElem?_eq_some_iff.1 hg).1
        refine Or.inr ⟨i, interval, percent, ts, cursor, cur, pend, ?_, ?_, hcur, hk, hb⟩
        · simp only [Server.step]; rw [List.getElem?_append_left hlt]; exact hg
        · intro j g hj hgj
          simp only [Server.step] at hgj
          by_cases hjl : j < v.gens.length
          · rw [List.getElem?_append_left hjl] at hgj; exact hoth j g hj hgj
          · rw [List.getElem?_append_right (by omega), List.getElem?_singleton] at hgj
            split_ifs at hgj
            simp only [Option.some.injEq] at hgj
            subst hgj; exact fun h => h
  | advance i =>
    have hoth : ∀ j g, j ≠ i → v.gens[j]? = some g → ¬ Receiving g.pc := he.1
    simp only [handledIn, Nat.add_zero]
    unfold Server.step
    simp only
    cases hg : v.gens[i]? with
    | none => exact ⟨hcl, hb⟩
    | some g =>
      simp only
      have hlt : i < v.gens.length := (List.getElem?_eq_some_iff.1 hg).1
      by_cases hrec : Receiving g.pc
      · -- the reporting generator
        rcases hb with ⟨hno, hb⟩ | ⟨i', interval, percent, ts, cursor, cur, pend, hg', hoth', hcur, hk, hb⟩
        · exact absurd hrec (hno g (List.mem_of_getElem? hg))
        · have hii : i' = i := by
            by_contra hne
            exact hoth' i g (Ne.symm hne) hg hrec
          subst hii
          rw [hg] at hg'
          simp only [Option.some.injEq] at hg'
          subst hg'
          have hmem : ∀ b, ∀ g' ∈ v.gens.set i' b, g' ≠ b → ¬ Receiving g'.pc ∧ g' ∈ v.gens := by
            intro b g' hg' hne
            rcases mem_set_iff hg' with h | ⟨j, hj, hgj⟩
            · exact absurd h hne
            · exact ⟨hoth j g' hj hgj, List.mem_of_getElem? hgj⟩
          have hclean : ∀ b : Gen, (¬ Receiving b.pc → ∀ d ∈ inFlight b.pc, d.name ≠ recvNameI I t) →
              ∀ g' ∈ v.gens.set i' b, ¬ Receiving g'.pc → ∀ d ∈ inFlight g'.pc, d.name ≠ recvNameI I t := by
            intro b hb' g' hg' hnr
            rcases mem_set_iff hg' with rfl | ⟨j, hj, hgj⟩
            · exact hb' hnr
            · exact hcl g' (List.mem_of_getElem? hgj) hnr
          have hothers : ∀ b : Gen, ∀ j g', j ≠ i' → (v.gens.set i' b)[j]? = some g' → ¬ Receiving g'.pc := by
            intro b j g' hj hgj
            rw [List.getElem?_set_ne (Ne.symm hj)] at hgj
            exact hoth j g' hj hgj
          cases pend with
          | cons d pend =>
            refine ⟨hclean _ (fun h => absurd trivial h), Or.inr ⟨i', interval, percent, ts, cursor, cur, pend, ?_, hothers _, hcur, hk, ?_⟩⟩
            · simp [micro, hlt]
            · simp only [micro, Option.toList_some]
              rw [recvSum_appendI]
              rw [show d :: pend = [d] ++ pend from rfl, recvSum_appendI] at hb
              rw [← add_assoc] at hb
              exact hb
          | nil =>
            cases cur with
            | some p =>
              obtain ⟨t', d⟩ := p
              have hh : v.ps.byType.has t' = true := by rw [Dict.has_iff]; exact hk _ rfl
              have hm : micro I w v.ps ⟨interval, percent, .sumRecv ts v.ps.processTimings.length cursor (some (t', d)) []⟩ =
                  ({ v.ps with lastProcess := v.ps.lastProcess.add d }, ⟨interval, percent, .sumRecv ts v.ps.processTimings.length cursor none []⟩, none) := by
                unfold micro; simp only [hh, if_true]
              rw [hm]
              refine ⟨hclean _ (fun h => absurd trivial h), Or.inr ⟨i', interval, percent, ts, cursor, none, [], ?_, hothers _, hcur,
                (fun p h => by cases h), ?_⟩⟩
              · simp [hlt]
              · simpa using hb
            | none =>
              by_cases hc : cursor < v.ps.processTimings.length
              · obtain ⟨t', d, hp⟩ : ∃ t' d, v.ps.processTimings[cursor]? = some (t', d) :=
                  ⟨_, _, List.getElem?_eq_getElem hc⟩
                have hkm : t' ∈ v.ps.byType.keys := by
                  rw [(K.shared hv).recv]; exact Dict.mem_keys_of_mem (List.mem_of_getElem? hp)
                obtain ⟨n, hn⟩ : ∃ n, v.ps.byType.find t' = some n := by
                  rw [← Dict.find_isSome_iff] at hkm; exact Option.isSome_iff_exists.1 hkm
                have hm : micro I w v.ps ⟨interval, percent, .sumRecv ts v.ps.processTimings.length cursor none []⟩ =
                    (v.ps, ⟨interval, percent, .sumRecv ts v.ps.processTimings.length (cursor + 1) (some (t', d))
                      (receivePoints I ts t' n d)⟩, none) := by
                  unfold micro; simp only [ne_eq, not_true_eq_false, if_false, hp, hn]
                rw [hm]
                refine ⟨hclean _ (fun h => absurd trivial h), Or.inr ⟨i', interval, percent, ts, cursor + 1, some (t', d),
                  receivePoints I ts t' n d, ?_, hothers _, hc, fun p h => ?_, ?_⟩⟩
                · simp [hlt]
                · simp only [Option.some.injEq] at h; subst h; exact hkm
                · have hkp : v.ps.processTimings.keys[cursor]? = some t' := by
                    unfold Dict.keys; rw [List.getElem?_map, hp]; rfl
                  have htk : v.ps.processTimings.keys.take (cursor + 1) = v.ps.processTimings.keys.take cursor ++ [t'] := by
                    rw [List.take_add_one, hkp]; rfl
                  have hnd : t' ∉ v.ps.processTimings.keys.take cursor := by
                    intro hmem
                    have hw : v.ps.processTimings.keys.Nodup := (K.shared hv).processTimings
                    have := hw.sublist (List.take_sublist (cursor + 1) _)
                    rw [htk, List.nodup_append] at this
                    exact this.2.2 t' hmem t' (by simp) rfl
                  simp only [Option.toList_none, List.append_nil]
                  rw [recvSum_pointsI, htk]
                  have hz : recvSumI I t ([] : List Datapoint) = 0 := rfl
                  rw [hz] at hb
                  by_cases htt : t' = t
                  · subst htt
                    rw [if_neg hnd, hn] at hb
                    simp only [Option.getD_some] at hb
                    simp only [if_true, List.mem_append, List.mem_singleton, or_true]
                    rw [← hb]; ring
                  · have htt' : ¬ t = t' := fun h => htt h.symm
                    simp only [htt, if_false, List.mem_append, List.mem_singleton, htt', or_false]
                    exact hb
              · have hp : v.ps.processTimings[cursor]? = none := by
                  rw [List.getElem?_eq_none_iff]; omega
                have hm : micro I w v.ps ⟨interval, percent, .sumRecv ts v.ps.processTimings.length cursor none []⟩ =
                    ({ v.ps with processTimings := [], byType := [] }, ⟨interval, percent, .done⟩, none) := by
                  unfold micro; simp only [ne_eq, not_true_eq_false, if_false, hp]
                rw [hm]
                refine ⟨hclean _ (fun _ d hd => by simp [inFlight] at hd), Or.inl ⟨?_, ?_⟩⟩
                · intro g' hg'
                  rcases mem_set_iff hg' with rfl | ⟨j, hj, hgj⟩
                  · exact fun h => h
                  · exact hoth j g' hj hgj
                · have hz : recvSumI I t ([] : List Datapoint) = 0 := rfl
                  have hcl' : v.ps.processTimings.keys.take cursor = v.ps.processTimings.keys := by
                    apply List.take_of_length_le
                    simp only [Dict.keys, List.length_map]; omega
                  rw [hz, hcl'] at hb
                  simp only [Option.toList_none, List.append_nil]
                  have : ((Dict.find ([] : Dict Nat) t).getD 0) = 0 := rfl
                  rw [this]
                  by_cases hmem : t ∈ v.ps.processTimings.keys
                  · rw [if_pos hmem] at hb
                    simpa using hb
                  · rw [if_neg hmem] at hb
                    rw [← (K.shared hv).recv, ← Dict.find_eq_none] at hmem
                    rw [hmem] at hb
                    simpa using hb
      · -- some other generator
        have hno : ∀ g ∈ v.gens, ¬ Receiving g.pc := by
          intro g' hg'
          obtain ⟨j, hj⟩ := List.mem_iff_getElem?.1 hg'
          by_cases hji : j = i
          · subst hji; rw [hg] at hj; simp only [Option.some.injEq] at hj; subst hj; exact hrec
          · exact hoth j g' hji hj
        have hb : recvSumI I t v.out + ((v.ps.byType.find t).getD 0 : Nat) = h := by
          rcases hb with ⟨_, hb⟩ | ⟨i, interval, percent, ts, cursor, cur, pend, hg, _⟩
          · exact hb
          · exact absurd trivial (hno _ (List.mem_of_getElem? hg))
        obtain ⟨h1, h2, h3, h4, h5⟩ := micro_cleanI K hq hv hrec (hcl g (List.mem_of_getElem? hg) hrec)
        rcases hm : micro I w v.ps g with ⟨s', ⟨iv, pc', pc⟩, d⟩
        rw [hm] at h1 h2 h3 h4 h5
        simp only at h1 h2 h3 h4 h5 ⊢
        have hsum : recvSumI I t (v.out ++ d.toList) = recvSumI I t v.out := by
          rw [recvSum_appendI, recvSum_cleanI h3, add_zero]
        refine ⟨?_, ?_⟩
        · intro g' hg' hnr
          rcases mem_set_iff hg' with rfl | ⟨j, hj, hgj⟩
          · exact h4
          · exact hcl g' (List.mem_of_getElem? hgj) hnr
        · rcases h5 with h5 | ⟨ts, h5⟩
          · refine Or.inl ⟨?_, by rw [hsum, h1]; exact hb⟩
            intro g' hg'
            rcases mem_set_iff hg' with rfl | ⟨j, hj, hgj⟩
            · exact h5
            · exact hoth j g' hj hgj
          · subst h5
            refine Or.inr ⟨i, iv, pc', ts, 0, none, [], ?_, ?_, Nat.zero_le _, (fun p h => by cases h), ?_⟩
            · simp [hlt, h2]
            · intro j g' hj hgj
              rw [List.getElem?_set_ne (Ne.symm hj)] at hgj
              exact hoth j g' hj hgj
            · simp only [List.take_zero, List.not_mem_nil, if_false]
              rw [hsum, h1, recvSum_cleanI (l := []) (by simp), add_zero]
              exact hb

theorem balanced_runI (K : Tracked I w Q Ok) (hq : CleanVisits I w t Q) (es : List Event) (hok : ∀ m, Event.arrive m ∈ es → Ok m) :
    ∀ (v : Server C T G PF PM) (h : Nat), Q v.ps → BalancedI I t v h →
    Spec.Calm I w v es →
    BalancedI I t (v.run I w es) (h + handledIn I w t v es) := by
  induction es with
  | nil => intro v h hv hb _; exact hb
  | cons e es ih =>
    intro v h hv hb hc
    rw [run_cons]
    have := ih (fun m hm => hok m (List.mem_cons_of_mem _ hm)) _ _ (K.step hv e (fun m hm => hok m (by subst hm; exact List.mem_cons_self))) (balanced_stepI K hq hv hb e ⟨hc.1, trivial⟩) hc.2
    rw [Nat.add_assoc] at this
    simpa [handledIn, Nat.add_assoc] using this

/-- An arrival while a flush reports the receive statistics. -/
theorem balanced_arriveI (K : Tracked I w Q Ok) (hq : CleanVisits I w t Q) {v : Server C T G PF PM}
    (hv : Q v.ps) {h : Nat} (hb : BalancedI I t v h) (m : Str) (hr : ∃ g ∈ v.gens, Receiving g.pc)
    (hk : ∀ t, Handled I w v.ps t m → t ∈ v.ps.byType.keys) :
    (¬ (Handled I w v.ps t m ∧ ¬ Passed t v) → BalancedI I t (v.step I w (.arrive m)) h) ∧
    ((Handled I w v.ps t m ∧ ¬ Passed t v) → BalancedI I t (v.step I w (.arrive m)) (h + 1)) := by
  obtain ⟨hcl, hb⟩ := hb
  obtain ⟨g0, hg0, hr0⟩ := hr
  rcases hb with ⟨hno, _⟩ | ⟨i, interval, percent, ts, cursor, cur, pend, hg, hoth, hcur, hck, hb⟩
  · exact absurd hr0 (hno g0 hg0)
  obtain ⟨hpt, hbt⟩ := process_known (K.loc) w v.ps m (K.shared hv).recv hk
  have hlen : (process I w v.ps m).1.processTimings.length = v.ps.processTimings.length := by
    have := congrArg List.length hpt
    simpa [Dict.keys] using this
  have hpass : Passed t v ↔ t ∈ v.ps.processTimings.keys.take cursor := by
    constructor
    · rintro ⟨g, hgm, ts', size', cursor', cur', pend', hpc, hmem⟩
      obtain ⟨j, hj⟩ := List.mem_iff_getElem?.1 hgm
      by_cases hji : j = i
      · subst hji
        rw [hg, Option.some.injEq] at hj
        subst hj
        simp only [Pc.sumRecv.injEq] at hpc
        rw [hpc.2.2.1]; exact hmem
      · exact absurd (by rw [hpc]; trivial) (hoth j g hji hj)
    · intro hmem
      exact ⟨_, List.mem_of_getElem? hg, _, _, _, _, _, rfl, hmem⟩
  obtain ⟨h1, h2⟩ := process_byType (K.loc) w v.ps m t
  have key : ∀ h' : Nat, recvSumI I t v.out + recvSumI I t pend + (if t ∈ v.ps.processTimings.keys.take cursor then 0
        else (((process I w v.ps m).1.byType.find t).getD 0 : Nat)) = h' →
      BalancedI I t (v.step I w (.arrive m)) h' := by
    intro h' he
    refine ⟨hcl, Or.inr ⟨i, interval, percent, ts, cursor, cur, pend, ?_, hoth, ?_, ?_, ?_⟩⟩
    · simp only [Server.step, hlen]; exact hg
    · simp only [Server.step, hlen]; exact hcur
    · simp only [Server.step, hbt]; exact hck
    · simp only [Server.step, hpt]; exact he
  constructor
  · intro hn
    refine key h ?_
    by_cases hp : t ∈ v.ps.processTimings.keys.take cursor
    · rw [if_pos hp] at hb ⊢; exact hb
    · rw [if_neg hp] at hb ⊢
      rw [h2 (fun hh => hn ⟨hh, fun hp' => hp (hpass.1 hp')⟩)]; exact hb
  · rintro ⟨hh, hp⟩
    rw [hpass] at hp
    refine key (h + 1) ?_
    rw [if_neg hp] at hb ⊢
    rw [h1 hh]
    simp only [Option.getD_some]
    push_cast
    rw [← hb]; ring

theorem missed_runI (K : Tracked I w Q Ok) (hq : CleanVisits I w t Q) (es : List Event) (hok : ∀ m, Event.arrive m ∈ es → Ok m) :
    ∀ (v : Server C T G PF PM) (h : Nat), Q v.ps → BalancedI I t v h →
    Solo I w v es →
    ∃ h', BalancedI I t (v.run I w es) h' ∧
      h' + missedIn I w t v es = h + handledIn I w t v es := by
  classical
  induction es with
  | nil => intro v h hv hb _; exact ⟨h, hb, rfl⟩
  | cons e es ih =>
    intro v h hv hb hc
    rw [run_cons]
    have hstep : ∃ h1, BalancedI I t (v.step I w e) h1 ∧
        h1 + missedIn I w t v [e] = h + handledIn I w t v [e] := by
      cases e with
      | arrive m =>
        by_cases hr : ∃ g ∈ v.gens, Receiving g.pc
        · obtain ⟨a1, a2⟩ := balanced_arriveI K hq hv hb m hr (hc.1 hr)
          simp only [missedIn, handledIn, Nat.add_zero]
          by_cases hh : Handled I w v.ps t m
          · by_cases hp : Passed t v
            · exact ⟨h, a1 (fun h => h.2 hp), by simp [hh, hp]⟩
            · exact ⟨h + 1, a2 ⟨hh, hp⟩, by simp [hh, hp]⟩
          · exact ⟨h, a1 (fun h => hh h.1), by simp [hh]⟩
        · have hno : ∀ g ∈ v.gens, ¬ Receiving g.pc := fun g hg hrr => hr ⟨g, hg, hrr⟩
          have hp : ¬ Passed t v := by
            rintro ⟨g, hg, ts, size, cursor, cur, pend, hpc, _⟩
            exact hno g hg (by rw [hpc]; trivial)
          exact ⟨_, balanced_stepI K hq hv hb (.arrive m) ⟨hno, trivial⟩, by simp [missedIn, hp]⟩
      | spawn i p => exact ⟨_, balanced_stepI K hq hv hb (.spawn i p) ⟨trivial, trivial⟩, by simp [missedIn]⟩
      | advance i => exact ⟨_, balanced_stepI K hq hv hb (.advance i) ⟨hc.1, trivial⟩, by simp [missedIn]⟩
    obtain ⟨h1, hb1, he1⟩ := hstep
    obtain ⟨h2, hb2, he2⟩ := ih (fun m hm => hok m (List.mem_cons_of_mem _ hm)) _ h1 (K.step hv e (fun m hm => hok m (by subst hm; exact List.mem_cons_self))) hb1 hc.2
    refine ⟨h2, hb2, ?_⟩
    simp only [missedIn, handledIn, Nat.add_zero] at he1 ⊢
    omega

theorem micro_byTypeI (K : Tracked I w Q Ok) {s : PS C T G PF PM} (hs : Q s) (g : Gen) :
    (micro I w s g).1.byType = s.byType ∨ (micro I w s g).1.byType = [] := by
  obtain ⟨interval, percent, pc⟩ := g
  cases pc with
  | fresh => exact .inl rfl
  | phaseStart k ts acc => exact .inl rfl
  | inPhase k ts acc start size cursor events pend =>
    left
    cases pend with
    | cons d pend => rfl
    | nil =>
      have hf := K.visit hs (Int.fdiv interval 1000) percent ts k cursor
      rcases hv : phaseVisit I w (Int.fdiv interval 1000) percent ts k s cursor with ⟨s', x⟩
      rw [hv] at hf
      simp only [micro, hv]
      split
      · rfl
      · split
        · rcases x with e | (_ | ds) <;> exact hf.1
        · rfl
  | sumInit ts acc pend => cases pend <;> exact .inl rfl
  | sumPer ts todo cur pend =>
    cases pend with
    | cons d pend => exact .inl rfl
    | nil =>
      cases cur with
      | some d => exact .inl rfl
      | none => cases todo <;> exact .inl rfl
  | sumRecv ts size cursor cur pend =>
    cases pend with
    | cons d pend => exact .inl rfl
    | nil =>
      cases cur with
      | some p =>
        left
        simp only [micro]
        split <;> rfl
      | none =>
        simp only [micro]
        split
        · exact .inl rfl
        · split
          · split <;> exact .inl rfl
          · exact .inr rfl
  | done => exact .inl rfl
  | crashed e => exact .inl rfl

theorem wiped_runI (K : Tracked I w Q Ok) (t : Str) (es : List Event) (hok : ∀ m, Event.arrive m ∈ es → Ok m) :
    ∀ v : Server C T G PF PM, Q v.ps →
    ((v.run I w es).ps.byType.find t).getD 0 + wipedIn I w t v es =
      (v.ps.byType.find t).getD 0 + handledIn I w t v es := by
  classical
  induction es with
  | nil => intro v _; rfl
  | cons e es ih =>
    intro v hv
    rw [run_cons]
    have h := ih (fun m hm => hok m (List.mem_cons_of_mem _ hm)) _ (K.step hv e (fun m hm => hok m (by subst hm; exact List.mem_cons_self)))
    simp only [wipedIn, handledIn]
    cases e with
    | arrive m =>
      obtain ⟨h1, h2⟩ := process_byType (K.loc) w v.ps m t
      have hs : (v.step I w (.arrive m)).ps = (process I w v.ps m).1 := rfl
      by_cases hh : Handled I w v.ps t m
      · have h1 := h1 hh
        simp only [if_pos hh]
        rw [hs] at h ⊢
        rw [h1, Option.getD_some] at h ⊢
        omega
      · have h2 := h2 hh
        simp only [if_neg hh]
        rw [hs] at h ⊢
        rw [h2] at h ⊢
        omega
    | spawn i p =>
      have hs : (v.step I w (.spawn i p)).ps = v.ps := rfl
      simp only [hs] at h ⊢
      omega
    | advance i =>
      have hb : (v.step I w (.advance i)).ps.byType = v.ps.byType ∨
          (v.step I w (.advance i)).ps.byType = [] := by
        cases hg : v.gens[i]? with
        | none => left; simp [Server.step, hg]
        | some g => simp only [Server.step, hg]; exact micro_byTypeI K hv g
      rcases hb with hb | hb
      · simp only [hb] at h ⊢; omega
      · simp only [hb] at h ⊢
        have h0 : ((Dict.find ([] : Dict Nat) t).getD 0) = 0 := rfl
        omega

/-- The counts of type `t` under way. -/
def recvFlightI (I : Impl C T G PF PM) (t : Str) (gens : List Gen) : ℚ := (gens.map fun g => recvSumI I t (inFlight g.pc)).sum

theorem micro_readI (K : Tracked I w Q Ok) (hq : CleanVisits I w t Q) {s : PS C T G PF PM} (hs : Q s)
    (g : Gen) (hc : ¬ Receiving g.pc → ∀ d ∈ inFlight g.pc, d.name ≠ recvNameI I t) :
    let r := micro I w s g
    (¬ Receiving r.2.1.pc → ∀ d ∈ inFlight r.2.1.pc, d.name ≠ recvNameI I t) ∧
    recvSumI I t (inFlight r.2.1.pc) + recvSumI I t r.2.2.toList = recvSumI I t (inFlight g.pc) +
      ((match g.pc with
        | .sumRecv _ size cursor none [] =>
          if s.processTimings.length = size ∧ s.processTimings.keys[cursor]? = some t then (s.byType.find t).getD 0 else 0
        | _ => 0 : Nat) : ℚ) := by
  intro r
  have hz : recvSumI I t ([] : List Datapoint) = 0 := rfl
  by_cases hg : Receiving g.pc
  · obtain ⟨interval, percent, pc⟩ := g
    cases pc with
    | sumRecv ts size cursor cur pend =>
      cases pend with
      | cons d pend =>
        refine ⟨fun h => absurd trivial h, ?_⟩
        have hd : recvSumI I t pend + recvSumI I t [d] = recvSumI I t (d :: pend) + ((0 : Nat) : ℚ) := by
          rw [show d :: pend = [d] ++ pend from rfl, recvSum_appendI]
          push_cast
          ring
        cases cur <;> exact hd
      | nil =>
        cases cur with
        | some p =>
          obtain ⟨t', d⟩ := p
          cases hh : s.byType.has t' with
          | true =>
            have hm : r = ({ s with lastProcess := s.lastProcess.add d }, ⟨interval, percent, .sumRecv ts size cursor none []⟩, none) := by
              show micro _ _ _ _ = _
              unfold micro
              simp only [hh, if_true]
            rw [hm]
            exact ⟨fun h => absurd trivial h, by simp [inFlight, hz]⟩
          | false =>
            have hm : r = (s, ⟨interval, percent, .crashed .keyError⟩, none) := by
              show micro _ _ _ _ = _
              unfold micro
              simp only [hh, Bool.false_eq_true, if_false]
            rw [hm]
            exact ⟨fun _ d hd => by simp [inFlight] at hd, by simp [inFlight, hz]⟩
        | none =>
          by_cases hsz : s.processTimings.length = size
          · rcases hp : s.processTimings[cursor]? with _ | ⟨t', d⟩
            · have hm : r = ({ s with processTimings := [], byType := [] }, ⟨interval, percent, .done⟩, none) := by
                show micro _ _ _ _ = _
                unfold micro
                simp only [ne_eq, hsz, not_true_eq_false, if_false, hp]
              have hk : s.processTimings.keys[cursor]? = none := by unfold Dict.keys; rw [List.getElem?_map, hp]; rfl
              rw [hm]
              refine ⟨fun _ d hd => by simp [inFlight] at hd, ?_⟩
              simp only [hk, inFlight, Option.toList_none, hz]
              simp
            · have hkm : t' ∈ s.byType.keys := by
                rw [(K.shared hs).recv]; exact Dict.mem_keys_of_mem (List.mem_of_getElem? hp)
              obtain ⟨n, hn⟩ : ∃ n, s.byType.find t' = some n := by
                rw [← Dict.find_isSome_iff] at hkm; exact Option.isSome_iff_exists.1 hkm
              have hm : r = (s, ⟨interval, percent, .sumRecv ts size (cursor + 1) (some (t', d))
                  (receivePoints I ts t' n d)⟩, none) := by
                show micro _ _ _ _ = _
                unfold micro
                simp only [ne_eq, hsz, not_true_eq_false, if_false, hp, hn]
              have hk : s.processTimings.keys[cursor]? = some t' := by unfold Dict.keys; rw [List.getElem?_map, hp]; rfl
              rw [hm]
              refine ⟨fun h => absurd trivial h, ?_⟩
              simp only [hk, inFlight, Option.toList_none, hz, recvSum_pointsI, hsz, true_and, Option.some.injEq]
              by_cases ht : t' = t
              · subst ht
                simp [hn]
              · simp [ht]
          · have hm : r = (s, ⟨interval, percent, .crashed .runtimeError⟩, none) := by
              show micro _ _ _ _ = _
              unfold micro
              simp only [ne_eq, hsz, not_false_eq_true, if_true]
            rw [hm]
            refine ⟨fun _ d hd => by simp [inFlight] at hd, ?_⟩
            simp [inFlight, hz, hsz]
    | _ => exact absurd hg id
  · obtain ⟨h1, h2, h3, h4, h5⟩ := micro_cleanI K hq hs hg (hc hg)
    refine ⟨fun _ => h4, ?_⟩
    have h0 : (match g.pc with
        | .sumRecv _ size cursor none [] =>
          if s.processTimings.length = size ∧ s.processTimings.keys[cursor]? = some t then (s.byType.find t).getD 0 else 0
        | _ => 0 : Nat) = 0 := by
      split
      · next h => rw [h] at hg; exact absurd trivial hg
      · rfl
    rw [h0, recvSum_cleanI h3, recvSum_cleanI h4, recvSum_cleanI (hc hg)]
    simp

theorem read_runI (K : Tracked I w Q Ok) (hq : CleanVisits I w t Q) (es : List Event) (hok : ∀ m, Event.arrive m ∈ es → Ok m) :
    ∀ v : Server C T G PF PM, Q v.ps →
    (∀ g ∈ v.gens, ¬ Receiving g.pc → ∀ d ∈ inFlight g.pc, d.name ≠ recvNameI I t) →
    (∀ g ∈ (v.run I w es).gens, ¬ Receiving g.pc → ∀ d ∈ inFlight g.pc, d.name ≠ recvNameI I t) ∧
    recvSumI I t (v.run I w es).out + recvFlightI I t (v.run I w es).gens =
      recvSumI I t v.out + recvFlightI I t v.gens + readIn I w t v es := by
  induction es with
  | nil => intro v _ hc; exact ⟨hc, by simp [readIn, Server.run]⟩
  | cons e es ih =>
    intro v hv hc
    rw [run_cons]
    have hstep : (∀ g ∈ (v.step I w e).gens, ¬ Receiving g.pc → ∀ d ∈ inFlight g.pc, d.name ≠ recvNameI I t) ∧
        recvSumI I t (v.step I w e).out + recvFlightI I t (v.step I w e).gens =
          recvSumI I t v.out + recvFlightI I t v.gens + justRead t v e := by
      cases e with
      | arrive m => exact ⟨hc, by simp [Server.step, justRead]⟩
      | spawn i p =>
        refine ⟨?_, by simp [Server.step, justRead, recvFlightI, inFlight, recvSum_cleanI]⟩
        intro g hg
        simp only [Server.step, List.mem_append, List.mem_singleton] at hg
        rcases hg with hg | rfl
        · exact hc g hg
        · intro _ d hd; simp [inFlight] at hd
      | advance i =>
        cases hg : v.gens[i]? with
        | none => exact ⟨by simpa [Server.step, hg] using hc, by simp [Server.step, hg, justRead]⟩
        | some g =>
          obtain ⟨h1, h2⟩ := micro_readI K hq hv g (hc g (List.mem_of_getElem? hg))
          simp only [Server.step, hg]
          constructor
          · intro g' hg'
            rcases mem_set_iff hg' with rfl | ⟨j, hj, hgj⟩
            · exact h1
            · exact hc g' (List.mem_of_getElem? hgj)
          · have hset := sum_set (fun g : Gen => recvSumI I t (inFlight g.pc)) v.gens i g (micro I w v.ps g).2.1 hg
            have hj : justRead t v (.advance i) = (match g.pc with
                | .sumRecv _ size cursor none [] =>
                  if v.ps.processTimings.length = size ∧ v.ps.processTimings.keys[cursor]? = some t then (v.ps.byType.find t).getD 0 else 0
                | _ => 0 : Nat) := by
              obtain ⟨interval, percent, pc⟩ := g
              simp only [justRead, hg]
              cases pc with
              | sumRecv ts size cursor cur pend => cases cur <;> cases pend <;> rfl
              | _ => rfl
            rw [← hj] at h2
            unfold recvFlightI
            rw [recvSum_appendI]
            linarith
    obtain ⟨h1, h2⟩ := ih (fun m hm => hok m (List.mem_cons_of_mem _ hm)) _ (K.step hv e (fun m hm => hok m (by subst hm; exact List.mem_cons_self))) hstep.1
    refine ⟨h1, ?_⟩
    rw [h2, hstep.2]
    simp only [readIn]
    push_cast
    ring

end
end Txstatsd
