import Verif.Lemmas.Micro

set_option linter.unusedSectionVars false
set_option linter.unusedSimpArgs false
set_option linter.unusedVariables false

namespace Txstatsd
open Spec
section
variable [Rounding] {PF PM : Type}

theorem named_none {key : Str} {l : List Datapoint}
    (h : ∀ d ∈ l, c!"stats." <+: d.name ∨ c!"statsd." <+: d.name) : named (c!"stats_counts." ++ key) l = [] :=
  named_nil_of fun d hd he => not_counts_of_prefix (h d hd) he

theorem counterVisit_counts {ops : PluginOps PF PM} {secs ts : ℤ} (hsecs : secs ≠ 0) {s : MPState PF PM} (hs : MPWf ops s) (i : Nat) (key : Str) :
    ∃ o, (counterVisit secs ts s i).2 = .ok o ∧
    (((counterVisit secs ts s i).1.counters.find key = s.counters.find key ∧
      named (c!"stats_counts." ++ key) (o.getD []) = []) ∨
    (∃ v, s.counters.find key = some v ∧ (counterVisit secs ts s i).1.counters.find key = some (.int 0) ∧
      (named (c!"stats_counts." ++ key) (o.getD [])).map Datapoint.value = [v])) := by
  unfold counterVisit
  cases h : s.counters[i]? with
  | none => exact ⟨none, rfl, Or.inl ⟨rfl, rfl⟩⟩
  | some p =>
    obtain ⟨k, c⟩ := p
    have hm := List.mem_of_getElem? h
    have hf := Dict.find_of_mem hs.counters hm
    simp only
    rw [divInt_quot hsecs c]
    simp only
    refine ⟨_, rfl, ?_⟩
    by_cases hk : k = key
    · subst hk
      right
      refine ⟨c, hf, Dict.find_put_self _ _ _, ?_⟩
      simp [named]
    · left
      refine ⟨Dict.find_put_ne _ _ (Ne.symm hk), ?_⟩
      simp [named, hk]

/-- What a step of a generator does to one counter. -/
theorem micro_counts (ops : PluginOps PF PM) (hq : Quiet ops c!"stats_counts.") (w : World) {s : MPState PF PM}
    (hs : MPWf ops s) {g : Gen} (hg : 1000 ≤ g.interval) (key : Str) :
    let r := micro (messageProcessor ops) w s g
    let n := fun l => (named (c!"stats_counts." ++ key) l).map Datapoint.value
    (r.1.counters.find key = s.counters.find key ∧ n r.2.2.toList ++ n (inFlight r.2.1.pc) = n (inFlight g.pc)) ∨
    (∃ v, s.counters.find key = some v ∧ r.1.counters.find key = some (.int 0) ∧ r.2.2 = none ∧ n (inFlight g.pc) = [] ∧
      n (inFlight r.2.1.pc) = [v]) := by
  intro r n
  have hcons : ∀ d l, n [d] ++ n l = n (d :: l) := by
    intro d l; simp only [n]; rw [← List.map_append, ← named_append]; rfl
  have hn0 : n [] = [] := rfl
  have hst : ∀ l, (∀ d ∈ l, c!"stats." <+: d.name ∨ c!"statsd." <+: d.name) → n l = [] := by
    intro l h; simp only [n]; rw [named_none h]; rfl
  have hr : r = micro (messageProcessor ops) w s g := rfl
  obtain ⟨interval, percent, pc⟩ := g
  simp only at hg
  cases pc with
  | fresh => exact Or.inl ⟨rfl, rfl⟩
  | phaseStart k ts acc => exact Or.inl ⟨rfl, rfl⟩
  | inPhase k ts acc start size cursor events pend =>
    cases pend with
    | cons d pend => exact Or.inl ⟨rfl, hcons d pend⟩
    | nil =>
      by_cases h1 : phaseLen (messageProcessor ops) s k ≠ size
      · have : r = (s, ⟨interval, percent, .crashed .runtimeError⟩, none) := by
          rw [hr]; unfold micro; simp only [if_pos h1]
        rw [this]; exact Or.inl ⟨rfl, rfl⟩
      · by_cases h2 : cursor < size
        · have hr' : r = match phaseVisit (messageProcessor ops) w (Int.fdiv interval 1000) percent ts k s cursor with
            | (s, .error e) => (s, ⟨interval, percent, .crashed e⟩, none)
            | (s, .ok none) => (s, ⟨interval, percent, .inPhase k ts acc start size (cursor + 1) events []⟩, none)
            | (s, .ok (some ds)) =>
              (s, ⟨interval, percent, .inPhase k ts acc start size (cursor + 1) (events + 1) ds⟩, none) := by
            rw [hr]; unfold micro; simp only [if_neg h1, if_pos h2]
            rcases phaseVisit (messageProcessor ops) w (Int.fdiv interval 1000) percent ts k s cursor with ⟨s', e | (_ | ds)⟩ <;> rfl
          by_cases hk : k = 0
          · subst hk
            obtain ⟨o, ho, hc⟩ := counterVisit_counts (ts := ts) (fdiv_pos hg) hs cursor key
            rcases hv : counterVisit (Int.fdiv interval 1000) ts s cursor with ⟨s', x⟩
            rw [hv] at ho hc
            simp only at ho hc
            subst ho
            have hv' : phaseVisit (messageProcessor ops) w (Int.fdiv interval 1000) percent ts 0 s cursor = (s', .ok o) := hv
            rw [hv'] at hr'
            cases o with
            | none =>
              rw [hr']
              rcases hc with ⟨h3, h4⟩ | ⟨v, _, _, h5⟩
              · exact Or.inl ⟨h3, rfl⟩
              · simp [named] at h5
            | some ds =>
              rw [hr']
              rcases hc with ⟨h3, h4⟩ | ⟨v, h3, h4, h5⟩
              · refine Or.inl ⟨h3, ?_⟩
                show n [] ++ n ds = n []
                simp only [hn0, List.nil_append, n]
                simp only [Option.getD_some] at h4
                rw [h4]; rfl
              · exact Or.inr ⟨v, h3, h4, rfl, rfl, h5⟩
          · have hf := visit_frame ops w (Int.fdiv interval 1000) percent ts k hs cursor
            have hnm := fun ds => visit_names ops w (Int.fdiv interval 1000) percent ts hk hs cursor (ds := ds)
            rcases hv : phaseVisit (messageProcessor ops) w (Int.fdiv interval 1000) percent ts k s cursor with ⟨s', x⟩
            rw [hv] at hf hnm hr'
            have hfc : s'.counters = s.counters := hf.counters hk
            rcases x with e | (_ | ds)
            · rw [hr']; exact Or.inl ⟨by rw [hfc], rfl⟩
            · rw [hr']; exact Or.inl ⟨by rw [hfc], rfl⟩
            · rw [hr']
              refine Or.inl ⟨by rw [hfc], ?_⟩
              show n [] ++ n ds = n []
              rw [hn0]
              simp only [List.nil_append, n]
              rw [named_nil_of]
              · rfl
              · intro d hd he
                rcases hnm ds rfl d hd with h | ⟨t, k', m, l, h5, h3, h4⟩
                · exact not_counts_of_prefix (Or.inl h) he
                · exact hq _ _ h5 _ _ _ _ _ h3 d h4 (by rw [he]; exact List.prefix_append _ _)
        · by_cases h3 : k < 4
          · have : r = ({ s with ticks := s.ticks + 1 }, ⟨interval, percent, .phaseStart (k + 1) ts
              (acc ++ [(phaseName k, events, Num.flt (rnd (w.clk s.ticks - start)))])⟩, none) := by
              rw [hr]; unfold micro; simp only [if_neg h1, if_neg h2, if_pos h3]
            rw [this]; exact Or.inl ⟨rfl, rfl⟩
          · have : r = ({ s with ticks := s.ticks + 1 }, ⟨interval, percent, .sumInit ts
              (acc ++ [(phaseName k, events, Num.flt (rnd (w.clk s.ticks - start)))])
              [numStatsPoint (messageProcessor ops) (acc ++ [(phaseName k, events, Num.flt (rnd (w.clk s.ticks - start)))]) ts]⟩, none) := by
              rw [hr]; unfold micro; simp only [if_neg h1, if_neg h2, if_neg h3]
            rw [this]
            refine Or.inl ⟨rfl, ?_⟩
            refine (hst [_] ?_)
            intro d hd
            simp only [List.mem_singleton] at hd; subst hd
            right; exact ⟨_, rfl⟩
  | sumInit ts acc pend =>
    cases pend with
    | cons d pend => exact Or.inl ⟨rfl, hcons d pend⟩
    | nil => exact Or.inl ⟨rfl, rfl⟩
  | sumPer ts todo cur pend =>
    cases pend with
    | cons d pend => exact Or.inl ⟨rfl, hcons d pend⟩
    | nil =>
      cases cur with
      | some d => exact Or.inl ⟨rfl, rfl⟩
      | none =>
        cases todo with
        | cons p todo =>
          refine Or.inl ⟨rfl, hst (perMetricPoints (messageProcessor ops) ts p) ?_⟩
          intro d hd
          simp only [perMetricPoints, List.mem_cons, List.not_mem_nil, or_false] at hd
          rcases hd with rfl | rfl <;> exact Or.inr ⟨_, rfl⟩
        | nil => exact Or.inl ⟨rfl, rfl⟩
  | sumRecv ts size cursor cur pend =>
    cases pend with
    | cons d pend => exact Or.inl ⟨rfl, hcons d pend⟩
    | nil =>
      cases cur with
      | some p =>
        obtain ⟨t, d⟩ := p
        have hr' : r = if s.byType.has t then
            ({ s with lastProcess := s.lastProcess.add d }, ⟨interval, percent, .sumRecv ts size cursor none []⟩, none)
          else (s, ⟨interval, percent, .crashed .keyError⟩, none) := by rw [hr]; rfl
        rw [hr']; split_ifs <;> exact Or.inl ⟨rfl, rfl⟩
      | none =>
        by_cases h1 : s.processTimings.length ≠ size
        · have : r = (s, ⟨interval, percent, .crashed .runtimeError⟩, none) := by
            rw [hr]; unfold micro; simp only [if_pos h1]
          rw [this]; exact Or.inl ⟨rfl, rfl⟩
        · cases hc : s.processTimings[cursor]? with
          | none =>
            have : r = ({ s with processTimings := [], byType := [] }, ⟨interval, percent, .done⟩, none) := by
              rw [hr]; unfold micro; simp only [if_neg h1, hc]
            rw [this]; exact Or.inl ⟨rfl, rfl⟩
          | some p =>
            obtain ⟨t, d⟩ := p
            cases hb : s.byType.find t with
            | none =>
              have : r = (s, ⟨interval, percent, .crashed .keyError⟩, none) := by
                rw [hr]; unfold micro; simp only [if_neg h1, hc, hb]
              rw [this]; exact Or.inl ⟨rfl, rfl⟩
            | some m =>
              have : r = (s, ⟨interval, percent, .sumRecv ts size (cursor + 1) (some (t, d))
                (receivePoints (messageProcessor ops) ts t m d)⟩, none) := by
                rw [hr]; unfold micro; simp only [if_neg h1, hc, hb]
              rw [this]
              refine Or.inl ⟨rfl, hst (receivePoints (messageProcessor ops) ts t m d) ?_⟩
              intro q hd
              simp only [receivePoints, List.mem_cons, List.not_mem_nil, or_false] at hd
              rcases hd with rfl | rfl <;> exact Or.inr ⟨_, rfl⟩
  | done => exact Or.inl ⟨rfl, rfl⟩
  | crashed e => exact Or.inl ⟨rfl, rfl⟩

/-! ## Runs -/

theorem run_snoc {C T G : Type} (I : Impl C T G PF PM) (w : World) (v : Server C T G PF PM) (es : List Event) (e : Event) :
    v.run I w (es ++ [e]) = (v.run I w es).step I w e := by simp [Server.run, List.foldl_append]

theorem run_cons {C T G : Type} (I : Impl C T G PF PM) (w : World) (v : Server C T G PF PM) (es : List Event) (e : Event) :
    v.run I w (e :: es) = (v.step I w e).run I w es := rfl

theorem mpwf_step (ops : PluginOps PF PM) (w : World) {v : Server Num (List PyFloat) (List (PyFloat × Str)) PF PM}
    (hv : MPWf ops v.ps) (e : Event) : MPWf ops (v.step (messageProcessor ops) w e).ps := by
  cases e with
  | arrive m => exact mpwf_process ops w hv m
  | spawn i p => exact hv
  | advance i =>
    unfold Server.step
    simp only
    cases hg : v.gens[i]? with
    | none => exact hv
    | some g => exact (micro_frame ops w hv g).wf

theorem mpwf_run (ops : PluginOps PF PM) (w : World) {v : Server Num (List PyFloat) (List (PyFloat × Str)) PF PM}
    (hv : MPWf ops v.ps) (es : List Event) : MPWf ops (v.run (messageProcessor ops) w es).ps := by
  induction es generalizing v with
  | nil => exact hv
  | cons e es ih => rw [run_cons]; exact ih (mpwf_step ops w hv e)

theorem step_intervals {C T G : Type} (I : Impl C T G PF PM) (w : World) {v : Server C T G PF PM} {e : Event}
    (hv : ∀ g ∈ v.gens, 1000 ≤ g.interval) (he : ∀ i p, e = .spawn i p → 1000 ≤ i) :
    ∀ g ∈ (v.step I w e).gens, 1000 ≤ g.interval := by
  cases e with
  | arrive m => exact hv
  | spawn i p =>
    intro g hg
    simp only [Server.step, List.mem_append, List.mem_singleton] at hg
    rcases hg with hg | rfl
    · exact hv g hg
    · exact he i p rfl
  | advance i =>
    unfold Server.step
    simp only
    cases hg : v.gens[i]? with
    | none => exact hv
    | some g =>
      intro g' hg'
      simp only at hg'
      rcases List.mem_or_eq_of_mem_set hg' with h | rfl
      · exact hv g' h
      · rw [(micro_interval I w v.ps g).1]; exact hv g (List.mem_of_getElem? hg)

theorem set_split {α : Type} {l : List α} {i : Nat} {a b : α} (h : l[i]? = some a) :
    ∃ l1 l2, l = l1 ++ a :: l2 ∧ l.set i b = l1 ++ b :: l2 := by
  induction l generalizing i with
  | nil => simp at h
  | cons x xs ih =>
    cases i with
    | zero => simp at h; subst h; exact ⟨[], xs, rfl, rfl⟩
    | succ i =>
      simp at h
      obtain ⟨l1, l2, e1, e2⟩ := ih h
      exact ⟨x :: l1, l2, by rw [e1]; rfl, by rw [List.set_cons_succ, e2]; rfl⟩

theorem arrivals_snoc_arrive (es : List Event) (m : Str) : arrivals (es ++ [.arrive m]) = arrivals es ++ [m] := by
  simp [arrivals]
theorem arrivals_snoc_spawn (es : List Event) (i p : ℤ) : arrivals (es ++ [.spawn i p]) = arrivals es := by
  simp [arrivals]
theorem arrivals_snoc_advance (es : List Event) (i : Nat) : arrivals (es ++ [.advance i]) = arrivals es := by
  simp [arrivals]

theorem schedule_conservation (ops : PluginOps PF PM) (hq : Quiet ops c!"stats_counts.") (plugins : List PF) (w : World)
    (es : List Event) (hw : WholeSecondSpawns es) (key : Str) :
    let v := (startUp (MPState.init ops plugins)).run (messageProcessor ops) w es
    (∀ g ∈ v.gens, 1000 ≤ g.interval) ∧ MPWf ops v.ps ∧
    ∃ blocks last, Increments key (arrivals es) (blocks.flatten ++ last) ∧
      ((named (c!"stats_counts." ++ key) (v.out ++ underWay v.gens)).map Datapoint.value).Perm (blocks.map total) ∧
      (v.ps.counters.find key).getD (.int 0) = total last ∧
      (key ∉ v.ps.counters.keys → blocks = [] ∧ last = []) := by
  induction es using List.reverseRecOn with
  | nil => exact ⟨by simp [Server.run, startUp], mpwf_init ops plugins, [], [], .nil, .refl _, rfl, fun _ => ⟨rfl, rfl⟩⟩
  | append_singleton es e ih =>
    obtain ⟨hgi, hwf, blocks, last, h1, h2, h3, h4⟩ := ih (fun i p h => hw i p (by simp [h]))
    rw [run_snoc]
    generalize (startUp (MPState.init ops plugins)).run (messageProcessor ops) w es = v at *
    refine ⟨step_intervals _ w hgi (fun i p h => hw i p (by simp [h])), mpwf_step ops w hwf e, ?_⟩
    cases e with
    | arrive m =>
      rw [arrivals_snoc_arrive]
      simp only [Server.step]
      rw [process_counters ops w v.ps m]
      rcases applyCounter_find (d := v.ps.counters) (msg := m) (k := key) with ⟨x, r, hi, hf⟩ | ⟨hn, hf, hk⟩
      · refine ⟨blocks, last ++ [(x, r)], ?_, h2, ?_, ?_⟩
        · rw [← List.append_assoc]; exact increments_append h1 (.hit hi .nil)
        · rw [hf, h3]; simp only [Option.getD_some, ← addTo_total, ← addTo_append]
        · intro h; rw [← Dict.find_eq_none, hf] at h; simp at h
      · refine ⟨blocks, last, ?_, h2, ?_, ?_⟩
        · have := increments_append h1 (.skip hn .nil); simpa using this
        · rw [hf, h3]
        · intro h; exact h4 (fun h' => h (applyCounter_keys_mono h'))
    | spawn i p =>
      rw [arrivals_snoc_spawn]
      refine ⟨blocks, last, h1, ?_, h3, h4⟩
      simp only [Server.step, underWay, List.flatMap_append]
      simpa [inFlight, underWay] using h2
    | advance i =>
      rw [arrivals_snoc_advance]
      unfold Server.step
      simp only
      cases hg : v.gens[i]? with
      | none => exact ⟨blocks, last, h1, h2, h3, h4⟩
      | some g =>
        simp only
        have hmc := micro_counts ops hq w hwf (hgi g (List.mem_of_getElem? hg)) key
        have hfr := micro_frame ops w hwf g
        rcases hm : micro (messageProcessor ops) w v.ps g with ⟨s', g', d⟩
        rw [hm] at hmc hfr
        simp only at hmc hfr ⊢
        obtain ⟨l1, l2, e1, e2⟩ := set_split (b := g') hg
        rw [e2]
        rw [e1] at h2
        simp only [underWay, List.flatMap_append, List.flatMap_cons, named_append, List.map_append] at h2 ⊢
        rcases hmc with ⟨hc, hn⟩ | ⟨x, hx, hx', hd, hn1, hn2⟩
        · refine ⟨blocks, last, h1, ?_, by rw [hc]; exact h3, ?_⟩
          · refine List.Perm.trans ?_ h2
            rw [← hn]
            simp only [List.append_assoc]
            refine List.Perm.append_left _ ?_
            exact List.perm_append_comm_assoc _ _ _
          · intro h; apply h4
            rw [← hfr.keys0]; exact h
        · have hl : x = total last := by rw [hx] at h3; exact h3
          refine ⟨blocks ++ [last], [], by simpa using h1, ?_, by rw [hx']; rfl, ?_⟩
          · rw [hd, hn2]
            rw [hn1] at h2
            simp only [List.map_append, List.map_cons, List.map_nil, ← hl, Option.toList_none]
            simp only [List.nil_append] at h2
            refine List.Perm.trans ?_ (h2.append_right [x])
            simp only [named, List.filter_nil, List.map_nil, List.append_nil, List.append_assoc]
            refine List.Perm.append_left _ (List.Perm.append_left _ ?_)
            exact List.perm_append_comm
          · intro h; rw [← Dict.find_eq_none, hx'] at h; simp at h

end
end Txstatsd
