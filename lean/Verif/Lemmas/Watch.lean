import Verif.Lemmas.Schedule

set_option linter.unusedSectionVars false
set_option linter.unusedSimpArgs false
set_option linter.unusedVariables false

/-!
# Watching some of the datapoints through a schedule, for any processor
-/

namespace Txstatsd
open Spec
section
variable [Rounding] {C T G PF PM : Type}

/-- The same metrics are stored. -/
structure SameStores (s s' : PS C T G PF PM) : Prop where
  counters : s'.counters = s.counters
  timers : s'.timers = s.timers
  gauges : s'.gauges = s.gauges
  meters : s'.meters = s.meters
  pluginMetrics : s'.pluginMetrics = s.pluginMetrics
  plugins : s'.plugins = s.plugins
  recv : (s'.processTimings = s.processTimings ∧ s'.byType = s.byType) ∨ (s'.processTimings = [] ∧ s'.byType = [])
  ticks : s.ticks ≤ s'.ticks

theorem sameStores_refl (s : PS C T G PF PM) : SameStores s s := ⟨rfl, rfl, rfl, rfl, rfl, rfl, Or.inl ⟨rfl, rfl⟩, le_refl _⟩

theorem shared_same {s s' : PS C T G PF PM} (h : SameStores s s') (hs : Shared s) : Shared s' := by
  obtain ⟨_, _, _, h4, h5, _, h7, _⟩ := h
  rcases h7 with ⟨h7, h8⟩ | ⟨h7, h8⟩
  · exact ⟨by rw [h4]; exact hs.1, by rw [h5]; exact hs.2, by rw [h7]; exact hs.3, by rw [h8]; exact hs.4,
      by rw [h7, h8]; exact hs.5⟩
  · exact ⟨by rw [h4]; exact hs.1, by rw [h5]; exact hs.2, by rw [h7]; exact Dict.wf_nil, by rw [h8]; exact Dict.wf_nil,
      by rw [h7, h8]; rfl⟩

/-- A name of the processor's own statistics. -/
def InternalName (I : Impl C T G PF PM) (n : Str) : Prop :=
  ∃ x, n = I.internalPrefix ++ x ∧ (x = c!"numStats" ∨ c!".count" <:+ x ∨ c!".duration" <:+ x)

theorem numStats_internal (I : Impl C T G PF PM) (acc : List PerMetric) (ts : ℤ) :
    InternalName I (numStatsPoint I acc ts).name := ⟨_, rfl, Or.inl rfl⟩

theorem perMetric_internal (I : Impl C T G PF PM) (ts : ℤ) (p : PerMetric) :
    ∀ d ∈ perMetricPoints I ts p, InternalName I d.name := by
  intro d hd
  simp only [perMetricPoints, List.mem_cons, List.not_mem_nil, or_false] at hd
  rcases hd with rfl | rfl
  · exact ⟨c!"flush." ++ p.1 ++ c!".count", by simp, Or.inr (Or.inl ⟨_, rfl⟩)⟩
  · exact ⟨c!"flush." ++ p.1 ++ c!".duration", by simp, Or.inr (Or.inr ⟨_, rfl⟩)⟩

theorem receive_internal (I : Impl C T G PF PM) (ts : ℤ) (t : Str) (n : Nat) (x : Num) :
    ∀ d ∈ receivePoints I ts t n x, InternalName I d.name := by
  intro d hd
  simp only [receivePoints, List.mem_cons, List.not_mem_nil, or_false] at hd
  rcases hd with rfl | rfl
  · exact ⟨c!"receive." ++ t ++ c!".count", by simp, Or.inr (Or.inl ⟨_, rfl⟩)⟩
  · exact ⟨c!"receive." ++ t ++ c!".duration", by simp, Or.inr (Or.inr ⟨_, rfl⟩)⟩

/-- The datapoints of a visit. -/
def visited (r : VisitResult) : List Datapoint :=
  match r with
  | .ok o => o.getD []
  | .error _ => []

/-- One step of a generator hands out or prepares points of its own statistics, or visits one metric. -/
theorem micro_shape (I : Impl C T G PF PM) (w : World) (s : PS C T G PF PM) (g : Gen) :
    let r := micro I w s g
    (SameStores s r.1 ∧ ∃ new, r.2.2.toList ++ inFlight r.2.1.pc = inFlight g.pc ++ new ∧
      ∀ d ∈ new, InternalName I d.name) ∨
    (∃ k cursor ts, cursor < phaseLen I s k ∧ r.2.2 = none ∧ inFlight g.pc = [] ∧
      r.1 = (phaseVisit I w (Int.fdiv g.interval 1000) g.percent ts k s cursor).1 ∧
      inFlight r.2.1.pc = visited (phaseVisit I w (Int.fdiv g.interval 1000) g.percent ts k s cursor).2) := by
  intro r
  have hr : r = micro I w s g := rfl
  have triv : ∀ {s' : PS C T G PF PM} {g' : Gen}, r = (s', g', none) → SameStores s s' → inFlight g.pc = [] →
      (∀ d ∈ inFlight g'.pc, InternalName I d.name) → (SameStores s r.1 ∧ ∃ new, r.2.2.toList ++ inFlight r.2.1.pc =
        inFlight g.pc ++ new ∧ ∀ d ∈ new, InternalName I d.name) := by
    intro s' g' h1 h2 h3 h4
    rw [h1]
    exact ⟨h2, inFlight g'.pc, by simp [h3], h4⟩
  have hout : ∀ {g' : Gen} {d : Datapoint}, r = (s, g', some d) → inFlight g.pc = d :: inFlight g'.pc →
      (SameStores s r.1 ∧ ∃ new, r.2.2.toList ++ inFlight r.2.1.pc =
        inFlight g.pc ++ new ∧ ∀ d ∈ new, InternalName I d.name) := by
    intro g' d h1 h2
    rw [h1]
    exact ⟨sameStores_refl s, [], by simp [h2], by simp⟩
  obtain ⟨interval, percent, pc⟩ := g
  cases pc with
  | fresh => exact Or.inl (triv rfl ⟨rfl, rfl, rfl, rfl, rfl, rfl, by simp, by simp⟩ rfl (by simp [inFlight]))
  | phaseStart k ts acc => exact Or.inl (triv rfl ⟨rfl, rfl, rfl, rfl, rfl, rfl, by simp, by simp⟩ rfl (by simp [inFlight]))
  | inPhase k ts acc start size cursor events pend =>
    cases pend with
    | cons d pend => exact Or.inl (hout rfl rfl)
    | nil =>
      by_cases h1 : phaseLen I s k ≠ size
      · have : r = (s, ⟨interval, percent, .crashed .runtimeError⟩, none) := by
          rw [hr]; unfold micro; simp only [if_pos h1]
        exact Or.inl (triv this (sameStores_refl s) rfl (by simp [inFlight]))
      · by_cases h2 : cursor < size
        · right
          refine ⟨k, cursor, ts, by rw [not_not.1 h1]; exact h2, ?_⟩
          have hr' : r = match phaseVisit I w (Int.fdiv interval 1000) percent ts k s cursor with
            | (s, .error e) => (s, ⟨interval, percent, .crashed e⟩, none)
            | (s, .ok none) => (s, ⟨interval, percent, .inPhase k ts acc start size (cursor + 1) events []⟩, none)
            | (s, .ok (some ds)) =>
              (s, ⟨interval, percent, .inPhase k ts acc start size (cursor + 1) (events + 1) ds⟩, none) := by
            rw [hr]; unfold micro; simp only [if_neg h1, if_pos h2]
            rcases phaseVisit I w (Int.fdiv interval 1000) percent ts k s cursor with ⟨s', e | (_ | ds)⟩ <;> rfl
          rcases hv : phaseVisit I w (Int.fdiv interval 1000) percent ts k s cursor with ⟨s', e | (_ | ds)⟩ <;>
            rw [hv] at hr' <;> rw [hr'] <;> exact ⟨rfl, rfl, rfl, rfl⟩
        · left
          by_cases h3 : k < 4
          · have : r = ({ s with ticks := s.ticks + 1 }, ⟨interval, percent, .phaseStart (k + 1) ts
              (acc ++ [(phaseName k, events, Num.flt (rnd (w.clk s.ticks - start)))])⟩, none) := by
              rw [hr]; unfold micro; simp only [if_neg h1, if_neg h2, if_pos h3]
            exact triv this ⟨rfl, rfl, rfl, rfl, rfl, rfl, by simp, by simp⟩ rfl (by simp [inFlight])
          · have : r = ({ s with ticks := s.ticks + 1 }, ⟨interval, percent, .sumInit ts
              (acc ++ [(phaseName k, events, Num.flt (rnd (w.clk s.ticks - start)))])
              [numStatsPoint I (acc ++ [(phaseName k, events, Num.flt (rnd (w.clk s.ticks - start)))]) ts]⟩, none) := by
              rw [hr]; unfold micro; simp only [if_neg h1, if_neg h2, if_neg h3]
            refine triv this ⟨rfl, rfl, rfl, rfl, rfl, rfl, by simp, by simp⟩ rfl ?_
            intro d hd
            simp only [inFlight, List.mem_singleton] at hd; subst hd
            exact numStats_internal I _ _
  | sumInit ts acc pend =>
    cases pend with
    | cons d pend => exact Or.inl (hout rfl rfl)
    | nil => exact Or.inl (triv rfl ⟨rfl, rfl, rfl, rfl, rfl, rfl, by simp, by simp⟩ rfl (by simp [inFlight]))
  | sumPer ts todo cur pend =>
    cases pend with
    | cons d pend => exact Or.inl (hout rfl rfl)
    | nil =>
      cases cur with
      | some d => exact Or.inl (triv rfl ⟨rfl, rfl, rfl, rfl, rfl, rfl, by simp, by simp⟩ rfl (by simp [inFlight]))
      | none =>
        cases todo with
        | cons p todo => exact Or.inl (triv rfl (sameStores_refl s) rfl (perMetric_internal I ts p))
        | nil => exact Or.inl (triv rfl ⟨rfl, rfl, rfl, rfl, rfl, rfl, by simp, by simp⟩ rfl (by simp [inFlight]))
  | sumRecv ts size cursor cur pend =>
    left
    cases pend with
    | cons d pend => exact hout rfl rfl
    | nil =>
      cases cur with
      | some p =>
        obtain ⟨t, d⟩ := p
        have hr' : r = if s.byType.has t then
            ({ s with lastProcess := s.lastProcess.add d }, ⟨interval, percent, .sumRecv ts size cursor none []⟩, none)
          else (s, ⟨interval, percent, .crashed .keyError⟩, none) := by rw [hr]; rfl
        split_ifs at hr' <;> exact triv hr' ⟨rfl, rfl, rfl, rfl, rfl, rfl, by simp, by simp⟩ rfl (by simp [inFlight])
      | none =>
        by_cases h1 : s.processTimings.length ≠ size
        · have : r = (s, ⟨interval, percent, .crashed .runtimeError⟩, none) := by
            rw [hr]; unfold micro; simp only [if_pos h1]
          exact triv this (sameStores_refl s) rfl (by simp [inFlight])
        · cases hc : s.processTimings[cursor]? with
          | none =>
            have : r = ({ s with processTimings := [], byType := [] }, ⟨interval, percent, .done⟩, none) := by
              rw [hr]; unfold micro; simp only [if_neg h1, hc]
            exact triv this ⟨rfl, rfl, rfl, rfl, rfl, rfl, by simp, by simp⟩ rfl (by simp [inFlight])
          | some p =>
            obtain ⟨t, d⟩ := p
            cases hb : s.byType.find t with
            | none =>
              have : r = (s, ⟨interval, percent, .crashed .keyError⟩, none) := by
                rw [hr]; unfold micro; simp only [if_neg h1, hc, hb]
              exact triv this (sameStores_refl s) rfl (by simp [inFlight])
            | some m =>
              have : r = (s, ⟨interval, percent, .sumRecv ts size (cursor + 1) (some (t, d))
                (receivePoints I ts t m d)⟩, none) := by
                rw [hr]; unfold micro; simp only [if_neg h1, hc, hb]
              exact triv this (sameStores_refl s) rfl (receive_internal I ts t m d)
  | done => exact Or.inl (triv rfl (sameStores_refl s) rfl (by simp [inFlight]))
  | crashed e => exact Or.inl (triv rfl (sameStores_refl s) rfl (by simp [inFlight]))

theorem arrivals_append (es es' : List Event) : arrivals (es ++ es') = arrivals es ++ arrivals es' := by
  simp [arrivals]

/-- A relation between the stores, the messages so far and the watched datapoints so far (in any order). -/
structure Watch (I : Impl C T G PF PM) (w : World) (ok : ℤ → ℤ → Prop) (keep : Datapoint → Bool)
    (Inv : PS C T G PF PM → List Str → List Datapoint → Prop) : Prop where
  perm : ∀ {s ms l l'}, l.Perm l' → Inv s ms l → Inv s ms l'
  same : ∀ {s s' ms l}, SameStores s s' → Inv s ms l → Inv s' ms l
  arrive : ∀ {s ms l} m, Inv s ms l → Inv (process I w s m).1 (ms ++ [m]) l
  internal : ∀ d, InternalName I d.name → keep d = false
  visit : ∀ {s ms l} k cursor ts interval percent, Inv s ms l → ok interval percent → cursor < phaseLen I s k →
    let r := phaseVisit I w (Int.fdiv interval 1000) percent ts k s cursor
    Inv r.1 ms (l ++ (visited r.2).filter keep)

theorem filter_internal {I : Impl C T G PF PM} {keep : Datapoint → Bool} (h : ∀ d, InternalName I d.name → keep d = false)
    {l : List Datapoint} (hl : ∀ d ∈ l, InternalName I d.name) : l.filter keep = [] := by
  rw [List.filter_eq_nil_iff]
  intro d hd
  rw [h d (hl d hd)]; simp

theorem watch_step {I : Impl C T G PF PM} {w : World} {ok : ℤ → ℤ → Prop} {keep : Datapoint → Bool}
    {Inv : PS C T G PF PM → List Str → List Datapoint → Prop} (W : Watch I w ok keep Inv)
    {v : Server C T G PF PM} {ms : List Str} (hok : ∀ g ∈ v.gens, ok g.interval g.percent) (e : Event)
    (he : ∀ i p, e = .spawn i p → ok i p) (h : Inv v.ps ms ((v.out ++ underWay v.gens).filter keep)) :
    (∀ g ∈ (v.step I w e).gens, ok g.interval g.percent) ∧
    Inv (v.step I w e).ps (ms ++ arrivals [e])
      (((v.step I w e).out ++ underWay (v.step I w e).gens).filter keep) := by
  cases e with
  | arrive m =>
    exact ⟨hok, W.arrive m h⟩
  | spawn i p =>
    refine ⟨?_, ?_⟩
    · intro g hg
      simp only [Server.step, List.mem_append, List.mem_singleton] at hg
      rcases hg with hg | rfl
      · exact hok g hg
      · exact he i p rfl
    · simp only [arrivals, List.filterMap_cons_none, List.filterMap_nil, List.append_nil, Server.step, underWay,
        List.flatMap_append, List.flatMap_cons, List.flatMap_nil, inFlight] at h ⊢
      exact h
  | advance i =>
    unfold Server.step
    simp only [arrivals, List.filterMap_cons_none, List.filterMap_nil, List.append_nil]
    cases hg : v.gens[i]? with
    | none => exact ⟨hok, h⟩
    | some g =>
      simp only
      have hgok := hok g (List.mem_of_getElem? hg)
      have hsh := micro_shape I w v.ps g
      have hint := micro_interval I w v.ps g
      rcases hm : micro I w v.ps g with ⟨s', g', d⟩
      rw [hm] at hsh hint
      simp only at hsh hint ⊢
      refine ⟨?_, ?_⟩
      · intro x hx
        rcases List.mem_or_eq_of_mem_set hx with hx | rfl
        · exact hok x hx
        · rw [hint.1, hint.2]; exact hgok
      · obtain ⟨l1, l2, e1, e2⟩ := set_split (b := g') hg
        rw [e2]
        rw [e1] at h
        simp only [underWay, List.flatMap_append, List.flatMap_cons] at h ⊢
        rcases hsh with ⟨hs, new, hn, hi⟩ | ⟨k, cursor, ts, hc, hd, hf, hs, hf'⟩
        · refine W.same hs (W.perm ?_ h)
          have hfil : (d.toList ++ inFlight g'.pc).filter keep = (inFlight g.pc).filter keep := by
            rw [hn, List.filter_append, filter_internal W.internal hi, List.append_nil]
          simp only [List.filter_append, List.append_assoc] at hfil ⊢
          rw [← hfil]
          refine List.Perm.append_left _ ?_
          simp only [List.append_assoc]
          exact List.perm_append_comm_assoc _ _ _
        · subst hs
          have := W.visit k cursor ts g.interval g.percent h hgok hc
          refine W.perm ?_ this
          simp only at this
          rw [hd, hf', hf]
          simp only [Option.toList_none, List.append_nil, List.nil_append, List.filter_append, List.append_assoc]
          refine List.Perm.append_left _ (List.Perm.append_left _ ?_)
          exact List.perm_append_comm

theorem watch_run {I : Impl C T G PF PM} {w : World} {ok : ℤ → ℤ → Prop} {keep : Datapoint → Bool}
    {Inv : PS C T G PF PM → List Str → List Datapoint → Prop} (W : Watch I w ok keep Inv)
    {s : PS C T G PF PM} (h0 : Inv s [] []) (es : List Event) (hes : ∀ i p, Event.spawn i p ∈ es → ok i p) :
    let v := (startUp s).run I w es
    (∀ g ∈ v.gens, ok g.interval g.percent) ∧
    Inv v.ps (arrivals es) ((v.out ++ underWay v.gens).filter keep) := by
  induction es using List.reverseRecOn with
  | nil => exact ⟨by simp [Server.run, startUp], h0⟩
  | append_singleton es e ih =>
    obtain ⟨h1, h2⟩ := ih (fun i p h => hes i p (by simp [h]))
    rw [run_snoc]
    have := watch_step W h1 e (fun i p h => hes i p (by simp [h])) h2
    rw [arrivals_append]
    exact this

/-- A relation between the stores and the messages so far that gives a fact about every point of a visit. -/
structure Fresh (I : Impl C T G PF PM) (w : World) (Inv : PS C T G PF PM → List Str → Prop)
    (P : List Str → Datapoint → Prop) : Prop where
  same : ∀ {s s' ms}, SameStores s s' → Inv s ms → Inv s' ms
  arrive : ∀ {s ms} m, Inv s ms → Inv (process I w s m).1 (ms ++ [m])
  internal : ∀ ms d, InternalName I d.name → P ms d
  visit : ∀ {s ms} k cursor ts interval percent, Inv s ms → cursor < phaseLen I s k →
    let r := phaseVisit I w (Int.fdiv interval 1000) percent ts k s cursor
    Inv r.1 ms ∧ ∀ d ∈ visited r.2, P ms d

theorem fresh_step {I : Impl C T G PF PM} {w : World} {Inv : PS C T G PF PM → List Str → Prop}
    {P : List Str → Datapoint → Prop} (F : Fresh I w Inv P) {v : Server C T G PF PM} {ms : List Str}
    (h : Inv v.ps ms) (e : Event) : Inv (v.step I w e).ps (ms ++ arrivals [e]) := by
  cases e with
  | arrive m => exact F.arrive m h
  | spawn i p => simpa [arrivals, Server.step] using h
  | advance i =>
    unfold Server.step
    simp only [arrivals, List.filterMap_cons_none, List.filterMap_nil, List.append_nil]
    cases hg : v.gens[i]? with
    | none => exact h
    | some g =>
      simp only
      rcases micro_shape I w v.ps g with ⟨hs, _⟩ | ⟨k, cursor, ts, hc, _, _, hs, _⟩
      · exact F.same hs h
      · rw [hs]; exact (F.visit k cursor ts g.interval g.percent h hc).1

theorem fresh_inv {I : Impl C T G PF PM} {w : World} {Inv : PS C T G PF PM → List Str → Prop}
    {P : List Str → Datapoint → Prop} (F : Fresh I w Inv P) {v : Server C T G PF PM} {ms : List Str}
    (h : Inv v.ps ms) (es : List Event) : Inv (v.run I w es).ps (ms ++ arrivals es) := by
  induction es generalizing v ms with
  | nil => simpa [arrivals, Server.run] using h
  | cons e es ih =>
    rw [run_cons]
    have := ih (fresh_step F h e)
    rw [List.append_assoc, ← arrivals_append] at this
    exact this

/-- What a flush emits from now on is under way already or is about a moment from now on. -/
theorem fresh_emits {I : Impl C T G PF PM} {w : World} {Inv : PS C T G PF PM → List Str → Prop}
    {P : List Str → Datapoint → Prop} (F : Fresh I w Inv P) (i : Nat) (es : List Event) :
    ∀ (v : Server C T G PF PM) (ms : List Str) (g : Gen), Inv v.ps ms → v.gens[i]? = some g →
      ∀ d ∈ emits I w i v es, d ∈ inFlight g.pc ∨
        ∃ es1 es2, es = es1 ++ es2 ∧ P (ms ++ arrivals es1) d := by
  induction es with
  | nil => intro v ms g h hg d hd; simp [emits] at hd
  | cons e es ih =>
    intro v ms g h hg
    -- the state of generator `i` after the event
    have hnext : ∃ g', (v.step I w e).gens[i]? = some g' ∧
        ∀ x ∈ (match e, v.gens[i]? with
          | .advance j, some g => if j = i then (micro I w v.ps g).2.2.toList else []
          | _, _ => []) ++ inFlight g'.pc, x ∈ inFlight g.pc ∨ P ms x := by
      cases e with
      | arrive m => exact ⟨g, hg, by intro x hx; exact Or.inl (by simpa using hx)⟩
      | spawn a b =>
        refine ⟨g, ?_, by intro x hx; exact Or.inl (by simpa using hx)⟩
        simp only [Server.step]
        rw [List.getElem?_append_left (List.getElem?_eq_some_iff.1 hg).1]; exact hg
      | advance j =>
        by_cases hj : j = i
        · subst hj
          refine ⟨(micro I w v.ps g).2.1, ?_, ?_⟩
          · unfold Server.step
            simp only [hg]
            rw [List.getElem?_set_self (List.getElem?_eq_some_iff.1 hg).1]
          · intro x hx
            simp only [hg, if_true] at hx
            rcases micro_shape I w v.ps g with ⟨_, new, hn, hi⟩ | ⟨k, cursor, ts, hc, hd, hf, hs, hf'⟩
            · rw [hn] at hx
              rcases List.mem_append.1 hx with hx | hx
              · exact Or.inl hx
              · exact Or.inr (F.internal ms x (hi x hx))
            · rw [hd, hf'] at hx
              simp only [Option.toList_none, List.nil_append] at hx
              exact Or.inr ((F.visit k cursor ts g.interval g.percent h hc).2 x hx)
        · refine ⟨g, ?_, ?_⟩
          · unfold Server.step
            simp only
            cases hgj : v.gens[j]? with
            | none => exact hg
            | some g'' => simp only; rw [List.getElem?_set_ne hj]; exact hg
          · intro x hx
            simp only [hg, if_neg hj, List.nil_append] at hx
            exact Or.inl hx
    obtain ⟨g', hg', hx⟩ := hnext
    have now : ∀ x, (x ∈ inFlight g.pc ∨ P ms x) → x ∈ inFlight g.pc ∨
        ∃ es1 es2, e :: es = es1 ++ es2 ∧ P (ms ++ arrivals es1) x := by
      rintro x (h | h)
      · exact Or.inl h
      · exact Or.inr ⟨[], e :: es, rfl, by simpa [arrivals] using h⟩
    intro d hd
    simp only [emits, List.mem_append] at hd
    rcases hd with hd | hd
    · exact now d (hx d (List.mem_append_left _ hd))
    · rcases ih _ _ g' (fresh_step F h e) hg' d hd with hd | ⟨es1, es2, e1, e2⟩
      · exact now d (hx d (List.mem_append_right _ hd))
      · refine Or.inr ⟨e :: es1, es2, by rw [e1]; rfl, ?_⟩
        rw [List.append_assoc, ← arrivals_append] at e2
        exact e2

end
end Txstatsd
