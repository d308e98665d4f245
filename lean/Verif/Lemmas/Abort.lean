import Verif.Lemmas.WatchConf
import Verif.Lemmas.WatchDefault
import Verif.Lemmas.Termination

set_option linter.unusedSectionVars false
set_option linter.unusedSimpArgs false
set_option linter.unusedVariables false

/-!
# Flushes that are disturbed by arrivals, for both processors
-/

namespace Txstatsd
open Spec
section
variable [Rounding] {C T G PF PM : Type}

/-- A property of states kept by everything, under which visits keep the sizes of the collections. -/
structure Robust (I : Impl C T G PF PM) (w : World) (Q : PS C T G PF PM → Prop) : Prop where
  shared : ∀ {s}, Q s → Shared s
  same : ∀ {s s'}, SameStores s s' → Q s → Q s'
  arrive : ∀ {s} m, Q s → Q (process I w s m).1
  grow : ∀ {s} m k, Q s → phaseLen I s k ≤ phaseLen I (process I w s m).1 k
  visit : ∀ {s} secs percent ts k i, Q s → Q (phaseVisit I w secs percent ts k s i).1 ∧
    (∀ j, phaseLen I (phaseVisit I w secs percent ts k s i).1 j = phaseLen I s j) ∧
    (phaseVisit I w secs percent ts k s i).1.processTimings = s.processTimings ∧
    (phaseVisit I w secs percent ts k s i).1.byType = s.byType

variable {I : Impl C T G PF PM} {w : World} {Q : PS C T G PF PM → Prop}

theorem phaseLen_same {s s' : PS C T G PF PM} (h : SameStores s s') (k : Nat) : phaseLen I s' k = phaseLen I s k := by
  unfold phaseLen
  split
  · rw [h.counters]
  · rw [h.timers]
  · rw [h.gauges]
  · rw [h.meters]
  · rw [h.pluginMetrics]

theorem robust_micro (R : Robust I w Q) {s : PS C T G PF PM} (hs : Q s) (g : Gen) :
    Q (micro I w s g).1 ∧ ∀ j, phaseLen I (micro I w s g).1 j = phaseLen I s j := by
  rcases micro_shape I w s g with ⟨h, _⟩ | ⟨k, cursor, ts, _, _, _, h, _⟩
  · exact ⟨R.same h hs, phaseLen_same h⟩
  · rw [h]
    obtain ⟨h1, h2, _⟩ := R.visit (Int.fdiv g.interval 1000) g.percent ts k cursor hs
    exact ⟨h1, h2⟩

theorem robust_step (R : Robust I w Q) {v : Server C T G PF PM} (hv : Q v.ps) (e : Event) :
    Q (v.step I w e).ps ∧ ∀ k, phaseLen I v.ps k ≤ phaseLen I (v.step I w e).ps k := by
  cases e with
  | arrive m => exact ⟨R.arrive m hv, fun k => R.grow m k hv⟩
  | spawn i p => exact ⟨hv, fun k => le_rfl⟩
  | advance i =>
    unfold Server.step
    simp only
    cases hg : v.gens[i]? with
    | none => exact ⟨hv, fun k => le_rfl⟩
    | some g =>
      obtain ⟨h1, h2⟩ := robust_micro R hv g
      exact ⟨h1, fun k => le_of_eq (h2 k).symm⟩

theorem robust_run (R : Robust I w Q) {v : Server C T G PF PM} (hv : Q v.ps) (es : List Event) : Q (v.run I w es).ps := by
  induction es generalizing v with
  | nil => exact hv
  | cons e es ih => rw [run_cons]; exact ih (robust_step R hv e).1

/-! ## Growth aborts -/

/-- The recorded size is never above the real one. -/
def Trailing (I : Impl C T G PF PM) (v : Server C T G PF PM) : Prop :=
  ∀ g ∈ v.gens, ∀ k ts acc start size cursor events pend,
    g.pc = .inPhase k ts acc start size cursor events pend → size ≤ phaseLen I v.ps k

theorem trailing_step (R : Robust I w Q) {v : Server C T G PF PM} (hv : Q v.ps) (hb : Trailing I v) (e : Event) :
    Trailing I (v.step I w e) := by
  have hmono := (robust_step R hv e).2
  intro g hg k ts acc start size cursor events pend hpc
  cases e with
  | arrive m => exact le_trans (hb g hg _ _ _ _ _ _ _ _ hpc) (hmono k)
  | spawn i p =>
    simp only [Server.step, List.mem_append, List.mem_singleton] at hg
    rcases hg with hg | rfl
    · exact hb g hg _ _ _ _ _ _ _ _ hpc
    · cases hpc
  | advance i =>
    revert hg hmono
    unfold Server.step
    simp only
    cases hgi : v.gens[i]? with
    | none => intro hmono hg; exact hb g hg _ _ _ _ _ _ _ _ hpc
    | some g0 =>
      intro hmono hg
      simp only at hg hmono
      rcases List.mem_or_eq_of_mem_set hg with h | rfl
      · exact le_trans (hb g h _ _ _ _ _ _ _ _ hpc) (hmono k)
      · rcases micro_size _ w v.ps g0 hpc with rfl | ⟨c, ev, pe, h0⟩
        · exact hmono k
        · exact le_trans (hb g0 (List.mem_of_getElem? hgi) _ _ _ _ _ _ _ _ h0) (hmono k)

theorem trailing_run (R : Robust I w Q) {v : Server C T G PF PM} (hv : Q v.ps) (hb : Trailing I v) (es : List Event) :
    Trailing I (v.run I w es) := by
  induction es generalizing v with
  | nil => exact hb
  | cons e es ih => rw [run_cons]; exact ih (robust_step R hv e).1 (trailing_step R hv hb e)

theorem crashed_stays (I : Impl C T G PF PM) (w : World) (i : Nat) (x : PyErr) (es : List Event) :
    ∀ (v : Server C T G PF PM) interval percent, v.gens[i]? = some ⟨interval, percent, .crashed x⟩ →
    emits I w i v es = [] ∧ (v.run I w es).gens[i]? = some ⟨interval, percent, .crashed x⟩ := by
  induction es with
  | nil => intro v interval percent h; exact ⟨rfl, h⟩
  | cons e es ih =>
    intro v interval percent h
    have hlt : i < v.gens.length := (List.getElem?_eq_some_iff.1 h).1
    rw [run_cons]
    cases e with
    | arrive m => simp only [emits, List.nil_append]; exact ih _ _ _ h
    | spawn a b =>
      simp only [emits, List.nil_append]
      refine ih _ interval percent ?_
      simp only [Server.step]
      rw [List.getElem?_append_left hlt]; exact h
    | advance j =>
      by_cases hj : j = i
      · subst hj
        have e1 : v.step I w (.advance j) =
            { ps := v.ps, gens := v.gens.set j ⟨interval, percent, .crashed x⟩, out := v.out ++ [] } := by
          simp only [Server.step, h, micro]; rfl
        simp only [emits, h, micro, if_true, Option.toList_none, List.nil_append]
        rw [e1]
        refine ih _ interval percent ?_
        simp [hlt]
      · simp only [emits, h, hj, if_false, List.nil_append]
        refine ih _ interval percent ?_
        simp only [Server.step]
        cases v.gens[j]? with
        | none => exact h
        | some g => simp only; rw [List.getElem?_set_ne hj]; exact h

/-- A generator whose collection has grown hands out what it has and aborts. -/
theorem outgrown_run (R : Robust I w Q) (i : Nat) (es : List Event) :
    ∀ (v : Server C T G PF PM), Q v.ps → ∀ interval percent k ts acc start size cursor events pend,
    v.gens[i]? = some ⟨interval, percent, .inPhase k ts acc start size cursor events pend⟩ →
    size < phaseLen I v.ps k →
    emits I w i v es <+: pend ∧
    ((es.filter fun e => match e with | .advance j => decide (j = i) | _ => false).length > pend.length →
      emits I w i v es = pend ∧
      (v.run I w es).gens[i]? = some ⟨interval, percent, .crashed .runtimeError⟩) := by
  induction es with
  | nil =>
    intro v hv interval percent k ts acc start size cursor events pend h hs
    exact ⟨List.nil_prefix, fun h => by simp at h⟩
  | cons e es ih =>
    intro v hv interval percent k ts acc start size cursor events pend h hs
    have hlt : i < v.gens.length := (List.getElem?_eq_some_iff.1 h).1
    have hmono := lt_of_lt_of_le hs ((robust_step R hv e).2 k)
    have hwf := (robust_step R hv e).1
    rw [run_cons]
    cases e with
    | arrive m =>
      simp only [emits, List.nil_append]
      exact ih _ hwf interval percent k ts acc start size cursor events pend h hmono
    | spawn a b =>
      simp only [emits, List.nil_append]
      refine ih _ hwf interval percent k ts acc start size cursor events pend ?_ hmono
      simp only [Server.step]
      rw [List.getElem?_append_left hlt]; exact h
    | advance j =>
      by_cases hj : j = i
      · subst hj
        cases pend with
        | cons d pend =>
          have e1 : v.step I w (.advance j) =
              { ps := v.ps, gens := v.gens.set j ⟨interval, percent, .inPhase k ts acc start size cursor events pend⟩, out := v.out ++ [d] } := by
            simp only [Server.step, h, micro]; rfl
          simp only [emits, h, micro, if_true, Option.toList_some, List.singleton_append]
          rw [e1]
          rw [e1] at hmono hwf
          obtain ⟨h1, h2⟩ := ih { ps := v.ps, gens := v.gens.set j ⟨interval, percent, .inPhase k ts acc start size cursor events pend⟩, out := v.out ++ [d] }
            hwf interval percent k ts acc start size cursor events pend (by simp [hlt]) hmono
          refine ⟨by rw [List.cons_prefix_cons]; exact ⟨rfl, h1⟩, fun hn => ?_⟩
          simp only [List.filter_cons, decide_true, if_true, List.length_cons] at hn
          obtain ⟨h3, h4⟩ := h2 (by omega)
          exact ⟨by rw [h3], h4⟩
        | nil =>
          have hne : phaseLen I v.ps k ≠ size := by omega
          have hm : micro I w v.ps ⟨interval, percent, .inPhase k ts acc start size cursor events []⟩ =
              (v.ps, ⟨interval, percent, .crashed .runtimeError⟩, none) := by
            unfold micro; simp only [if_pos hne]
          have e1 : v.step I w (.advance j) =
              { ps := v.ps, gens := v.gens.set j ⟨interval, percent, .crashed .runtimeError⟩, out := v.out ++ [] } := by
            simp only [Server.step, h, hm]; rfl
          simp only [emits, h, hm, if_true, Option.toList_none, List.nil_append]
          rw [e1]
          obtain ⟨h1, h2⟩ := crashed_stays I w j .runtimeError es
            { ps := v.ps, gens := v.gens.set j ⟨interval, percent, .crashed .runtimeError⟩, out := v.out ++ [] }
            interval percent (by simp [hlt])
          exact ⟨by rw [h1], fun _ => ⟨h1, h2⟩⟩
      · have hf : (List.filter (fun e => match e with | .advance j => decide (j = i) | _ => false) (Event.advance j :: es)) =
            List.filter (fun e => match e with | .advance j => decide (j = i) | _ => false) es := by
          simp [List.filter_cons, hj]
        rw [hf]
        simp only [emits, h, hj, if_false, List.nil_append]
        refine ih _ hwf interval percent k ts acc start size cursor events pend ?_ hmono
        simp only [Server.step]
        cases v.gens[j]? with
        | none => exact h
        | some g => simp only; rw [List.getElem?_set_ne hj]; exact h

/-- An arrival that makes the collection of the running phase grow aborts the flush. -/
theorem growth_aborts (R : Robust I w Q) {s : PS C T G PF PM} (hs : Q s) (es : List Event) (i : Nat)
    (interval percent ts : ℤ) (k : Nat) (acc : List PerMetric) (start : ℚ) (size cursor events : Nat)
    (pend : List Datapoint) (m : Str) (es' : List Event) :
    let v := (startUp s).run I w es
    let v' := v.step I w (.arrive m)
    v.gens[i]? = some ⟨interval, percent, .inPhase k ts acc start size cursor events pend⟩ →
    phaseLen I v.ps k < phaseLen I v'.ps k →
    emits I w i v' es' <+: pend ∧
    ((es'.filter fun e => match e with | .advance j => decide (j = i) | _ => false).length > pend.length →
      emits I w i v' es' = pend ∧
      (v'.run I w es').gens[i]? = some ⟨interval, percent, .crashed .runtimeError⟩) := by
  intro v v' hg hk
  have hwf : Q v.ps := robust_run R hs es
  have hbe : Trailing I v := trailing_run R hs (by intro g hg; simp [startUp] at hg) es
  have hle : size ≤ phaseLen I v.ps k := hbe _ (List.mem_of_getElem? hg) k ts acc start size cursor events pend rfl
  have hwf' : Q v'.ps := R.arrive m hwf
  exact outgrown_run R i es' v' hwf' interval percent k ts acc start size cursor events pend hg (lt_of_le_of_lt hle hk)

/-! ## No new names, no abort -/

/-- The generator will find its collections as it left them. -/
def Calmly (I : Impl C T G PF PM) (s : PS C T G PF PM) : Pc → Prop
  | .inPhase k _ _ _ size _ _ _ => phaseLen I s k = size
  | .sumRecv _ size _ cur _ => s.processTimings.length = size ∧ ∀ p, cur = some p → p.1 ∈ s.byType.keys
  | _ => True

theorem calmly_micro (R : Robust I w Q) {s : PS C T G PF PM} (hs : Q s) {g : Gen} (hg : Calmly I s g.pc) :
    let r := micro I w s g
    Calmly I r.1 r.2.1.pc ∧
    (∀ e, r.2.1.pc = .crashed e → g.pc = .crashed e ∨ ∃ k ts c s0, Q s0 ∧
      (phaseVisit I w (Int.fdiv g.interval 1000) g.percent ts k s0 c).2 = .error e) := by
  intro r
  have hr : r = micro I w s g := rfl
  obtain ⟨interval, percent, pc⟩ := g
  cases pc with
  | fresh => exact ⟨trivial, fun e h => by cases h⟩
  | phaseStart k ts acc => exact ⟨phase_len_ticks _ _ _ _, fun e h => by cases h⟩
  | inPhase k ts acc start size cursor events pend =>
    cases pend with
    | cons d pend => exact ⟨hg, fun e h => by cases h⟩
    | nil =>
      have h1 : ¬ phaseLen I s k ≠ size := fun h => h hg
      by_cases h2 : cursor < size
      · have hr' : r = match phaseVisit I w (Int.fdiv interval 1000) percent ts k s cursor with
          | (s, .error e) => (s, ⟨interval, percent, .crashed e⟩, none)
          | (s, .ok none) => (s, ⟨interval, percent, .inPhase k ts acc start size (cursor + 1) events []⟩, none)
          | (s, .ok (some ds)) =>
            (s, ⟨interval, percent, .inPhase k ts acc start size (cursor + 1) (events + 1) ds⟩, none) := by
          rw [hr]; unfold micro; simp only [if_neg h1, if_pos h2]
          rcases phaseVisit I w (Int.fdiv interval 1000) percent ts k s cursor with ⟨s', e | (_ | ds)⟩ <;> rfl
        have hf := (R.visit (Int.fdiv interval 1000) percent ts k cursor hs).2.1 k
        rcases hv : phaseVisit I w (Int.fdiv interval 1000) percent ts k s cursor with ⟨s', x⟩
        rw [hv] at hr' hf
        have hg' : phaseLen I s k = size := hg
        rcases x with e | (_ | ds)
        · rw [hr']
          refine ⟨trivial, fun e' h => ?_⟩
          simp only [Pc.crashed.injEq] at h; subst h
          exact Or.inr ⟨k, ts, cursor, s, hs, by rw [hv]⟩
        · rw [hr']; exact ⟨hf.trans hg', fun e h => by cases h⟩
        · rw [hr']; exact ⟨hf.trans hg', fun e h => by cases h⟩
      · by_cases h3 : k < 4
        · have : r = ({ s with ticks := s.ticks + 1 }, ⟨interval, percent, .phaseStart (k + 1) ts
            (acc ++ [(phaseName k, events, Num.flt (rnd (w.clk s.ticks - start)))])⟩, none) := by
            rw [hr]; unfold micro; simp only [if_neg h1, if_neg h2, if_pos h3]
          rw [this]; exact ⟨trivial, fun e h => by cases h⟩
        · have : r = ({ s with ticks := s.ticks + 1 }, ⟨interval, percent, .sumInit ts
            (acc ++ [(phaseName k, events, Num.flt (rnd (w.clk s.ticks - start)))])
            [numStatsPoint I (acc ++ [(phaseName k, events, Num.flt (rnd (w.clk s.ticks - start)))]) ts]⟩, none) := by
            rw [hr]; unfold micro; simp only [if_neg h1, if_neg h2, if_neg h3]
          rw [this]; exact ⟨trivial, fun e h => by cases h⟩
  | sumInit ts acc pend =>
    cases pend with
    | cons d pend => exact ⟨trivial, fun e h => by cases h⟩
    | nil => exact ⟨trivial, fun e h => by cases h⟩
  | sumPer ts todo cur pend =>
    cases pend with
    | cons d pend => exact ⟨trivial, fun e h => by cases h⟩
    | nil =>
      cases cur with
      | some d => exact ⟨trivial, fun e h => by cases h⟩
      | none =>
        cases todo with
        | cons p todo => exact ⟨trivial, fun e h => by cases h⟩
        | nil => exact ⟨⟨rfl, fun p h => by cases h⟩, fun e h => by cases h⟩
  | sumRecv ts size cursor cur pend =>
    cases pend with
    | cons d pend => exact ⟨hg, fun e h => by cases h⟩
    | nil =>
      obtain ⟨hg1, hg2⟩ := hg
      cases cur with
      | some p =>
        obtain ⟨t, d⟩ := p
        have hh : s.byType.has t = true := by rw [Dict.has_iff]; exact hg2 _ rfl
        have hr' : r = ({ s with lastProcess := s.lastProcess.add d }, ⟨interval, percent, .sumRecv ts size cursor none []⟩, none) := by
          rw [hr]; unfold micro; simp only [hh, if_true]
        rw [hr']; exact ⟨⟨hg1, fun p h => by cases h⟩, fun e h => by cases h⟩
      | none =>
        have h1 : ¬ s.processTimings.length ≠ size := fun h => h hg1
        cases hc : s.processTimings[cursor]? with
        | none =>
          have : r = ({ s with processTimings := [], byType := [] }, ⟨interval, percent, .done⟩, none) := by
            rw [hr]; unfold micro; simp only [if_neg h1, hc]
          rw [this]; exact ⟨trivial, fun e h => by cases h⟩
        | some p =>
          obtain ⟨t, d⟩ := p
          have hk : t ∈ s.byType.keys := by
            rw [(R.shared hs).recv]; exact Dict.mem_keys_of_mem (List.mem_of_getElem? hc)
          obtain ⟨n, hb⟩ : ∃ n, s.byType.find t = some n := by
            rw [← Dict.find_isSome_iff] at hk; exact Option.isSome_iff_exists.1 hk
          have : r = (s, ⟨interval, percent, .sumRecv ts size (cursor + 1) (some (t, d))
            (receivePoints I ts t n d)⟩, none) := by
            rw [hr]; unfold micro; simp only [if_neg h1, hc, hb]
          rw [this]
          refine ⟨⟨hg1, fun p h => ?_⟩, fun e h => by cases h⟩
          simp only [Option.some.injEq] at h; subst h; exact hk
  | done => exact ⟨trivial, fun e h => by cases h⟩
  | crashed e => exact ⟨trivial, fun e' h => Or.inl h⟩

/-- The same sizes, and the same message types. -/
def SameSizes (I : Impl C T G PF PM) (s s' : PS C T G PF PM) : Prop :=
  (∀ k, phaseLen I s' k = phaseLen I s k) ∧ s'.processTimings.keys = s.processTimings.keys

theorem sameSizes_calmly (R : Robust I w Q) {s s' : PS C T G PF PM} (hs : Q s) (hs' : Q s') (h : SameSizes I s s') {pc : Pc}
    (hu : Calmly I s pc) : Calmly I s' pc := by
  obtain ⟨h0, h5⟩ := h
  have hb : s'.byType.keys = s.byType.keys := by rw [(R.shared hs').recv, h5, (R.shared hs).recv]
  have l5 := congrArg List.length h5
  simp only [Dict.keys, List.length_map] at l5
  cases pc with
  | inPhase k ts acc start size cursor events pend =>
    simp only [Calmly] at hu ⊢
    rw [← hu]; exact h0 k
  | sumRecv ts size cursor cur pend =>
    simp only [Calmly] at hu ⊢
    rw [l5, hb]; exact hu
  | _ => trivial

/-- No arrival of the schedule changes a size. -/
def Sized (I : Impl C T G PF PM) (w : World) : Server C T G PF PM → List Event → Prop
  | _, [] => True
  | v, e :: es =>
    (match e with
      | .arrive m => SameSizes I v.ps (process I w v.ps m).1
      | _ => True) ∧ Sized I w (v.step I w e) es

theorem sized_run (R : Robust I w Q) (i : Nat) (interval percent : ℤ) (es : List Event) :
    ∀ (v : Server C T G PF PM) (pc : Pc), Q v.ps →
    v.gens[i]? = some ⟨interval, percent, pc⟩ → Calmly I v.ps pc →
    (∀ e, pc = .crashed e → ∃ k ts c s0, Q s0 ∧
      (phaseVisit I w (Int.fdiv interval 1000) percent ts k s0 c).2 = .error e) →
    (∀ j, Event.advance j ∈ es → j = i) → Sized I w v es →
    ∃ pc', (v.run I w es).gens[i]? = some ⟨interval, percent, pc'⟩ ∧
      ∀ e, pc' = .crashed e → ∃ k ts c s0, Q s0 ∧
        (phaseVisit I w (Int.fdiv interval 1000) percent ts k s0 c).2 = .error e := by
  induction es with
  | nil => intro v pc _ hg _ hc _ _; exact ⟨pc, hg, hc⟩
  | cons e es ih =>
    intro v pc hv hg hu hc hj hst
    have hlt : i < v.gens.length := (List.getElem?_eq_some_iff.1 hg).1
    have hwf := (robust_step R hv e).1
    rw [run_cons]
    have hj' : ∀ j, Event.advance j ∈ es → j = i := fun j h => hj j (by simp [h])
    cases e with
    | arrive m =>
      refine ih _ pc hwf hg ?_ hc hj' hst.2
      exact sameSizes_calmly R hv hwf hst.1 hu
    | spawn a b =>
      refine ih _ pc hwf ?_ hu hc hj' hst.2
      simp only [Server.step]; rw [List.getElem?_append_left hlt]; exact hg
    | advance j =>
      have := hj j (by simp)
      subst this
      obtain ⟨h1, h2⟩ := calmly_micro R hv (g := ⟨interval, percent, pc⟩) hu
      have hi := micro_interval I w v.ps ⟨interval, percent, pc⟩
      rcases hm : micro I w v.ps ⟨interval, percent, pc⟩ with ⟨s', ⟨iv, pr, pc'⟩, d⟩
      rw [hm] at h1 h2 hi
      simp only at h1 h2 hi
      obtain ⟨rfl, rfl⟩ := hi
      have e1 : v.step I w (.advance j) =
          { ps := s', gens := v.gens.set j ⟨iv, pr, pc'⟩, out := v.out ++ d.toList } := by
        simp only [Server.step, hg, hm]
      rw [e1] at hwf ⊢
      refine ih _ pc' hwf (by simp [hlt]) h1 ?_ hj' ?_
      · intro e he
        rcases h2 e he with h | h
        · exact hc e h
        · exact h
      · have := hst.2; rw [e1] at this; exact this

end

/-! ## Both processors -/

section
variable [Rounding] {PF PM : Type}

theorem mp_robust (ops : PluginOps PF PM) (w : World) : Robust (messageProcessor ops) w (MPWf ops) where
  shared := fun h => h.shared
  same := mpwf_same
  arrive := fun m h => mpwf_process ops w h m
  grow := fun m k h => phaseLen_process ops w _ m k
  visit := fun secs percent ts k i h =>
    have hf := visit_frame ops w secs percent ts k h i
    ⟨hf.wf, fun j => frame_len ops hf j, hf.processTimings, hf.byType⟩

theorem applyRead_len {V : Type} {new : Str → V} {mark : V → PyFloat → V} (d : Dict V) (e : Option (Str × PyFloat)) :
    d.length ≤ (applyRead new mark d e).length := by
  rcases e with _ | ⟨k, v⟩
  · exact le_rfl
  · exact Dict.length_put_le _ _ _

theorem plugin_len {C T G : Type} {I : Impl C T G PF PM} (hl : I.Local) (w : World) (s : PS C T G PF PM) (m : Str) :
    s.pluginMetrics.length ≤ (process I w s m).1.pluginMetrics.length := by
  rw [process_obs obs_pluginMetrics]
  cases hp : parseMessage m with
  | none => exact le_rfl
  | some mt =>
    simp only
    cases hd : dispatch I w { s with ticks := s.ticks + 1 } m mt with
    | none => exact le_rfl
    | some r =>
      simp only
      unfold dispatch at hd
      split_ifs at hd
      · simp only [Option.some.injEq] at hd; subst hd
        rw [(hl.counter w { s with ticks := s.ticks + 1 } mt.key mt.fields m).pluginMetrics]
      · simp only [Option.some.injEq] at hd; subst hd
        unfold processTimer; split
        · exact le_rfl
        · rw [(hl.timer w { s with ticks := s.ticks + 1 } mt.key _).pluginMetrics]
      · simp only [Option.some.injEq] at hd; subst hd
        unfold processGauge; simp only; split_ifs
        · exact le_rfl
        · split
          · exact le_rfl
          · rw [(hl.gauge { s with ticks := s.ticks + 1 } mt.key _).pluginMetrics]
      · simp only [Option.some.injEq] at hd; subst hd
        unfold processMeter composeMeter; simp only; split_ifs
        · exact le_rfl
        · split
          · exact le_rfl
          · split <;> exact le_rfl
      · cases hf : s.plugins.find mt.mtype with
        | none => simp [hf] at hd
        | some f =>
          simp only [hf, Option.some.injEq] at hd; subst hd
          unfold processPlugin; simp only
          split <;> split
          · exact le_rfl
          · exact Dict.length_put_le _ _ _
          · exact Dict.length_put_le _ _ _
          · exact le_trans (Dict.length_put_le _ _ _) (Dict.length_put_le _ _ _)

theorem cp_robust (ops : PluginOps PF PM) (pre int : Str) (w : World) : Robust (configurable ops pre int) w (CPWf ops pre) where
  shared := fun h => h.shared
  same := cpwf_same
  arrive := fun m h => cpwf_process ops pre int w h m
  grow := by
    intro s m k h
    obtain ⟨e1, e2, ⟨draw, e3⟩, e4⟩ := effect ops pre int w s m
    unfold phaseLen
    split
    · rw [e1]; exact applyRead_len _ _
    · rw [e3]; exact applyRead_len _ _
    · rw [e2]; exact applyRead_len _ _
    · rw [e4]; exact applyRead_len _ _
    · exact plugin_len (cp_local ops pre int) w s m
  visit := fun secs percent ts k i h =>
    have hf := visit_frameC ops pre int w secs percent ts k h i
    ⟨hf.wf, fun j => frameC_len ops pre int hf j, hf.processTimings, hf.byType⟩

/-- A reading of a name that is not stored yet adds to the store. -/
theorem applyRead_lt {V : Type} {new : Str → V} {mark : V → PyFloat → V} {d : Dict V} (hw : Dict.Wf d) {t m k : Str}
    {v : PyFloat} (hr : Reading t k m v) (hk : k ∉ d.keys) : d.length < (applyRead new mark d (readEffect t m)).length := by
  rw [readEffect_iff.2 hr]
  simp only [applyRead]
  have : ((d.put k (mark ((d.find k).getD (new k)) v)).keys).length = (d.keys ++ [k]).length := by
    rw [Dict.keys_put, if_neg hk]
  simp only [Dict.keys, List.length_map, List.length_append, List.length_singleton] at this
  omega

/-! ## Errors of the loop bodies of the configurable processor -/

theorem mapM_error {α β : Type} {f : α → Except PyErr β} {P : PyErr → Prop} (hf : ∀ a e, f a = .error e → P e) {l : List α}
    {e : PyErr} (h : l.mapM f = .error e) : P e := by
  induction l with
  | nil => simp [pure, Except.pure] at h
  | cons a l ih =>
    rw [List.mapM_cons] at h
    cases ha : f a with
    | error e' =>
      rw [ha] at h
      simp only [bind, Except.bind, Except.error.injEq] at h
      subst h; exact hf a _ ha
    | ok b =>
      rw [ha] at h
      cases hl : l.mapM f with
      | error e' =>
        rw [hl] at h
        simp only [bind, Except.bind, Except.error.injEq] at h
        subst h; exact ih hl
      | ok bs =>
        rw [hl] at h
        simp [bind, Except.bind, pure, Except.pure] at h

theorem percentile_error {vs : List PyFloat} {p : ℚ} {e : PyErr} (h : Histogram.percentile vs p = .error e) :
    e ≠ .runtimeError ∧ e ≠ .keyError := by
  unfold Histogram.percentile at h
  repeat' (first | (simp only [Except.error.injEq] at h; subst h; exact ⟨by simp, by simp⟩) | cases h | split at h)

theorem timer_report_error {t : TimerRep} {ts : ℤ} {e : PyErr} (h : (t.report ts).2 = .error e) :
    e ≠ .runtimeError ∧ e ≠ .keyError := by
  have hi : t.reportItems ts = .error e := by
    unfold TimerRep.report at h
    split at h
    · next e' he => simp only [Except.error.injEq] at h; rw [he, h]
    · cases h
  clear h
  unfold TimerRep.reportItems at hi
  cases h1 : t.hist.percentiles timerPercentiles with
  | error e' =>
    rw [h1] at hi
    simp only [bind, Except.bind, Except.error.injEq] at hi
    subst hi
    unfold Histogram.percentiles at h1
    split_ifs at h1
    exact mapM_error (fun a e he => percentile_error he) h1
  | ok ps =>
    rw [h1] at hi
    cases h2 : t.hist.stdDev with
    | error e' =>
      rw [h2] at hi
      simp only [bind, Except.bind, Except.error.injEq] at hi
      subst hi
      unfold Histogram.stdDev at h2
      split_ifs at h2
      unfold Histogram.sqrtF at h2
      repeat' (first | (simp only [Except.error.injEq] at h2; subst h2; exact ⟨by simp, by simp⟩) | cases h2 | split at h2)
    | ok sd =>
      rw [h2] at hi
      cases h3 : t.rate ts with
      | error e' =>
        rw [h3] at hi
        simp only [bind, Except.bind, Except.error.injEq] at hi
        subst hi
        unfold TimerRep.rate at h3
        simp only at h3
        split_ifs at h3
        split at h3
        · cases h3
        · next hd =>
          simp only [Except.error.injEq] at h3
          subst h3
          rw [div_error hd]; exact ⟨by simp, by simp⟩
      | ok r =>
        rw [h3] at hi
        simp [bind, Except.bind, pure, Except.pure] at hi

/-- The loop bodies themselves never raise `RuntimeError` or `KeyError`; plugins may. -/
theorem visit_errorC (ops : PluginOps PF PM) (pre int : Str) (w : World) (secs percent ts : ℤ) (k : Nat) {s : CPState PF PM}
    (hs : CPWf ops pre s) (i : Nat) {e : PyErr} (h : (phaseVisit (configurable ops pre int) w secs percent ts k s i).2 = .error e) :
    (e ≠ .runtimeError ∧ e ≠ .keyError) ∨ PluginRaises ops w (fun _ => pre) secs e := by
  match k with
  | 0 =>
    have h : (counterVisitC secs ts s i).2 = .error e := h
    left
    unfold counterVisitC at h
    cases hi : s.counters[i]? with
    | none => simp [hi] at h
    | some p =>
      obtain ⟨key, c⟩ := p
      simp only [hi, CounterRep.report] at h
      cases hc : truncNum c.count with
      | ok z => simp [hc, Except.map] at h
      | error e' =>
        have he : e' = e := by simpa [hc, Except.map] using h
        subst he
        unfold truncNum at hc
        split at hc <;> first | (simp only [Except.error.injEq] at hc; subst hc; exact ⟨by simp, by simp⟩) | cases hc
  | 1 =>
    have h : (timerVisitC percent ts s i).2 = .error e := h
    left
    unfold timerVisitC at h
    cases hi : s.timers[i]? with
    | none => simp [hi] at h
    | some p =>
      obtain ⟨key, t⟩ := p
      simp only [hi] at h
      cases hr : (t.report ts).2 with
      | ok l => simp [hr, Except.map] at h
      | error e' =>
        have he : e' = e := by simpa [hr, Except.map] using h
        subst he
        exact timer_report_error hr
  | 2 =>
    have h : (gaugeVisitC ts s i).2 = .error e := h
    unfold gaugeVisitC at h
    split at h <;> cases h
  | 3 =>
    have h : (meterVisit ts s i).2 = .error e := h
    left
    unfold meterVisit at h
    cases hi : s.meters[i]? with
    | none => simp [hi] at h
    | some p =>
      obtain ⟨key, m⟩ := p
      simp only [hi] at h
      cases hr : (m.report ts).2 with
      | ok l => simp [hr, Except.map] at h
      | error e' =>
        have he : e' = e := by simpa [hr, Except.map] using h
        subst he
        unfold Meter.report at hr
        simp only at hr
        split_ifs at hr
        split at hr
        · rename_i hd
          simp only [Except.error.injEq] at hr; subst hr
          rw [div_error hd]; simp
        · cases hr
  | k + 4 =>
    have h : (pluginVisit (configurable ops pre int) w secs ts s i).2 = .error e := h
    right
    unfold pluginVisit at h
    cases hi : s.pluginMetrics[i]? with
    | none => simp [hi] at h
    | some p =>
      obtain ⟨key, m⟩ := p
      simp only [hi] at h
      cases hr : (ops.flush w s.ticks m secs ts).2.2 with
      | ok l =>
        have hr' : ((configurable ops pre int).ops.flush w s.ticks m secs ts).2.2 = .ok l := hr
        simp [hr', Except.map] at h
      | error e' =>
        have hr' : ((configurable ops pre int).ops.flush w s.ticks m secs ts).2.2 = .error e' := hr
        have he : e' = e := by simpa [hr', Except.map] using h
        subst he
        exact ⟨_, _, _, _, hs.came _ (List.mem_of_getElem? hi), hr⟩

theorem sameNamesC_sizes (ops : PluginOps PF PM) (pre int : Str) {s s' : CPState PF PM} (h : SameNamesC s s') :
    SameSizes (configurable ops pre int) s s' := by
  obtain ⟨h0, h1, h2, h3, h4, h5⟩ := h
  have l0 := congrArg List.length h0
  have l1 := congrArg List.length h1
  have l2 := congrArg List.length h2
  have l3 := congrArg List.length h3
  have l4 := congrArg List.length h4
  simp only [Dict.keys, List.length_map] at l0 l1 l2 l3 l4
  refine ⟨fun k => ?_, h5⟩
  unfold phaseLen
  split
  · exact l0
  · exact l1
  · exact l2
  · exact l3
  · exact l4

theorem settledC_sized (ops : PluginOps PF PM) (pre int : Str) (w : World) (es : List Event) :
    ∀ v, SettledC (configurable ops pre int) w v es → Sized (configurable ops pre int) w v es := by
  induction es with
  | nil => intro v _; trivial
  | cons e es ih =>
    intro v h
    refine ⟨?_, ih _ h.2⟩
    cases e with
    | arrive m => exact sameNamesC_sizes ops pre int h.1
    | spawn a b => trivial
    | advance j => trivial

end
end Txstatsd
