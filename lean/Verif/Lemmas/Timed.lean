import Verif.Lemmas.Wf
import Verif.Model.Configurable
import Verif.Spec.History
import Mathlib.Tactic.Linarith

set_option linter.unusedSectionVars false
set_option linter.unusedSimpArgs false
set_option linter.unusedVariables false

/-!
# The time a processor says it has worked
-/

namespace Txstatsd
open Spec
section
variable [Rounding] {C T G PF PM : Type}

/-- The step reads the clock any number of times and leaves the receive statistics and the last durations alone. -/
structure Calm (s s' : PS C T G PF PM) : Prop where
  processTimings : s'.processTimings = s.processTimings
  byType : s'.byType = s.byType
  lastFlush : s'.lastFlush = s.lastFlush
  lastProcess : s'.lastProcess = s.lastProcess
  ticks : s.ticks ≤ s'.ticks

theorem Calm.refl (s : PS C T G PF PM) : Calm s s := ⟨rfl, rfl, rfl, rfl, le_refl _⟩

theorem Calm.trans {a b c : PS C T G PF PM} (h : Calm a b) (h' : Calm b c) : Calm a c :=
  ⟨h'.1.trans h.1, h'.2.trans h.2, h'.3.trans h.3, h'.4.trans h.4, le_trans h.5 h'.5⟩

/-- The handlers and the loop bodies of a processor are calm. -/
structure Impl.Timed (I : Impl C T G PF PM) : Prop where
  counter : ∀ w s k f m, Calm s (I.processCounter w s k f m).1
  timer : ∀ w s k d, Calm s (I.composeTimer w s k d)
  gauge : ∀ s k v, Calm s (I.composeGauge s k v)
  counterVisit : ∀ a b s i, Calm s (I.counterVisit a b s i).1
  timerVisit : ∀ a b s i, Calm s (I.timerVisit a b s i).1
  gaugeVisit : ∀ a s i, Calm s (I.gaugeVisit a s i).1

theorem dispatch_calm {I : Impl C T G PF PM} (hI : I.Timed) (w : World) {s : PS C T G PF PM} {msg : Str}
    {m : Metric} {r : PS C T G PF PM × Outcome} (h : dispatch I w s msg m = some r) : Calm s r.1 := by
  unfold dispatch at h
  split_ifs at h
  · simp only [Option.some.injEq] at h; subst h
    exact hI.counter w s m.key m.fields msg
  · simp only [Option.some.injEq] at h; subst h
    unfold processTimer; split
    · exact Calm.refl _
    · exact hI.timer w s m.key ‹_›
  · simp only [Option.some.injEq] at h; subst h
    unfold processGauge; simp only; split_ifs
    · exact Calm.refl _
    · split
      · exact Calm.refl _
      · exact hI.gauge s m.key ‹_›
  · simp only [Option.some.injEq] at h; subst h
    unfold processMeter composeMeter; simp only; split_ifs
    · exact Calm.refl _
    · split
      · exact Calm.refl _
      · split
        · exact ⟨rfl, rfl, rfl, rfl, le_refl _⟩
        · exact ⟨rfl, rfl, rfl, rfl, Nat.le_succ _⟩
  · split at h
    · simp only [Option.some.injEq] at h; subst h
      unfold processPlugin
      simp only
      split <;> split <;> first
        | exact ⟨rfl, rfl, rfl, rfl, le_refl _⟩
        | exact ⟨rfl, rfl, rfl, rfl, Nat.le_add_right _ _⟩
    · cases h

theorem process_ticks {I : Impl C T G PF PM} (hI : I.Timed) (w : World) (s : PS C T G PF PM) (msg : Str) :
    s.ticks ≤ (process I w s msg).1.ticks := by
  unfold process
  split
  · exact le_refl _
  · unfold processMessage
    simp only
    split
    · rename_i r hr
      have h := (dispatch_calm hI w hr).ticks
      simp only at h
      unfold finish
      split
      · simp only [account]; omega
      · omega
    · simp

theorem phaseVisit_calm {I : Impl C T G PF PM} (hI : I.Timed) (w : World) (interval percent ts : ℤ) (k : Nat)
    (s : PS C T G PF PM) (i : Nat) : Calm s (phaseVisit I w interval percent ts k s i).1 := by
  match k with
  | 0 => exact hI.counterVisit _ _ _ _
  | 1 => exact hI.timerVisit _ _ _ _
  | 2 => exact hI.gaugeVisit _ _ _
  | 3 =>
    simp only [phaseVisit, meterVisit]
    split
    · exact Calm.refl _
    · exact ⟨rfl, rfl, rfl, rfl, le_refl _⟩
  | n + 4 =>
    simp only [phaseVisit, pluginVisit]
    split
    · exact Calm.refl _
    · exact ⟨rfl, rfl, rfl, rfl, Nat.le_add_right _ _⟩

theorem runVisits_calm {visit : PS C T G PF PM → Nat → PS C T G PF PM × VisitResult}
    (hv : ∀ s i, Calm s (visit s i).1) (is : List Nat) (s : PS C T G PF PM) : Calm s (runVisits visit is s).1 := by
  induction is generalizing s with
  | nil => exact Calm.refl _
  | cons i is ih =>
    simp only [runVisits]
    have := hv s i
    generalize visit s i = r at this ⊢
    rcases r with ⟨s', e | g⟩
    · exact this
    · exact this.trans (ih s')

theorem runPhases_calm {I : Impl C T G PF PM} (hI : I.Timed) (w : World) (interval percent ts : ℤ) :
    ∀ (ks : List Nat) (acc : List PerMetric) (s : PS C T G PF PM), Calm s (runPhases I w interval percent ts ks acc s).1 := by
  intro ks
  induction ks with
  | nil => intro acc s; exact Calm.refl _
  | cons k ks ih =>
    intro acc s
    simp only [runPhases]
    have hc := runVisits_calm (phaseVisit_calm hI w interval percent ts k)
      (List.range (phaseLen I { s with ticks := s.ticks + 1 } k)) { s with ticks := s.ticks + 1 }
    generalize runVisits (phaseVisit I w interval percent ts k)
      (List.range (phaseLen I { s with ticks := s.ticks + 1 } k)) { s with ticks := s.ticks + 1 } = r at hc ⊢
    obtain ⟨s1, gs, e⟩ := r
    simp only at hc ⊢
    have h0 : Calm s { s with ticks := s.ticks + 1 } := ⟨rfl, rfl, rfl, rfl, Nat.le_succ _⟩
    cases e with
    | some e => exact h0.trans hc
    | none =>
      have h1 : Calm s1 { s1 with ticks := s1.ticks + 1 } := ⟨rfl, rfl, rfl, rfl, Nat.le_succ _⟩
      exact (h0.trans hc).trans (h1.trans (ih _ _))

/-- The value of a number, if it is finite. -/
def numVal : Num → Option ℚ
  | .int z => some z
  | .flt (.fin q) => some q
  | _ => none

variable [Exact]

theorem numVal_add {a b : Num} {x y : ℚ} (ha : numVal a = some x) (hb : numVal b = some y) :
    numVal (a.add b) = some (x + y) := by
  unfold numVal at ha hb
  split at ha <;> split at hb <;> simp_all [Num.add, numVal, Num.toFloat, Exact.rnd_eq, PyFloat.add]

/-- The sum of the durations in a summary. -/
def accVal (acc : List PerMetric) : Option ℚ :=
  acc.foldl (fun o p => match o, numVal p.2.2 with
    | some x, some y => some (x + y)
    | _, _ => none) (some 0)

theorem accVal_snoc (acc : List PerMetric) (p : PerMetric) {x y : ℚ} (h : accVal acc = some x) (hp : numVal p.2.2 = some y) :
    accVal (acc ++ [p]) = some (x + y) := by
  unfold accVal at *
  rw [List.foldl_append, h]
  simp [hp]

theorem foldl_accVal (acc : List PerMetric) : ∀ (n : Num) (x : ℚ) (o : ℚ), numVal n = some x →
    acc.foldl (fun o p => match o, numVal p.2.2 with
      | some x, some y => some (x + y)
      | _, _ => none) (some x) = some o →
    numVal (acc.foldl (fun (a : Num) (p : PerMetric) => a.add p.2.2) n) = some o := by
  induction acc with
  | nil => intro n x o h1 h2; simpa [h1] using h2
  | cons p acc ih =>
    intro n x o h1 h2
    simp only [List.foldl_cons] at h2 ⊢
    cases hp : numVal p.2.2 with
    | none =>
      rw [hp] at h2
      simp only at h2
      exfalso
      have : ∀ l : List PerMetric, l.foldl (fun o p => match o, numVal p.2.2 with
          | some x, some y => some (x + y)
          | _, _ => none) (none : Option ℚ) = none := by
        intro l; induction l with
        | nil => rfl
        | cons a l ih => simpa using ih
      rw [this] at h2; cases h2
    | some y =>
      rw [hp] at h2
      exact ih _ _ _ (numVal_add h1 hp) h2

theorem runPhases_time {I : Impl C T G PF PM} (hI : I.Timed) {w : World} (hw : ∀ i j, i ≤ j → w.clk i ≤ w.clk j)
    (interval percent ts : ℤ) : ∀ (ks : List Nat) (acc : List PerMetric) (s : PS C T G PF PM) (x : ℚ), accVal acc = some x →
    Calm s (runPhases I w interval percent ts ks acc s).1 ∧
    ∀ acc', (runPhases I w interval percent ts ks acc s).2.2 = .ok acc' →
      ∃ y, accVal acc' = some y ∧ x ≤ y ∧
        y ≤ x + (w.clk (runPhases I w interval percent ts ks acc s).1.ticks - w.clk s.ticks) := by
  intro ks
  induction ks with
  | nil =>
    intro acc s x hx
    refine ⟨Calm.refl _, ?_⟩
    intro acc' h
    simp only [runPhases, Except.ok.injEq] at h
    subst h
    exact ⟨x, hx, le_refl _, by simp [runPhases]⟩
  | cons k ks ih =>
    intro acc s x hx
    simp only [runPhases]
    have hc := runVisits_calm (phaseVisit_calm hI w interval percent ts k)
      (List.range (phaseLen I { s with ticks := s.ticks + 1 } k)) { s with ticks := s.ticks + 1 }
    generalize runVisits (phaseVisit I w interval percent ts k)
      (List.range (phaseLen I { s with ticks := s.ticks + 1 } k)) { s with ticks := s.ticks + 1 } = r at hc ⊢
    obtain ⟨s1, gs, e⟩ := r
    simp only at hc ⊢
    have h0 : Calm s { s with ticks := s.ticks + 1 } := ⟨rfl, rfl, rfl, rfl, Nat.le_succ _⟩
    cases e with
    | some e =>
      refine ⟨h0.trans hc, ?_⟩
      intro acc' h; cases h
    | none =>
      simp only
      have h1 : Calm s1 { s1 with ticks := s1.ticks + 1 } := ⟨rfl, rfl, rfl, rfl, Nat.le_succ _⟩
      have hd : numVal (Num.flt (rnd (w.clk s1.ticks - w.clk s.ticks))) = some (w.clk s1.ticks - w.clk s.ticks) := by
        rw [Exact.rnd_eq]; rfl
      obtain ⟨i1, i2⟩ := ih (acc ++ [(phaseName k, gs.length, Num.flt (rnd (w.clk s1.ticks - w.clk s.ticks)))])
        { s1 with ticks := s1.ticks + 1 } _ (accVal_snoc acc _ hx hd)
      refine ⟨(h0.trans hc).trans (h1.trans i1), ?_⟩
      intro acc' h
      obtain ⟨y, y1, y2, y3⟩ := i2 acc' h
      have m1 : w.clk s.ticks ≤ w.clk s1.ticks := hw _ _ (le_trans h0.ticks hc.ticks)
      have m2 : w.clk s1.ticks ≤ w.clk (s1.ticks + 1) := hw _ _ (Nat.le_succ _)
      refine ⟨y, y1, by linarith, ?_⟩
      simp only at y3
      linarith

/-- The sum of the processing times. -/
theorem timings_put {d : Dict Num} (t : Str) {e : Num} {y : ℚ} (he : numVal e = some y) :
    ∀ (n : Num) (x : ℚ), numVal n = some x → (∀ p ∈ d, (numVal p.2).isSome) →
    ∀ z, numVal (d.foldl (fun (a : Num) p => a.add p.2) n) = some z →
    numVal ((d.put t (((d.find t).getD (.int 0)).add e)).foldl (fun (a : Num) p => a.add p.2) n) = some (z + y) := by
  induction d with
  | nil =>
    intro n x hn _ z hz
    simp only [Dict.put, Dict.find, List.foldl_nil, List.foldl_cons, Option.getD_none] at hz ⊢
    rw [hn] at hz
    cases hz
    have h0 : numVal (.int 0) = some 0 := by simp [numVal]
    have := numVal_add h0 he
    rw [zero_add] at this
    exact numVal_add hn this
  | cons p d ih =>
    intro n x hn hall z hz
    obtain ⟨k, v⟩ := p
    obtain ⟨vv, hv⟩ := Option.isSome_iff_exists.1 (hall (k, v) (by simp))
    simp only at hv
    simp only [List.foldl_cons] at hz
    by_cases hk : k = t
    · subst hk
      simp only [Dict.put, Dict.find, if_true, Option.getD_some, List.foldl_cons]
      have key : ∀ (l : Dict Num) (a b : Num) (xa xb : ℚ), numVal a = some xa → numVal b = some xb →
          (∀ p ∈ l, (numVal p.2).isSome) → ∀ z, numVal (l.foldl (fun (a : Num) p => a.add p.2) a) = some z →
          numVal (l.foldl (fun (a : Num) p => a.add p.2) b) = some (z + (xb - xa)) := by
        intro l
        induction l with
        | nil => intro a b xa xb h1 h2 _ z hz; simp only [List.foldl_nil] at *; rw [h1] at hz; cases hz; rw [h2]; congr 1; ring
        | cons q l ihl =>
          intro a b xa xb h1 h2 h3 z hz
          obtain ⟨qq, hq⟩ := Option.isSome_iff_exists.1 (h3 q (by simp))
          simp only [List.foldl_cons] at hz ⊢
          have := ihl _ _ _ _ (numVal_add h1 hq) (numVal_add h2 hq) (fun p hp => h3 p (by simp [hp])) z hz
          rw [this]; congr 1; ring
      have h1 := numVal_add hn hv
      have h2 := numVal_add hn (numVal_add hv he)
      rw [key d _ _ _ _ h1 h2 (fun p hp => hall p (by simp [hp])) z hz]
      congr 1; ring
    · simp only [Dict.put, Dict.find, hk, if_false, List.foldl_cons]
      exact ih _ _ (numVal_add hn hv) (fun p hp => hall p (by simp [hp])) z hz

/-- What is kept of the time since the start. -/
structure WorkedWithin (w : World) (s : PS C T G PF PM) : Prop where
  shared : Shared s
  vals : ∀ p ∈ s.processTimings, (numVal p.2).isSome
  pending : ∃ p, numVal (s.processTimings.foldl (fun (a : Num) p => a.add p.2) (.int 0)) = some p ∧ 0 ≤ p ∧
    p ≤ w.clk s.ticks - w.clk 0
  shown : ∃ f p, numVal s.lastFlush = some f ∧ numVal s.lastProcess = some p ∧ 0 ≤ f ∧ 0 ≤ p ∧
    f + p ≤ w.clk s.ticks - w.clk 0

theorem worked_calm {w : World} (hw : ∀ i j, i ≤ j → w.clk i ≤ w.clk j) {s s' : PS C T G PF PM} (h : Calm s s')
    (hs : WorkedWithin w s) (hsh : Shared s') : WorkedWithin w s' := by
  have hm := hw _ _ h.ticks
  obtain ⟨_, h2, ⟨p, p1, p2, p3⟩, ⟨f, q, f1, f2, f3, f4, f5⟩⟩ := hs
  refine ⟨hsh, by rw [h.processTimings]; exact h2, ⟨p, by rw [h.processTimings]; exact p1, p2, by linarith⟩,
    ⟨f, q, by rw [h.lastFlush]; exact f1, by rw [h.lastProcess]; exact f2, f3, f4, by linarith⟩⟩

theorem vals_put {d : Dict Num} (t : Str) {e : Num} (he : (numVal e).isSome) (hd : ∀ p ∈ d, (numVal p.2).isSome) :
    ∀ p ∈ d.put t e, (numVal p.2).isSome := by
  induction d with
  | nil => intro p hp; simp [Dict.put] at hp; subst hp; exact he
  | cons q d ih =>
    obtain ⟨k, v⟩ := q
    intro p hp
    simp only [Dict.put] at hp
    split_ifs at hp
    · rcases List.mem_cons.1 hp with rfl | hp
      · exact he
      · exact hd p (by simp [hp])
    · rcases List.mem_cons.1 hp with rfl | hp
      · exact hd _ (by simp)
      · exact ih (fun p hp => hd p (by simp [hp])) p hp

theorem vals_find {d : Dict Num} (t : Str) (hd : ∀ p ∈ d, (numVal p.2).isSome) : ∃ x, numVal ((d.find t).getD (.int 0)) = some x := by
  cases h : d.find t with
  | none => exact ⟨0, by simp [numVal]⟩
  | some v => exact Option.isSome_iff_exists.1 (hd _ (Dict.mem_of_find h))

theorem worked_account {w : World} (hw : ∀ i j, i ≤ j → w.clk i ≤ w.clk j) {s : PS C T G PF PM} (hs : WorkedWithin w s)
    (t : Str) {start : ℚ} {p0 : ℚ}
    (hp0 : numVal (s.processTimings.foldl (fun (a : Num) p => a.add p.2) (.int 0)) = some p0)
    (h1 : start ≤ w.clk s.ticks) (h2 : p0 ≤ start - w.clk 0) : WorkedWithin w (account w s t start) := by
  obtain ⟨sh, hv, ⟨p, p1, p2, p3⟩, ⟨f, q, f1, f2, f3, f4, f5⟩⟩ := hs
  have hm : w.clk s.ticks ≤ w.clk (s.ticks + 1) := hw _ _ (Nat.le_succ _)
  rw [p1] at hp0; cases hp0
  have he : numVal (Num.flt (rnd (w.clk s.ticks - start))) = some (w.clk s.ticks - start) := by rw [Exact.rnd_eq]; rfl
  refine ⟨shared_account w t start sh, ?_, ⟨p0 + (w.clk s.ticks - start), ?_, by linarith, ?_⟩,
    ⟨f, q, f1, f2, f3, f4, ?_⟩⟩
  · apply vals_put _ _ hv
    obtain ⟨x, hx⟩ := vals_find t hv
    rw [numVal_add hx he]; rfl
  · exact timings_put t he (.int 0) 0 (by simp [numVal]) hv p0 p1
  · simp only [account]; linarith
  · simp only [account]; linarith

theorem worked_process {I : Impl C T G PF PM} (hI : I.Timed) {w : World} (hw : ∀ i j, i ≤ j → w.clk i ≤ w.clk j)
    {s : PS C T G PF PM} (hs : WorkedWithin w s) (msg : Str) (hsh : Shared (process I w s msg).1) :
    WorkedWithin w (process I w s msg).1 := by
  unfold process at hsh ⊢
  cases hp : parseMessage msg with
  | none => exact hs
  | some m =>
    rw [hp] at hsh
    simp only [processMessage] at hsh ⊢
    have h0 : Calm s { s with ticks := s.ticks + 1 } := ⟨rfl, rfl, rfl, rfl, Nat.le_succ _⟩
    cases hd : dispatch I w { s with ticks := s.ticks + 1 } msg m with
    | none => rw [hd] at hsh; exact worked_calm hw h0 hs hsh
    | some r =>
      rw [hd] at hsh
      simp only at hsh ⊢
      have hc := h0.trans (dispatch_calm hI w hd)
      unfold finish at hsh ⊢
      cases he : r.2.exc with
      | some e => simp only [he] at hsh ⊢; exact worked_calm hw hc hs hsh
      | none =>
        simp only [he] at hsh ⊢
        have hsr : Shared r.1 :=
          ⟨by
            have : (account w r.1 m.mtype (w.clk s.ticks)).meters = r.1.meters := rfl
            rw [← this]; exact hsh.meters,
           by
            have : (account w r.1 m.mtype (w.clk s.ticks)).pluginMetrics = r.1.pluginMetrics := rfl
            rw [← this]; exact hsh.pluginMetrics,
           by rw [hc.processTimings]; exact hs.shared.processTimings,
           by rw [hc.byType]; exact hs.shared.byType,
           by rw [hc.processTimings, hc.byType]; exact hs.shared.recv⟩
        have hwr := worked_calm hw hc hs hsr
        obtain ⟨p, p1, p2, p3⟩ := hs.pending
        refine worked_account hw hwr m.mtype (p0 := p) (by rw [hc.processTimings]; exact p1) (hw _ _ hc.ticks) p3

theorem worked_flush {I : Impl C T G PF PM} (hI : I.Timed) {w : World} (hw : ∀ i j, i ≤ j → w.clk i ≤ w.clk j)
    {s : PS C T G PF PM} (hs : WorkedWithin w s) (interval percent : ℤ)
    (hsh : Shared (flush I w interval percent s).1) : WorkedWithin w (flush I w interval percent s).1 := by
  unfold flush at hsh ⊢
  simp only at hsh ⊢
  have h0 : Calm s { s with ticks := s.ticks + 1 } := ⟨rfl, rfl, rfl, rfl, Nat.le_succ _⟩
  have hph := runPhases_time hI hw (Int.fdiv interval 1000) percent (truncQ (w.clk s.ticks)) [0, 1, 2, 3, 4] []
    { s with ticks := s.ticks + 1 } 0 rfl
  generalize runPhases I w (Int.fdiv interval 1000) percent (truncQ (w.clk s.ticks)) [0, 1, 2, 3, 4] []
    { s with ticks := s.ticks + 1 } = r at hph hsh ⊢
  obtain ⟨s1, ps, e | acc⟩ := r
  · exact worked_calm hw (h0.trans hph.1) hs hsh
  · simp only at hph hsh ⊢
    obtain ⟨hc, h2⟩ := hph
    obtain ⟨y, y1, y2, y3⟩ := h2 acc rfl
    have hc' := h0.trans hc
    obtain ⟨sh, hv, ⟨p, p1, p2, p3⟩, ⟨f, q, f1, f2, f3, f4, f5⟩⟩ := hs
    have hr := runReceive_ok I (truncQ (w.clk s.ticks)) s1.byType s1.processTimings (.int 0)
      (by rw [hc'.processTimings, hc'.byType, sh.recv]; exact fun k hk => hk)
    have hm : w.clk s.ticks ≤ w.clk (s.ticks + 1) := hw _ _ (Nat.le_succ _)
    have hm0 : w.clk 0 ≤ w.clk s1.ticks := hw _ _ (Nat.zero_le _)
    unfold runSummary at hsh ⊢
    simp only [hr] at hsh ⊢
    refine ⟨hsh, by simp, ⟨0, by simp [numVal], le_refl _, by linarith⟩, ⟨y, p, ?_, ?_, y2, p2, ?_⟩⟩
    · exact foldl_accVal acc (.int 0) 0 y (by simp [numVal]) y1
    · simp only [hc'.processTimings]; exact p1
    · simp only; linarith

theorem worked_init {w : World} {s : PS C T G PF PM} (h1 : s.ticks = 0) (h2 : s.processTimings = []) (h3 : s.lastFlush = .int 0)
    (h4 : s.lastProcess = .int 0) (sh : Shared s) : WorkedWithin w s :=
  ⟨sh, by simp [h2], ⟨0, by simp [h2, numVal], le_refl _, by simp [h1]⟩,
    ⟨0, 0, by simp [h3, numVal], by simp [h4, numVal], le_refl _, le_refl _, by simp [h1]⟩⟩

end

section
variable [Rounding] {PF PM : Type}

theorem composeCounter_calm (s : MPState PF PM) (k : Str) (v r : PyFloat) : Calm s (composeCounter s k v r).1 := by
  unfold composeCounter
  simp only
  split <;> split_ifs <;> exact ⟨rfl, rfl, rfl, rfl, le_refl _⟩

theorem mp_timed (ops : PluginOps PF PM) : (messageProcessor ops).Timed where
  counter := by
    intro w s k f m
    show Calm s (processCounter s k f m).1
    unfold processCounter
    split
    · exact Calm.refl _
    · by_cases h3 : f.length = 3
      · rw [if_pos h3]
        split
        · exact Calm.refl _
        · split
          · by_cases hk : s.counters.has k = true
            · simp only [hk, if_true]; exact Calm.refl _
            · simp only [hk]; exact ⟨rfl, rfl, rfl, rfl, le_refl _⟩
          · exact composeCounter_calm _ _ _ _
      · rw [if_neg h3]; exact composeCounter_calm _ _ _ _
  timer := fun w s k d => ⟨rfl, rfl, rfl, rfl, le_refl _⟩
  gauge := fun s k v => ⟨rfl, rfl, rfl, rfl, le_refl _⟩
  counterVisit := by
    intro a b s i
    show Calm s (counterVisit a b s i).1
    unfold counterVisit
    split
    · exact Calm.refl _
    · simp only; split <;> exact ⟨rfl, rfl, rfl, rfl, le_refl _⟩
  timerVisit := by
    intro a b s i
    show Calm s (timerVisit a b s i).1
    unfold timerVisit
    split
    · exact Calm.refl _
    · split_ifs
      · simp only; split <;> exact ⟨rfl, rfl, rfl, rfl, le_refl _⟩
      · exact Calm.refl _
  gaugeVisit := by
    intro a s i
    show Calm s (gaugeVisit a s i).1
    unfold gaugeVisit
    split <;> exact Calm.refl _

theorem cp_timed (ops : PluginOps PF PM) (pre int : Str) : (configurable ops pre int).Timed where
  counter := by
    intro w s k f m
    show Calm s (processCounterC pre s k f m).1
    unfold processCounterC
    split
    · exact Calm.refl _
    · simp only [composeCounterC]
      split <;> split_ifs <;> exact ⟨rfl, rfl, rfl, rfl, le_refl _⟩
  timer := by
    intro w s k d
    show Calm s (composeTimerC pre w s k d)
    unfold composeTimerC
    simp only
    split <;> split_ifs <;> first
      | exact ⟨rfl, rfl, rfl, rfl, le_refl _⟩
      | exact ⟨rfl, rfl, rfl, rfl, Nat.le_succ _⟩
  gauge := by
    intro s k v
    show Calm s (composeGaugeC pre s k v)
    unfold composeGaugeC
    simp only
    split <;> split_ifs <;> exact ⟨rfl, rfl, rfl, rfl, le_refl _⟩
  counterVisit := by
    intro a b s i
    show Calm s (counterVisitC a b s i).1
    unfold counterVisitC
    split <;> exact Calm.refl _
  timerVisit := by
    intro a b s i
    show Calm s (timerVisitC a b s i).1
    unfold timerVisitC
    split
    · exact Calm.refl _
    · exact ⟨rfl, rfl, rfl, rfl, le_refl _⟩
  gaugeVisit := by
    intro a s i
    show Calm s (gaugeVisitC a s i).1
    unfold gaugeVisitC
    split <;> exact Calm.refl _

end
end Txstatsd
