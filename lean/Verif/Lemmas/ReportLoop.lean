import Verif.Spec.ReportLoop
import Verif.Lemmas.FlushTask
import Verif.Lemmas.HostService

/-! Lemmas about the times of reports. -/

set_option linter.unusedSectionVars false
set_option linter.unusedSimpArgs false
set_option linter.unusedVariables false

namespace Txstatsd
open Spec
variable [Rounding] {C T G PF PM : Type}

/-- What an event does to a single loop, when all loops run or none does. -/
def ReportLoop.step (l : ReportLoop) (now : ℚ) : HostEvent → ReportLoop
  | .start => if l.running then l else { l with running := true, startTime := now, due := some (nextCall now l.period now) }
  | .stop => if l.running then { l with running := false, due := none } else l
  | .clock => if l.isDue now then l.called now else l
  | _ => l

theorem startLoops_map {b : Bool} (now : ℚ) (ls : List ReportLoop) (h : ∀ l ∈ ls, l.running = b ∧ 0 ≤ l.period) :
    (startLoops now ls).1 = ls.map fun l => l.step now .start := by
  induction ls with
  | nil => rfl
  | cons l ls ih =>
    obtain ⟨h1, h2⟩ := h l (by simp)
    have h' : ∀ l ∈ ls, l.running = b ∧ 0 ≤ l.period := fun l hl => h l (List.mem_cons_of_mem _ hl)
    unfold startLoops
    cases b with
    | true =>
      rw [if_pos h1]
      show l :: ls = _
      rw [List.map_congr_left (g := id) (fun l hl => by simp [ReportLoop.step, (h l hl).1]), List.map_id]
    | false =>
      rw [if_neg (by simp [h1]), if_neg (by omega)]
      simp [ih h', ReportLoop.step, h1]

theorem stopLoops_map {b : Bool} (now : ℚ) (ls : List ReportLoop) (h : ∀ l ∈ ls, l.running = b) :
    (stopLoops ls).1 = ls.map fun l => l.step now .stop := by
  induction ls with
  | nil => rfl
  | cons l ls ih =>
    have h1 := h l (by simp)
    have h' : ∀ l ∈ ls, l.running = b := fun l hl => h l (List.mem_cons_of_mem _ hl)
    unfold stopLoops
    cases b with
    | true =>
      rw [if_pos h1]
      simp [ih h', ReportLoop.step, h1]
    | false =>
      rw [if_neg (by simp [h1])]
      show l :: ls = _
      rw [List.map_congr_left (g := id) (fun l hl => by simp [ReportLoop.step, (h l hl)]), List.map_id]

/-- Whether the reports run after an event. -/
def upAfter (b : Bool) : HostEvent → Bool
  | .start => true
  | .stop => false
  | _ => b

theorem step_running (l : ReportLoop) (now : ℚ) (e : HostEvent) : (l.step now e).running = upAfter l.running e := by
  cases e <;> simp only [ReportLoop.step, upAfter] <;> split <;> simp_all [ReportLoop.called]

theorem step_period (l : ReportLoop) (now : ℚ) (e : HostEvent) : (l.step now e).period = l.period := by
  cases e <;> simp only [ReportLoop.step] <;> split <;> rfl

theorem step_report (l : ReportLoop) (now : ℚ) (e : HostEvent) : (l.step now e).report = l.report := by
  cases e <;> simp only [ReportLoop.step] <;> split <;> rfl

/-- The operations of an event. -/
def opsAt (env : ℚ → HostMoment) (ls : List ReportLoop) (now : ℚ) : HostEvent → List HostOp
  | .clock => (ls.filter fun l => l.isDue now).map fun l => .report (env now) l.report
  | .msg m => [.msg m]
  | .flush i p => [.flush i p]
  | _ => []

/-- The operations of a run. -/
def timedOps (env : ℚ → HostMoment) : List ReportLoop → List (ℚ × HostEvent) → List HostOp
  | _, [] => []
  | ls, (t, e) :: es => opsAt env ls t e ++ timedOps env (ls.map fun l => l.step t e) es

/-- A loop over a run. -/
def ReportLoop.over (l : ReportLoop) (es : List (ℚ × HostEvent)) : ReportLoop := es.foldl (fun l e => l.step e.1 e.2) l

theorem timed_run (I : Impl C T G PF PM) (w : World) (fmt : PyFloat → Str) (inst : Str) (env : ℚ → HostMoment)
    (es : List (ℚ × HostEvent)) : ∀ (b : Bool) (v : TimedHost C T G PF PM), (∀ l ∈ v.loops, l.running = b ∧ 0 ≤ l.period) →
    (v.run I w fmt inst env es).loops = v.loops.map (fun l => l.over es) ∧
    (v.run I w fmt inst env es).host = v.host.run I w fmt inst (timedOps env v.loops es) := by
  induction es with
  | nil => intro b v h; exact ⟨by simp [TimedHost.run, ReportLoop.over], rfl⟩
  | cons e es ih =>
    intro b v h
    obtain ⟨t, e⟩ := e
    have key : (v.step I w fmt inst env t e).1.loops = v.loops.map (fun l => l.step t e) ∧
        (v.step I w fmt inst env t e).1.host = v.host.run I w fmt inst (opsAt env v.loops t e) := by
      cases e with
      | start => exact ⟨startLoops_map t v.loops h, rfl⟩
      | stop => exact ⟨stopLoops_map t v.loops fun l hl => (h l hl).1, rfl⟩
      | clock => exact ⟨rfl, by simp only [TimedHost.step, opsAt, HostState.run, List.foldl_map]⟩
      | msg m => exact ⟨by simp [TimedHost.step, ReportLoop.step], rfl⟩
      | flush i p => exact ⟨by simp [TimedHost.step, ReportLoop.step], rfl⟩
    obtain ⟨k1, k2⟩ := key
    obtain ⟨i1, i2⟩ := ih (upAfter b e) (v.step I w fmt inst env t e).1 (by
      rw [k1]
      intro l hl
      obtain ⟨l', hl', rfl⟩ := List.mem_map.1 hl
      rw [step_running, step_period, (h l' hl').1]
      exact ⟨rfl, (h l' hl').2⟩)
    refine ⟨?_, ?_⟩
    · show ((v.step I w fmt inst env t e).1.run I w fmt inst env es).loops = _
      rw [i1, k1, List.map_map]; rfl
    · show ((v.step I w fmt inst env t e).1.run I w fmt inst env es).host = _
      rw [i2, k1, k2]
      simp only [HostState.run, timedOps, List.foldl_append]

theorem timedOps_append (env : ℚ → HostMoment) (a b : List (ℚ × HostEvent)) (ls : List ReportLoop) :
    timedOps env ls (a ++ b) = timedOps env ls a ++ timedOps env (ls.map fun l => l.over a) b := by
  induction a generalizing ls with
  | nil => simp [timedOps, ReportLoop.over]
  | cons e a ih =>
    obtain ⟨t, e⟩ := e
    simp only [List.cons_append, timedOps, ih, List.append_assoc, List.map_map]
    rfl

theorem hostCalls_append (a b : List HostOp) : hostCalls (a ++ b) = hostCalls a ++ hostCalls b := by
  induction a with
  | nil => rfl
  | cons o a ih => cases o <;> simp [hostCalls, ih]

theorem hostOutside_append (a b : List HostOp) : hostOutside (a ++ b) = hostOutside a ++ hostOutside b := by
  induction a with
  | nil => rfl
  | cons o a ih => cases o <;> simp [hostOutside, ih]

theorem hostCalls_reports (m : HostMoment) (ls : List ReportLoop) :
    hostCalls (ls.map fun l => .report m l.report) = ls.map fun l => (m, l.report) := by
  induction ls with
  | nil => rfl
  | cons l ls ih => simp [hostCalls, ih]

theorem hostOutside_reports (m : HostMoment) (ls : List ReportLoop) :
    hostOutside (ls.map fun l => .report m l.report) = [] := by
  induction ls with
  | nil => rfl
  | cons l ls ih => simp [hostOutside, ih]

theorem timedOps_outside (env : ℚ → HostMoment) (es : List (ℚ × HostEvent)) (ls : List ReportLoop) :
    hostOutside (timedOps env ls es) = timedOutside es := by
  induction es generalizing ls with
  | nil => rfl
  | cons e es ih =>
    obtain ⟨t, e⟩ := e
    simp only [timedOps, hostOutside_append, ih]
    cases e <;> simp [opsAt, hostOutside, hostOutside_reports, timedOutside]

/-- Every report is made at a reading of the clock. -/
theorem timedOps_calls (env : ℚ → HostMoment) (es : List (ℚ × HostEvent)) (ls : List ReportLoop) :
    ∀ c ∈ hostCalls (timedOps env ls es), ∃ t ∈ clockReadings es, c.1 = env t := by
  induction es generalizing ls with
  | nil => simp [timedOps, hostCalls]
  | cons e es ih =>
    obtain ⟨t, e⟩ := e
    intro c hc
    simp only [timedOps, hostCalls_append, List.mem_append] at hc
    rcases hc with hc | hc
    · cases e <;> simp only [opsAt, hostCalls, List.not_mem_nil] at hc
      rw [hostCalls_reports] at hc
      obtain ⟨l, _, rfl⟩ := List.mem_map.1 hc
      exact ⟨t, by simp [clockReadings], rfl⟩
    · obtain ⟨u, hu, h⟩ := ih _ c hc
      refine ⟨u, ?_, h⟩
      cases e <;> simp [clockReadings, hu]

theorem clockReadings_mem {es : List (ℚ × HostEvent)} {t : ℚ} (h : t ∈ clockReadings es) : ∃ e ∈ es, e.1 = t := by
  induction es with
  | nil => simp [clockReadings] at h
  | cons e es ih =>
    obtain ⟨u, e⟩ := e
    cases e
    case clock =>
      simp only [clockReadings, List.mem_cons] at h
      rcases h with rfl | h
      · exact ⟨_, List.mem_cons_self .., rfl⟩
      · obtain ⟨e, he, h⟩ := ih h
        exact ⟨e, List.mem_cons_of_mem _ he, h⟩
    all_goals
      obtain ⟨e, he, h⟩ := ih (by simpa [clockReadings] using h)
      exact ⟨e, List.mem_cons_of_mem _ he, h⟩

/-- The last call of a kind, if there is any. -/
theorem last_of_kind (k : HostReport) (cs : List (HostMoment × HostReport)) (h : ∃ c ∈ cs, c.2 = k) :
    ∃ m before after, cs = before ++ (m, k) :: after ∧ ∀ c ∈ after, c.2 ≠ k := by
  induction cs with
  | nil => simp at h
  | cons c cs ih =>
    by_cases h' : ∃ c ∈ cs, c.2 = k
    · obtain ⟨m, b, a, rfl, ha⟩ := ih h'
      exact ⟨m, c :: b, a, rfl, ha⟩
    · obtain ⟨c', hc', hk⟩ := h
      rcases List.mem_cons.1 hc' with rfl | hc'
      · obtain ⟨m, k'⟩ := c'
        simp only at hk
        subst hk
        exact ⟨m, [], cs, rfl, fun c hc hk => h' ⟨c, hc, hk⟩⟩
      · exact absurd ⟨c', hc', hk⟩ h'

theorem nextCall_pos {s t : ℚ} {p : ℤ} (hp : 0 < p) : t < nextCall s p t ∧ nextCall s p t ≤ t + p := by
  have hq : (0 : ℚ) < p := by exact_mod_cast hp
  unfold nextCall
  rw [if_neg (by omega)]
  have h1 := Int.floor_le ((t - s) / (p : ℚ))
  have h2 := Int.lt_floor_add_one ((t - s) / (p : ℚ))
  rw [le_div_iff₀ hq] at h1
  rw [div_lt_iff₀ hq] at h2
  constructor <;> nlinarith

/-- When the clock has been read at `x`, not before the next call was due, the last report is less than a period older. -/
theorem fresh_since (env : ℚ → HostMoment) (k : HostReport) {p : ℤ} (hp : 0 < p) (es : List (ℚ × HostEvent)) :
    ∀ (ls : List ReportLoop) (l : ReportLoop), l ∈ ls → l.running = true → l.report = k → l.period = p → ∀ d, l.due = some d →
    NeverStopped es → Forward es → ∀ x ∈ clockReadings es, d ≤ x →
    ∃ u ∈ clockReadings es, x - p < u ∧ LastCall (timedOps env ls es) k (env u) := by
  induction es with
  | nil => intro ls l _ _ _ _ d _ _ _ x hx; simp [clockReadings] at hx
  | cons e es ih =>
    intro ls l hl hr hk hlp d hd hs hf x hx hdx
    obtain ⟨t, e⟩ := e
    have hs' : NeverStopped es := fun e he => hs e (List.mem_cons_of_mem _ he)
    obtain ⟨hf1, hf2⟩ := List.pairwise_cons.1 hf
    have hl' : l.step t e ∈ ls.map fun l => l.step t e := List.mem_map.2 ⟨l, hl, rfl⟩
    have lift : ∀ u ∈ clockReadings es, LastCall (timedOps env (ls.map fun l => l.step t e) es) k (env u) →
        u ∈ clockReadings ((t, e) :: es) ∧ LastCall (timedOps env ls ((t, e) :: es)) k (env u) := by
      rintro u hu ⟨b, a, h1, h2⟩
      refine ⟨by cases e <;> simp [clockReadings, hu], hostCalls (opsAt env ls t e) ++ b, a, ?_, h2⟩
      rw [timedOps, hostCalls_append, h1, List.append_assoc]
    have hrun : (l.step t e).running = true := by
      rw [step_running, hr]
      cases e <;> first | rfl | exact absurd rfl (hs _ (List.mem_cons_self ..))
    cases e with
    | stop => exact absurd rfl (hs _ (List.mem_cons_self ..))
    | clock =>
      by_cases hdt : d ≤ t
      · have hdue : l.isDue t = true := by simp [ReportLoop.isDue, hd, hdt]
        have hstep : (l.step t .clock).due = some (nextCall l.startTime p t) := by
          simp [ReportLoop.step, hdue, ReportLoop.called, hlp]
        obtain ⟨n1, n2⟩ := nextCall_pos (s := l.startTime) (t := t) hp
        have hxt : t ≤ x := by
          simp only [clockReadings, List.mem_cons] at hx
          rcases hx with rfl | hx
          · exact le_rfl
          · obtain ⟨e, he, rfl⟩ := clockReadings_mem hx
            exact hf1 _ (List.mem_map.2 ⟨e, he, rfl⟩)
        by_cases hx' : nextCall l.startTime p t ≤ x
        · have hxm : x ∈ clockReadings es := by
            simp only [clockReadings, List.mem_cons] at hx
            rcases hx with rfl | hx
            · exact absurd hx' (not_le.2 n1)
            · exact hx
          obtain ⟨u, hu, hu1, hu2⟩ := ih _ _ hl' hrun (by rw [step_report, hk]) (by rw [step_period, hlp]) _ hstep hs' hf2 x hxm hx'
          obtain ⟨l1, l2⟩ := lift u hu hu2
          exact ⟨u, l1, hu1, l2⟩
        · have hxp : x - p < t := by have := not_le.1 hx'; linarith
          by_cases hlater : ∃ c ∈ hostCalls (timedOps env (ls.map fun l => l.step t .clock) es), c.2 = k
          · obtain ⟨m, b, a, h1, h2⟩ := last_of_kind k _ hlater
            obtain ⟨u, hu, hm⟩ := timedOps_calls env es _ (m, k) (by rw [h1]; simp)
            simp only at hm
            subst hm
            obtain ⟨l1, l2⟩ := lift u hu ⟨b, a, h1, h2⟩
            refine ⟨u, l1, ?_, l2⟩
            obtain ⟨e, he, rfl⟩ := clockReadings_mem hu
            have := hf1 _ (List.mem_map.2 ⟨e, he, rfl⟩)
            linarith
          · refine ⟨t, by simp [clockReadings], hxp, ?_⟩
            have hin : (env t, k) ∈ hostCalls (opsAt env ls t .clock) := by
              rw [opsAt, hostCalls_reports]
              exact List.mem_map.2 ⟨l, List.mem_filter.2 ⟨hl, hdue⟩, by rw [hk]⟩
            obtain ⟨m, b, a, h1, h2⟩ := last_of_kind k _ ⟨_, hin, rfl⟩
            have hm : m = env t := by
              have : (m, k) ∈ hostCalls (opsAt env ls t .clock) := by rw [h1]; simp
              rw [opsAt, hostCalls_reports] at this
              obtain ⟨l', _, h⟩ := List.mem_map.1 this
              exact (congrArg Prod.fst h).symm
            subst hm
            refine ⟨b, a ++ hostCalls (timedOps env (ls.map fun l => l.step t .clock) es), ?_, ?_⟩
            · rw [timedOps, hostCalls_append, h1, List.append_assoc]; rfl
            · intro c hc
              rcases List.mem_append.1 hc with hc | hc
              · exact h2 c hc
              · exact fun hk => hlater ⟨c, hc, hk⟩
      · have hdue : l.isDue t = false := by simp [ReportLoop.isDue, hd, hdt]
        have hxm : x ∈ clockReadings es := by
          simp only [clockReadings, List.mem_cons] at hx
          rcases hx with rfl | hx
          · exact absurd hdx hdt
          · exact hx
        obtain ⟨u, hu, hu1, hu2⟩ := ih _ _ hl' hrun (by rw [step_report, hk]) (by rw [step_period, hlp]) d
          (by simp [ReportLoop.step, hdue, hd]) hs' hf2 x hxm hdx
        obtain ⟨l1, l2⟩ := lift u hu hu2
        exact ⟨u, l1, hu1, l2⟩
    | start =>
      obtain ⟨u, hu, hu1, hu2⟩ := ih _ _ hl' hrun (by rw [step_report, hk]) (by rw [step_period, hlp]) d
        (by simp [ReportLoop.step, hr, hd]) hs' hf2 x (by simpa [clockReadings] using hx) hdx
      obtain ⟨l1, l2⟩ := lift u hu hu2
      exact ⟨u, l1, hu1, l2⟩
    | msg m =>
      obtain ⟨u, hu, hu1, hu2⟩ := ih _ _ hl' hrun (by rw [step_report, hk]) (by rw [step_period, hlp]) d
        (by simp [ReportLoop.step, hd]) hs' hf2 x (by simpa [clockReadings] using hx) hdx
      obtain ⟨l1, l2⟩ := lift u hu hu2
      exact ⟨u, l1, hu1, l2⟩
    | flush i q =>
      obtain ⟨u, hu, hu1, hu2⟩ := ih _ _ hl' hrun (by rw [step_report, hk]) (by rw [step_period, hlp]) d
        (by simp [ReportLoop.step, hd]) hs' hf2 x (by simpa [clockReadings] using hx) hdx
      obtain ⟨l1, l2⟩ := lift u hu hu2
      exact ⟨u, l1, hu1, l2⟩

theorem over_report (es : List (ℚ × HostEvent)) (l : ReportLoop) : (l.over es).report = l.report ∧ (l.over es).period = l.period := by
  induction es generalizing l with
  | nil => exact ⟨rfl, rfl⟩
  | cons e es ih =>
    obtain ⟨h1, h2⟩ := ih (l.step e.1 e.2)
    exact ⟨h1.trans (step_report ..), h2.trans (step_period ..)⟩

theorem over_running (es : List (ℚ × HostEvent)) (l : ReportLoop) : (l.over es).running = es.foldl (fun b e => upAfter b e.2) l.running := by
  induction es generalizing l with
  | nil => rfl
  | cons e es ih =>
    show ((l.step e.1 e.2).over es).running = _
    rw [ih, step_running]; rfl

theorem up_false (es : List (ℚ × HostEvent)) (h : StoppedAgain es) : es.foldl (fun b e => upAfter b e.2) false = false := by
  by_contra hc
  have : ∀ (es : List (ℚ × HostEvent)) (b : Bool), es.foldl (fun b e => upAfter b e.2) b = true →
      (b = true ∧ NeverStopped es) ∨ ∃ a t c, es = a ++ (t, .start) :: c ∧ NeverStopped c := by
    intro es
    induction es with
    | nil => intro b hb; exact .inl ⟨hb, fun e he => by cases he⟩
    | cons e es ih =>
      intro b hb
      obtain ⟨t, e⟩ := e
      rcases ih _ hb with ⟨h1, h2⟩ | ⟨a, u, c, rfl, h2⟩
      · cases e with
        | start => exact .inr ⟨[], t, es, rfl, h2⟩
        | stop => simp [upAfter] at h1
        | clock => exact .inl ⟨h1, fun e he => by rcases List.mem_cons.1 he with rfl | he; · simp
                                                  · exact h2 e he⟩
        | msg m => exact .inl ⟨h1, fun e he => by rcases List.mem_cons.1 he with rfl | he; · simp
                                                  · exact h2 e he⟩
        | flush i p => exact .inl ⟨h1, fun e he => by rcases List.mem_cons.1 he with rfl | he; · simp
                                                      · exact h2 e he⟩
      · exact .inr ⟨(t, e) :: a, u, c, rfl, h2⟩
  rcases this es false (by simpa using hc) with ⟨h1, _⟩ | ⟨a, t, c, h1, h2⟩
  · cases h1
  · exact h a t c h1 h2

/-- Nothing is due of a loop that does not run. -/
theorem over_idle (es : List (ℚ × HostEvent)) (l : ReportLoop) (h : l.running = false → l.due = none) :
    (l.over es).running = false → (l.over es).due = none := by
  induction es generalizing l with
  | nil => exact h
  | cons e es ih =>
    refine ih (l.step e.1 e.2) ?_
    obtain ⟨t, e⟩ := e
    cases e <;> simp only [ReportLoop.step]
    · split
      · exact h
      · intro h'; cases h'
    · split
      · intro _; rfl
      · exact h
    · split
      · rename_i hd
        intro h'
        have := h h'
        simp [ReportLoop.isDue, this] at hd
      · exact h
    · exact h
    · exact h

/-- The calls of a kind since a start, when one loop only makes them. -/
theorem calls_since (env : ℚ → HostMoment) (k : HostReport) (s : ℚ) (p : ℤ) (es : List (ℚ × HostEvent)) :
    ∀ (l : ReportLoop) (before after : List ReportLoop), (∀ l' ∈ before ++ after, l'.report ≠ k) → l.running = true → l.report = k →
    l.period = p → l.startTime = s → ∀ d, l.due = some d → NeverStopped es →
    (hostCalls (timedOps env (before ++ l :: after) es)).filter (fun c => c.2 = k) =
      (callsFrom s p d (clockReadings es)).map fun t => (env t, k) := by
  induction es with
  | nil => intros; simp [timedOps, hostCalls, clockReadings, callsFrom]
  | cons e es ih =>
    intro l before after ho hr hk hlp hst d hd hs
    obtain ⟨t, e⟩ := e
    have hs' : NeverStopped es := fun e he => hs e (List.mem_cons_of_mem _ he)
    have hrun : (l.step t e).running = true := by
      rw [step_running, hr]
      cases e <;> first | rfl | exact absurd rfl (hs _ (List.mem_cons_self ..))
    have ho' : ∀ l' ∈ before.map (fun l => l.step t e) ++ after.map (fun l => l.step t e), l'.report ≠ k := by
      intro l' hl'
      rw [← List.map_append] at hl'
      obtain ⟨l'', h1, rfl⟩ := List.mem_map.1 hl'
      rw [step_report]
      exact ho l'' h1
    have hrec := fun d' hd' hst' => ih (l.step t e) _ _ ho' hrun (by rw [step_report, hk]) (by rw [step_period, hlp]) hst' d' hd' hs'
    rw [timedOps, hostCalls_append, List.filter_append, List.map_append, List.map_cons]
    have hother : ∀ ls : List ReportLoop, (∀ l' ∈ ls, l'.report ≠ k) →
        ((ls.filter fun l => l.isDue t).map fun l => (env t, l.report)).filter (fun c => c.2 = k) = [] := by
      intro ls hls
      rw [List.filter_eq_nil_iff]
      intro c hc
      obtain ⟨l', hl', rfl⟩ := List.mem_map.1 hc
      simpa using hls l' (List.mem_filter.1 hl').1
    cases e with
    | stop => exact absurd rfl (hs _ (List.mem_cons_self ..))
    | start =>
      rw [hrec d (by simp [ReportLoop.step, hr, hd]) (by simp [ReportLoop.step, hr, hst])]
      simp [opsAt, hostCalls, clockReadings]
    | msg m =>
      rw [hrec d (by simp [ReportLoop.step, hd]) (by simp [ReportLoop.step, hst])]
      simp [opsAt, hostCalls, clockReadings]
    | flush i q =>
      rw [hrec d (by simp [ReportLoop.step, hd]) (by simp [ReportLoop.step, hst])]
      simp [opsAt, hostCalls, clockReadings]
    | clock =>
      have h0 : (hostCalls (opsAt env (before ++ l :: after) t .clock)).filter (fun c => c.2 = k) =
          if d ≤ t then [(env t, k)] else [] := by
        rw [opsAt, hostCalls_reports, List.filter_append, List.map_append, List.filter_append,
          hother before fun l' h => ho l' (List.mem_append_left _ h), List.nil_append, List.filter_cons]
        by_cases hdt : d ≤ t
        · rw [if_pos (by simp [ReportLoop.isDue, hd, hdt]), List.map_cons, List.filter_cons, if_pos (by simp [hk]),
            hother after fun l' h => ho l' (List.mem_append_right _ h), if_pos hdt, hk]
        · rw [if_neg (by simp [ReportLoop.isDue, hd, hdt]), hother after fun l' h => ho l' (List.mem_append_right _ h), if_neg hdt]
      rw [h0]
      by_cases hdt : d ≤ t
      · rw [hrec (nextCall s p t) (by simp [ReportLoop.step, ReportLoop.isDue, hd, hdt, ReportLoop.called, hst, hlp])
          (by simp [ReportLoop.step, ReportLoop.isDue, hd, hdt, ReportLoop.called, hst])]
        simp [clockReadings, callsFrom, hdt]
      · rw [hrec d (by simp [ReportLoop.step, ReportLoop.isDue, hd, hdt]) (by simp [ReportLoop.step, ReportLoop.isDue, hd, hdt, hst])]
        simp [clockReadings, callsFrom, hdt]

/-- Without a start no report is made. -/
theorem calls_idle (env : ℚ → HostMoment) (es : List (ℚ × HostEvent)) (h : ∀ e ∈ es, e.2 ≠ .start) : ∀ ls : List ReportLoop,
    (∀ l ∈ ls, l.running = false ∧ l.due = none) → hostCalls (timedOps env ls es) = [] := by
  induction es with
  | nil => intros; rfl
  | cons e es ih =>
    intro ls hl
    obtain ⟨t, e⟩ := e
    have hstep : ∀ l ∈ ls, l.step t e = l := by
      intro l hl'
      obtain ⟨h1, h2⟩ := hl l hl'
      cases e with
      | start => exact absurd rfl (h _ (List.mem_cons_self ..))
      | stop => simp [ReportLoop.step, h1]
      | clock => simp [ReportLoop.step, ReportLoop.isDue, h2]
      | msg m => rfl
      | flush i p => rfl
    rw [timedOps, hostCalls_append, List.map_congr_left (g := id) hstep, List.map_id,
      ih (fun e he => h e (List.mem_cons_of_mem _ he)) ls hl, List.append_nil]
    cases e with
    | start => rfl
    | stop => rfl
    | msg m => rfl
    | flush i p => rfl
    | clock =>
      rw [opsAt, hostCalls_reports, List.filter_eq_nil_iff.2 (fun l hl' => by simp [ReportLoop.isDue, (hl l hl').2])]
      rfl

end Txstatsd
