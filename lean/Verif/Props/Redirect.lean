import Verif.Lemmas.Redirect

/-!
# C121: the life of a TCP redirect (server/router.py:71-161)
-/

namespace Txstatsd
open Spec

/-! ## C121 -/

/-- C121: where a redirected line goes. While a connection is open and has room, the line, ended by CRLF, is appended to what that
connection takes and nothing is counted. If there was a connection but it is gone or full, the line is counted as dropped and
nothing is sent, now or later. Before the first connection the line leaves no trace. -/
theorem C121_fate (es : List LifeEvent) (line t : Str) (hl : line ≠ []) (hb : Body line t) :
    let r := Redirect.run {} es
    let r' := Redirect.run {} (es ++ [.write line])
    (Open es → ∃ before last, taken r = before ++ [last] ∧ taken r' = before ++ [last ++ (t ++ crlf)] ∧ droppedBy r' = droppedBy r) ∧
    (¬ Open es → EverUp es → taken r' = taken r ∧ droppedBy r' = droppedBy r + 1) ∧
    (¬ EverUp es → r' = r) := by
  intro r r'
  have hr' : r' = (r.step (.write line)).1 := Redirect.run_snoc _ _ _
  have hinv : r.Inv := inv_run es
  rw [open_iff, everUp_iff, hr']
  show (r.open? = true → _) ∧ (¬ r.open? = true → r.proto.isSome = true → _) ∧ (¬ r.proto.isSome = true → _)
  clear_value r
  obtain ⟨run, try_, pend, up, proto, earl, cb, cl⟩ := r
  cases proto with
  | none => simp [Redirect.open?, Redirect.step]
  | some p =>
    cases hp : p.paused with
    | true =>
      simp [Redirect.open?, hp, Redirect.step, redirect_write_paused _ _ hp, taken, droppedBy]
      omega
    | false =>
      have hu : up = true := by
        by_contra hu
        have := hinv.down (by simpa using hu) p rfl
        rw [hp] at this; simp at this
      subst hu
      simp [Redirect.open?, hp, Redirect.step, write_open hp hl hb, taken, droppedBy]

/-- C121: nothing else moves lines or counts: connections, losses, starts and stops send nothing and drop nothing, so a line that
was not sent at once is never sent. -/
theorem C121_only_writes (es : List LifeEvent) (e : LifeEvent) (he : ∀ l, e ≠ .write l) :
    (taken (Redirect.run {} (es ++ [e]))).flatten = (taken (Redirect.run {} es)).flatten ∧
    droppedBy (Redirect.run {} (es ++ [e])) = droppedBy (Redirect.run {} es) := by
  rw [Redirect.run_snoc]
  exact step_quiet _ _ he

/-- C121: the ready callback is scheduled once, with the first connection, and never again. -/
theorem C121_ready (es : List LifeEvent) :
    (EverUp es → (Redirect.run {} es).called = 1) ∧ (¬ EverUp es → (Redirect.run {} es).called = 0) := by
  rw [everUp_iff, (inv_run es).called]
  constructor
  · intro h; rw [if_pos h]
  · intro h; rw [if_neg h]

/-- C121: after the service is stopped nothing is sent any more and no attempt to connect is made, until it is started again. -/
theorem C121_stopped (es after : List LifeEvent) (now : ℤ) (h : LifeEvent.start ∉ after) :
    taken (Redirect.run {} (es ++ .stop now :: after)) = taken (Redirect.run {} es) ∧
    (Redirect.run {} (es ++ .stop now :: after)).pending = false ∧ (Redirect.run {} (es ++ .stop now :: after)).up = false := by
  rw [Redirect.run_append, Redirect.run_cons]
  have h0 : taken ((Redirect.run {} es).step (.stop now)).1 = taken (Redirect.run {} es) ∧
      ((Redirect.run {} es).step (.stop now)).1.pending = false ∧ ((Redirect.run {} es).step (.stop now)).1.up = false := by
    generalize Redirect.run {} es = r
    obtain ⟨run, try_, pend, up, proto, earl, cb, cl⟩ := r
    cases up <;> cases proto <;> simp [Redirect.step, Redirect.close, taken, RedirectProto.pause]
  have hinv : ((Redirect.run {} es).step (.stop now)).1.Inv := inv_step (inv_run es) _
  rw [← h0.1]
  have h1 := h0.2
  clear h0
  generalize ((Redirect.run {} es).step (.stop now)).1 = r at h1 hinv
  induction after generalizing r with
  | nil => exact ⟨rfl, h1⟩
  | cons e after ih =>
    have hs : taken (r.step e).1 = taken r ∧ (r.step e).1.pending = false ∧ (r.step e).1.up = false := by
      have hd := hinv.down h1.2
      obtain ⟨run, try_, pend, up, proto, earl, cb, cl⟩ := r
      obtain ⟨rfl, rfl⟩ := h1
      cases e with
      | start => exact absurd List.mem_cons_self h
      | write line =>
        cases proto with
        | none => simp [Redirect.step]
        | some p => simp [Redirect.step, taken, redirect_write_paused _ _ (hd p rfl)]
      | _ => simp [Redirect.step, taken]
    rw [Redirect.run_cons, ← hs.1]
    exact ih (fun hm => h (List.mem_cons_of_mem _ hm)) _ hs.2 (inv_step hinv e)

/-- C121: an outage heals. When an open connection is lost the factory tries again, however many attempts fail, and the next success
opens a connection; the lines written in between are on no connection. -/
theorem C121_recovers (es out : List LifeEvent) (now : ℤ) (ho : Open es) (h : ∀ e ∈ out, e = .failed ∨ ∃ l, e = .write l) :
    Open (es ++ .lost now :: out ++ [.connected]) ∧
    (taken (Redirect.run {} (es ++ .lost now :: out ++ [.connected]))).flatten = (taken (Redirect.run {} es)).flatten := by
  have hkey : ∀ out : List LifeEvent, (∀ e ∈ out, e = .failed ∨ ∃ l, e = .write l) →
      let r := Redirect.run {} (es ++ .lost now :: out)
      r.pending = true ∧ r.trying = true ∧ (taken r).flatten = (taken (Redirect.run {} es)).flatten := by
    intro out
    induction out using List.reverseRecOn with
    | nil =>
      intro _ r
      have hr : r = ((Redirect.run {} es).step (.lost now)).1 := Redirect.run_snoc _ _ _
      have hup := open_up ((open_iff es).1 ho)
      have hinv := (inv_run es).up hup
      rw [hr]
      refine ⟨?_, ?_, (step_quiet _ _ (by simp)).1⟩
      · simp [Redirect.step, hup, Redirect.close, hinv.2.2.2]
      · simp [Redirect.step, hup, Redirect.close, hinv.2.2.2]
    | append_singleton out e ih =>
      intro h r
      have hr : r = ((Redirect.run {} (es ++ .lost now :: out)).step e).1 := by
        show Redirect.run {} _ = _
        rw [← Redirect.run_snoc]; simp
      obtain ⟨i1, i2, i3⟩ := ih (fun e he => h e (List.mem_append_left _ he))
      have hinv := inv_run (es ++ .lost now :: out)
      rw [hr, ← i3]
      have hd := hinv.down (hinv.pending i1).2
      clear hr i3 r
      generalize Redirect.run {} (es ++ .lost now :: out) = q at i1 i2 hd
      obtain ⟨run, try_, pend, up, proto, earl, cb, cl⟩ := q
      simp only at i1 i2 hd
      rcases h e (by simp) with rfl | ⟨l, rfl⟩
      · simp [Redirect.step, i1, i2, taken]
      · cases proto with
        | none => simp [Redirect.step, i1, i2]
        | some p => simp [Redirect.step, taken, redirect_write_paused _ _ (hd p rfl), i1, i2]
  obtain ⟨h1, h2, h3⟩ := hkey out h
  refine ⟨⟨es ++ .lost now :: out, [], rfl, h1, by simp⟩, ?_⟩
  rw [Redirect.run_snoc, ← h3]
  exact (step_quiet _ _ (by simp)).1

/-- C121: what never fails to hold without a stop: a started service is connected or tries to connect. -/
theorem C121_persists_partial (es : List LifeEvent) (h : ∀ now, LifeEvent.stop now ∉ es) (hr : (Redirect.run {} es).running = true) :
    (Redirect.run {} es).up = true ∨ (Redirect.run {} es).pending = true := by
  have hkey : (Redirect.run {} es).trying = true ∧ ((Redirect.run {} es).running = true →
      (Redirect.run {} es).up = true ∨ (Redirect.run {} es).pending = true) := by
    clear hr
    induction es using List.reverseRecOn with
    | nil => simp [Redirect.run]
    | append_singleton es e ih =>
      obtain ⟨i1, i2⟩ := ih (fun now hm => h now (List.mem_append_left _ hm))
      rw [Redirect.run_snoc]
      generalize Redirect.run {} es = r at i1 i2
      obtain ⟨run, try_, pend, up, proto, earl, cb, cl⟩ := r
      simp only at i1 i2
      subst i1
      cases e with
      | stop now => exact absurd (by simp) (h now)
      | _ => cases run <;> cases up <;> cases pend <;> cases proto <;> simp_all [Redirect.step, Redirect.close]
  exact hkey.2 hr

/-- C121 is false in two points. A line that was not sent need not be counted as dropped: one that comes before the first connection
is not. -/
theorem C121_counted_refuted : ¬ ∀ (es : List LifeEvent) (line : Str), line ≠ [] → ¬ Open es →
    droppedBy (Redirect.run {} (es ++ [.write line])) = droppedBy (Redirect.run {} es) + 1 := by
  intro h
  exact absurd (h [.start] c!"a:1|c" (by decide) (by rw [open_iff]; decide)) (by decide)

/-- And a service that was stopped and started again gives up at the first failing attempt. -/
theorem C121_persists_refuted : ¬ ∀ (es : List LifeEvent), (Redirect.run {} es).running = true →
    (Redirect.run {} es).up = true ∨ (Redirect.run {} es).pending = true := by
  intro h
  exact absurd (h [.start, .connected, .stop 5, .start, .failed] (by decide)) (by decide)

/-! ### Examples -/

example : Open [.start, .failed, .connected, .write c!"a:1|c"] := (open_iff _).2 (by decide)

example : taken (Redirect.run {} [.start, .write c!"z", .connected, .write c!"a:1|c", .lost 5, .write c!"b", .failed, .connected, .write c!"c\r"])
    = [c!"a:1|c\r\n", c!"c\r\n"] := by decide

example : Body c!"a:1|c" c!"a:1|c" := .inr (.inr ⟨rfl, by decide, by decide⟩)

example : (Redirect.run {} [.start, .connected, .lost 5, .connected]).called = 1 := by decide

example : LifeEvent.start ∉ [LifeEvent.failed, .connected, .write c!"a"] := by decide

example : (Redirect.run {} [.start, .failed, .failed]).pending = true := by decide

end Txstatsd
