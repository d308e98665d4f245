import Verif.Spec.Redirect
import Mathlib.Data.List.Induction
set_option linter.unusedSectionVars false
set_option linter.unusedSimpArgs false
set_option linter.unusedVariables false

/-!
# Lemmas on the life of a redirect
-/

namespace Txstatsd
open Spec

theorem Redirect.run_snoc (r : Redirect) (es : List LifeEvent) (e : LifeEvent) : r.run (es ++ [e]) = ((r.run es).step e).1 := by
  simp [Redirect.run, List.foldl_append]

theorem Redirect.run_append (r : Redirect) (a b : List LifeEvent) : r.run (a ++ b) = (r.run a).run b := by
  simp [Redirect.run, List.foldl_append]

theorem Redirect.run_cons (r : Redirect) (e : LifeEvent) (b : List LifeEvent) : r.run (e :: b) = (r.step e).1.run b := rfl

/-- What always holds of a redirect. -/
structure Redirect.Inv (r : Redirect) : Prop where
  up : r.up = true → r.proto.isSome = true ∧ r.running = true ∧ r.pending = false ∧ r.trying = true
  down : r.up = false → ∀ p, r.proto = some p → p.paused = true
  pending : r.pending = true → r.running = true ∧ r.up = false
  called : r.called = if r.proto.isSome then 1 else 0
  callback : r.callback = !r.proto.isSome

theorem redirect_write_paused (p : RedirectProto) (line : Str) (h : p.paused = true) :
    p.write line = ({ p with dropped := p.dropped + 1 }, none) := by simp [RedirectProto.write, h]

theorem redirect_write_flags (p : RedirectProto) (line : Str) : (p.write line).1.paused = p.paused := by
  unfold RedirectProto.write
  split
  · rfl
  · split
    · split
      · rfl
      · split <;> rfl
    · rfl

theorem inv_step {r : Redirect} (h : r.Inv) (e : LifeEvent) : (r.step e).1.Inv := by
  obtain ⟨h1, h2, h3, h4, h5⟩ := h
  obtain ⟨run, try_, pend, up, proto, earl, cb, cl⟩ := r
  simp only at h1 h2 h3 h4 h5
  cases e with
  | start =>
    cases run
    · refine ⟨?_, ?_, ?_, ?_, ?_⟩ <;> simp_all [Redirect.step]
    · exact ⟨h1, h2, h3, h4, h5⟩
  | stop now =>
    cases up
    · refine ⟨?_, ?_, ?_, ?_, ?_⟩ <;> simp_all [Redirect.step]
    · refine ⟨?_, ?_, ?_, ?_, ?_⟩ <;> simp_all [Redirect.step, Redirect.close, RedirectProto.pause]
  | connected =>
    cases pend
    · exact ⟨h1, h2, h3, h4, h5⟩
    · refine ⟨?_, ?_, ?_, ?_, ?_⟩ <;> simp_all [Redirect.step]
      cases proto <;> simp
  | failed =>
    refine ⟨?_, ?_, ?_, ?_, ?_⟩ <;> simp_all [Redirect.step]
  | lost now =>
    cases up
    · exact ⟨h1, h2, h3, h4, h5⟩
    · refine ⟨?_, ?_, ?_, ?_, ?_⟩ <;> simp_all [Redirect.step, Redirect.close, RedirectProto.pause]
  | pause now =>
    cases up
    · exact ⟨h1, h2, h3, h4, h5⟩
    · refine ⟨?_, ?_, ?_, ?_, ?_⟩ <;> simp_all [Redirect.step]
  | resume now =>
    cases up
    · exact ⟨h1, h2, h3, h4, h5⟩
    · cases proto with
      | none => exact ⟨h1, h2, h3, h4, h5⟩
      | some p => exact ⟨h1, h2, h3, h4, h5⟩
  | write line =>
    cases proto with
    | none => exact ⟨h1, h2, h3, h4, h5⟩
    | some p =>
      refine ⟨?_, ?_, ?_, ?_, ?_⟩ <;> simp_all [Redirect.step]
      rw [redirect_write_flags]; exact h2

theorem inv_run (es : List LifeEvent) : (Redirect.run {} es).Inv := by
  induction es using List.reverseRecOn with
  | nil => refine ⟨?_, ?_, ?_, ?_, ?_⟩ <;> simp [Redirect.run]
  | append_singleton es e ih => rw [Redirect.run_snoc]; exact inv_step ih e

/-- The connection is up and has room. -/
def Redirect.open? (r : Redirect) : Bool := r.up && (r.proto.map (!·.paused)).getD false

theorem open_step_interrupts {r : Redirect} (h : r.Inv) {e : LifeEvent} (he : Interrupts e = true) : (r.step e).1.open? = false := by
  obtain ⟨h1, h2, h3, h4, h5⟩ := h
  obtain ⟨run, try_, pend, up, proto, earl, cb, cl⟩ := r
  cases e <;> simp [Interrupts] at he <;> cases up <;> cases proto <;>
    simp [Redirect.step, Redirect.open?, Redirect.close, RedirectProto.pause]

theorem open_step_other {r : Redirect} (h : r.Inv) {e : LifeEvent} (he : Interrupts e = false) (hc : e ≠ .connected) :
    (r.step e).1.open? = r.open? := by
  cases e with
  | start => by_cases hr : r.running <;> simp [Redirect.step, Redirect.open?, hr]
  | stop => simp [Interrupts] at he
  | connected => exact absurd rfl hc
  | failed => rfl
  | lost => simp [Interrupts] at he
  | pause => simp [Interrupts] at he
  | resume now =>
    obtain ⟨run, try_, pend, up, proto, earl, cb, cl⟩ := r
    cases up <;> cases proto <;> rfl
  | write line =>
    obtain ⟨run, try_, pend, up, proto, earl, cb, cl⟩ := r
    cases proto with
    | none => rfl
    | some p => cases up <;> simp [Redirect.step, Redirect.open?, redirect_write_flags]

theorem open_step_connected (r : Redirect) (hp : r.pending = true) : (r.step .connected).1.open? = true := by
  simp [Redirect.step, Redirect.open?, hp]

theorem step_connected_idle (r : Redirect) (hp : r.pending = false) : (r.step .connected).1 = r := by
  simp [Redirect.step, hp]

theorem open_up {r : Redirect} (h : r.open? = true) : r.up = true := by
  simp only [Redirect.open?, Bool.and_eq_true] at h
  exact h.1

theorem open_step {r : Redirect} (h : r.Inv) {e : LifeEvent} (he : Interrupts e = false) (ho : r.open? = true) :
    (r.step e).1.open? = true := by
  by_cases hc : e = .connected
  · subst hc
    rw [step_connected_idle _ (h.up (open_up ho)).2.2.1]; exact ho
  · rw [open_step_other h he hc]; exact ho

theorem open_iff (es : List LifeEvent) : Open es ↔ (Redirect.run {} es).open? = true := by
  constructor
  · rintro ⟨a, b, rfl, hp, hi⟩
    rw [Redirect.run_append, Redirect.run_cons]
    have h0 : ((Redirect.run {} a).step .connected).1.open? = true := open_step_connected _ hp
    have hinv : ((Redirect.run {} a).step .connected).1.Inv := inv_step (inv_run a) _
    generalize ((Redirect.run {} a).step .connected).1 = r at h0 hinv
    induction b generalizing r with
    | nil => exact h0
    | cons e b ih =>
      rw [Redirect.run_cons]
      exact ih (fun e he => hi e (List.mem_cons_of_mem _ he)) _ (open_step hinv (hi e List.mem_cons_self) h0) (inv_step hinv e)
  · induction es using List.reverseRecOn with
    | nil => intro h; simp [Redirect.run, Redirect.open?] at h
    | append_singleton es e ih =>
      intro h
      rw [Redirect.run_snoc] at h
      by_cases hi : Interrupts e = true
      · rw [open_step_interrupts (inv_run es) hi] at h; simp at h
      · have hi' : Interrupts e = false := by simpa using hi
        have hgo : (Redirect.run {} es).open? = true → Open (es ++ [e]) := by
          intro h
          obtain ⟨a, b, rfl, hp, hib⟩ := ih h
          refine ⟨a, b ++ [e], by simp, hp, ?_⟩
          intro x hx; rcases List.mem_append.1 hx with hx | hx
          · exact hib x hx
          · rw [List.mem_singleton.1 hx]; exact hi'
        by_cases hc : e = .connected
        · subst hc
          by_cases hp : (Redirect.run {} es).pending = true
          · exact ⟨es, [], rfl, hp, by simp⟩
          · rw [step_connected_idle _ (by simpa using hp)] at h
            exact hgo h
        · rw [open_step_other (inv_run es) hi' hc] at h
          exact hgo h

theorem proto_step_some (r : Redirect) (e : LifeEvent) (h : r.proto.isSome = true) : (r.step e).1.proto.isSome = true := by
  obtain ⟨run, try_, pend, up, proto, earl, cb, cl⟩ := r
  cases proto with
  | none => simp at h
  | some p => cases e <;> cases up <;> cases pend <;> cases run <;> simp [Redirect.step, Redirect.close]

theorem proto_step_none (r : Redirect) (e : LifeEvent) (h : r.proto.isSome = false) (hc : e ≠ .connected ∨ r.pending = false) :
    (r.step e).1.proto.isSome = false := by
  obtain ⟨run, try_, pend, up, proto, earl, cb, cl⟩ := r
  cases proto with
  | some p => simp at h
  | none => cases e <;> cases up <;> cases pend <;> cases run <;> simp_all [Redirect.step, Redirect.close]

theorem everUp_iff (es : List LifeEvent) : EverUp es ↔ (Redirect.run {} es).proto.isSome = true := by
  induction es using List.reverseRecOn with
  | nil => simp [EverUp, Redirect.run]
  | append_singleton es e ih =>
    rw [Redirect.run_snoc]
    constructor
    · rintro ⟨a, b, hab, hp⟩
      rcases List.eq_nil_or_concat b with rfl | ⟨b', x, rfl⟩
      · have := List.append_inj' hab rfl
        obtain ⟨rfl, h2⟩ := this
        simp at h2; subst h2
        simp [Redirect.step, hp]
      · rw [List.concat_eq_append, ← List.cons_append, ← List.append_assoc] at hab
        obtain ⟨h1, -⟩ := List.append_inj' hab rfl
        exact proto_step_some _ _ (ih.1 ⟨a, b', h1, hp⟩)
    · intro h
      by_cases hs : (Redirect.run {} es).proto.isSome = true
      · obtain ⟨a, b, rfl, hp⟩ := ih.2 hs
        exact ⟨a, b ++ [e], by simp, hp⟩
      · by_cases hc : e = .connected ∧ (Redirect.run {} es).pending = true
        · exact ⟨es, [], by rw [hc.1], hc.2⟩
        · rw [proto_step_none _ _ (by simpa using hs) (by
            by_cases h1 : e = .connected
            · right; simpa using fun h2 => hc ⟨h1, h2⟩
            · exact .inl h1)] at h
          simp at h

/-- A line goes to an open connection. -/
theorem write_open {p : RedirectProto} (hp : p.paused = false) {line t : Str} (hl : line ≠ []) (hb : Body line t) :
    p.write line = ({ p with wire := p.wire ++ (t ++ crlf) }, none) := by
  have hlast : ∀ (x : Str) (a b : Char), lastTwo (x ++ [a, b]) = [a, b] := by
    intro x a b; simp [lastTwo]
  rcases hb with rfl | rfl | ⟨rfl, h1, h2⟩
  · simp [RedirectProto.write, hp, hlast]
  · have h3 : lastTwo (t ++ ['\r']) ≠ ['\r', '\n'] := by
      intro h
      have : (t ++ ['\r']).getLast? = some '\n' := by
        have h' : ['\r', '\n'] <:+ t ++ ['\r'] := by rw [← h]; exact List.drop_suffix _ _
        obtain ⟨u, hu⟩ := h'
        rw [← hu]; simp
      simp at this
    simp [RedirectProto.write, hp, h3]
  · have h3 : lastTwo line ≠ ['\r', '\n'] := by
      intro h; exact h1 (by rw [crlf, ← h]; exact List.drop_suffix _ _)
    have h4 : line.getLast? = some (line.getLast hl) := List.getLast?_eq_some_getLast hl
    have h5 : line.getLast hl ≠ '\r' := by
      intro h
      apply h2
      refine ⟨line.dropLast, ?_⟩
      rw [← h]; exact List.dropLast_append_getLast hl
    simp [RedirectProto.write, hp, h3, h4, h5]

theorem step_quiet (r : Redirect) (e : LifeEvent) (h : ∀ l, e ≠ .write l) :
    (taken (r.step e).1).flatten = (taken r).flatten ∧ droppedBy (r.step e).1 = droppedBy r := by
  obtain ⟨run, try_, pend, up, proto, earl, cb, cl⟩ := r
  cases e with
  | write l => exact absurd rfl (h l)
  | _ => cases proto <;> cases up <;> cases pend <;> cases run <;>
      simp [Redirect.step, Redirect.close, taken, droppedBy, RedirectProto.pause, RedirectProto.resume]

end Txstatsd
