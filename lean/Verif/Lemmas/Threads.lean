import Verif.Spec.Threads
import Mathlib.Algebra.BigOperators.Group.List.Basic
import Mathlib.Data.List.Count
import Mathlib.Tactic.Ring

set_option linter.unusedSectionVars false
set_option linter.unusedSimpArgs false
set_option linter.unusedVariables false

namespace Txstatsd
namespace Threaded

theorem count_modify (a m : Msg) : ∀ (ls : List (List Msg)) (l : Nat), l < ls.length →
    (ls.modify l (· ++ [m])).flatten.count a = ls.flatten.count a + [m].count a := by
  intro ls
  induction ls with
  | nil => intro l h; simp at h
  | cons x ls ih =>
    intro l h
    cases l with
    | zero => simp only [List.modify_zero_cons, List.flatten_cons, List.count_append]; omega
    | succ l =>
      simp only [List.modify_succ_cons, List.flatten_cons, List.count_append]
      rw [ih l (by simpa using h)]; omega

theorem count_set (a m : Msg) : ∀ (ls : List (List Msg)) (l : Nat) (ms : List Msg), ls[l]? = some (m :: ms) →
    (ls.set l ms).flatten.count a + [m].count a = ls.flatten.count a := by
  intro ls
  induction ls with
  | nil => intro l ms h; simp at h
  | cons x ls ih =>
    intro l ms h
    cases l with
    | zero =>
      simp only [List.getElem?_cons_zero, Option.some.injEq] at h
      subst h
      simp only [List.set_cons_zero, List.flatten_cons, List.count_append, List.count_cons, List.count_nil]; omega
    | succ l =>
      simp only [List.getElem?_cons_succ] at h
      simp only [List.set_cons_succ, List.flatten_cons, List.count_append]
      rw [← ih l ms h]; omega

theorem count_threads (a : Msg) (new : WritePc) : ∀ (ts : List WritePc) (i : Nat) (old : WritePc), ts[i]? = some old →
    ((ts.set i new).flatMap WritePc.held).count a + old.held.count a = (ts.flatMap WritePc.held).count a + new.held.count a := by
  intro ts
  induction ts with
  | nil => intro i old h; simp at h
  | cons x ts ih =>
    intro i old h
    cases i with
    | zero =>
      simp only [List.getElem?_cons_zero, Option.some.injEq] at h
      subst h
      simp only [List.set_cons_zero, List.flatMap_cons, List.count_append]; omega
    | succ i =>
      simp only [List.getElem?_cons_succ] at h
      simp only [List.set_cons_succ, List.flatMap_cons, List.count_append]
      have := ih i old h
      omega

/-- The list objects referred to exist. -/
structure Valid (c : Threaded) : Prop where
  queue : c.queue < c.lists.length
  append : ∀ l m, WritePc.append l m ∈ c.threads → l < c.lists.length

theorem mem_set {ts : List WritePc} {i : Nat} {new x : WritePc} (h : x ∈ ts.set i new) : x = new ∨ x ∈ ts := by
  rcases List.mem_or_eq_of_mem_set h with h | h
  · exact Or.inr h
  · exact Or.inl h

theorem valid_goto {c : Threaded} (h : Valid c) (i : Nat) (pc : WritePc) (hpc : ∀ l m, pc = .append l m → l < c.lists.length) :
    Valid (c.goto i pc) := by
  refine ⟨h.queue, fun l m hm => ?_⟩
  rcases mem_set hm with h1 | h1
  · exact hpc l m h1.symm
  · exact h.append l m h1

theorem valid_push {c : Threaded} (h : Valid c) (l : Nat) (m : Msg) : Valid (c.push l m) := by
  refine ⟨by simpa [push] using h.queue, fun l' m' hm => ?_⟩
  have := h.append l' m' hm
  simpa [push] using this

theorem valid_writeHere {c : Threaded} (h : Valid c) (m : Msg) : Valid (c.writeHere m) := by
  unfold writeHere
  split
  · exact ⟨h.queue, h.append⟩
  · split
    · exact valid_push h _ _
    · exact ⟨h.queue, h.append⟩

theorem valid_advance {c : Threaded} (h : Valid c) (i : Nat) : Valid (c.advance i) := by
  unfold advance
  split
  · exact h
  · exact h
  · exact valid_goto h _ _ (by intro l m; split <;> simp)
  · exact valid_goto h _ _ (by intro l m; split <;> simp)
  · split
    · exact valid_goto h _ _ (by simp)
    · exact valid_goto h _ _ (by simp)
  · have := valid_goto h i .idle (by simp)
    exact ⟨this.queue, this.append⟩
  · split
    · exact valid_goto h _ _ (by simp)
    · have := valid_goto h i .idle (by simp)
      exact ⟨this.queue, this.append⟩
  · exact valid_goto h _ _ (by intro l m h1; simp only [WritePc.append.injEq] at h1; exact h1.1 ▸ h.queue)
  · exact valid_push (valid_goto h _ _ (by simp)) _ _

theorem valid_react {c : Threaded} (h : Valid c) : Valid c.react := by
  unfold react
  split
  · exact h
  · exact ⟨h.queue, h.append⟩
  · split <;> exact ⟨h.queue, h.append⟩
  · exact ⟨h.queue, h.append⟩
  · next m rest _ => exact valid_writeHere (c := { c with prog := rest, begun := c.begun ++ [m] }) ⟨h.queue, h.append⟩ _
  · exact ⟨h.queue, h.append⟩
  · refine ⟨by simp, fun l m hm => ?_⟩
    have := h.append l m hm
    simp only [List.length_append, List.length_singleton]; omega
  · split
    · refine valid_writeHere ⟨by simpa using h.queue, fun l m hm => ?_⟩ _
      simpa using h.append l m hm
    · exact ⟨h.queue, h.append⟩
  · split
    · exact ⟨h.queue, h.append⟩
    · split <;> exact ⟨h.queue, h.append⟩

theorem valid_step {c : Threaded} (h : Valid c) (e : Ev) : Valid (c.step e) := by
  cases e with
  | «begin» i m =>
    unfold step
    simp only
    split
    · have := valid_goto h i (.testGateway m) (by simp)
      exact ⟨this.queue, this.append⟩
    · exact h
  | advance i => exact valid_advance h i
  | call k =>
    unfold step
    simp only
    split
    · exact ⟨h.queue, h.append⟩
    · exact h
  | react => exact valid_react h

theorem valid_run {c : Threaded} (h : Valid c) (es : List Ev) : Valid (c.run es) := by
  induction es generalizing c with
  | nil => exact h
  | cons e es ih => exact ih (valid_step h e)

theorem valid_init (limit n : Nat) : Valid (init limit n) := by
  refine ⟨by simp [init], fun l m h => ?_⟩
  simp only [init] at h
  have := List.eq_of_mem_replicate h
  cases this

/-! ## Conservation -/

/-- The balance of one message. -/
def Balance (a : Msg) (c : Threaded) : Prop := c.begun.count a = c.everywhere.count a

theorem balance_iff (a : Msg) (c : Threaded) : Balance a c ↔ c.begun.count a =
    c.sent.count a + c.failed.count a + (c.scheduled.map (·.2)).count a + c.lists.flatten.count a + c.dropped.count a +
    (c.threads.flatMap WritePc.held).count a := by
  simp only [Balance, everywhere, List.count_append]

theorem balance_push {a : Msg} {c : Threaded} (l : Nat) (m : Msg) (hl : l < c.lists.length)
    (h : c.begun.count a = c.everywhere.count a + [m].count a) : Balance a (c.push l m) := by
  rw [balance_iff]
  simp only [everywhere, List.count_append] at h
  simp only [push, count_modify a m c.lists l hl]
  omega

theorem balance_writeHere {a : Msg} {c : Threaded} (hv : Valid c) (m : Msg)
    (h : c.begun.count a = c.everywhere.count a + [m].count a) : Balance a (c.writeHere m) := by
  unfold writeHere
  split
  · rw [balance_iff]
    simp only [everywhere, List.count_append] at h
    simp only [List.map_append, List.map_cons, List.map_nil, List.count_append]
    omega
  · split
    · exact balance_push _ _ hv.queue h
    · rw [balance_iff]
      simp only [everywhere, List.count_append] at h
      simp only [List.count_append]
      omega

theorem balance_goto {a : Msg} {c : Threaded} (i : Nat) (old new : WritePc) (ho : c.threads[i]? = some old) (hh : new.held = old.held)
    (h : Balance a c) : Balance a (c.goto i new) := by
  rw [balance_iff] at h ⊢
  have := count_threads a new c.threads i old ho
  rw [hh] at this
  simp only [goto]
  omega

theorem balance_advance {a : Msg} {c : Threaded} (hv : Valid c) (h : Balance a c) (i : Nat) : Balance a (c.advance i) := by
  unfold advance
  split
  · exact h
  · exact h
  · next m ho => exact balance_goto i _ _ ho (by split <;> rfl) h
  · next m ho => exact balance_goto i _ _ ho (by split <;> rfl) h
  · next m ho =>
    split
    · exact balance_goto i _ _ ho rfl h
    · exact balance_goto i _ _ ho rfl h
  · next g m ho =>
    rw [balance_iff] at h ⊢
    have := count_threads a .idle c.threads i _ ho
    simp only [WritePc.held, List.count_nil] at this
    simp only [goto, List.map_append, List.map_cons, List.map_nil, List.count_append]
    omega
  · next m ho =>
    split
    · exact balance_goto i _ _ ho rfl h
    · rw [balance_iff] at h ⊢
      have := count_threads a .idle c.threads i _ ho
      simp only [WritePc.held, List.count_nil] at this
      simp only [goto, List.count_append]
      omega
  · next m ho => exact balance_goto i _ _ ho rfl h
  · next l m ho =>
    refine balance_push l m (hv.append l m (List.mem_of_getElem? ho)) ?_
    rw [balance_iff] at h
    have := count_threads a .idle c.threads i _ ho
    simp only [WritePc.held, List.count_nil] at this
    simp only [everywhere, goto, List.count_append]
    omega

theorem balance_react {a : Msg} {c : Threaded} (hv : Valid c) (h : Balance a c) : Balance a c.react := by
  unfold react
  split
  · exact h
  · exact h
  · split <;> exact h
  · exact h
  · next m rest _ =>
    refine balance_writeHere (c := { c with prog := rest, begun := c.begun ++ [m] }) ⟨hv.queue, hv.append⟩ _ ?_
    rw [balance_iff] at h
    simp only [everywhere, List.count_append]
    omega
  · exact h
  · rw [balance_iff] at h ⊢
    simpa using h
  · next l rest hp =>
    split
    · next m ms hl =>
      refine balance_writeHere (c := { c with lists := c.lists.set l ms }) ⟨by simpa using hv.queue, fun l m hm => by simpa using hv.append l m hm⟩ _ ?_
      rw [balance_iff] at h
      have := count_set a m c.lists _ ms hl
      simp only [everywhere, List.count_append]
      omega
    · exact h
  · split
    · exact h
    · next g m more hs =>
      rw [balance_iff] at h
      rw [hs] at h
      simp only [List.map_cons, List.count_cons] at h
      split
      · rw [balance_iff]
        simp only [List.count_append, List.count_cons, List.count_nil]
        omega
      · rw [balance_iff]
        simp only [List.count_append, List.count_cons, List.count_nil]
        omega

theorem balance_step {a : Msg} {c : Threaded} (hv : Valid c) (h : Balance a c) (e : Ev) : Balance a (c.step e) := by
  cases e with
  | «begin» i m =>
    unfold step
    simp only
    split
    · next ho =>
      rw [balance_iff] at h ⊢
      have := count_threads a (.testGateway m) c.threads i _ ho
      simp only [WritePc.held, List.count_nil] at this
      simp only [goto, List.count_append]
      omega
    · exact h
  | advance i => exact balance_advance hv h i
  | call k =>
    unfold step
    simp only
    split <;> exact h
  | react => exact balance_react hv h

theorem balance_run {a : Msg} {c : Threaded} (hv : Valid c) (h : Balance a c) (es : List Ev) : Balance a (c.run es) := by
  induction es generalizing c with
  | nil => exact h
  | cons e es ih => exact ih (valid_step hv e) (balance_step hv h e)

theorem balance_init (a : Msg) (limit n : Nat) : Balance a (init limit n) := by
  rw [balance_iff]
  have : (List.replicate n WritePc.idle).flatMap WritePc.held = [] := by
    induction n with
    | zero => rfl
    | succ n ih => rw [List.replicate_succ, List.flatMap_cons, ih]; rfl
  simp [init, this]

/-! ## The limit -/

/-- A write that has passed the length test of the current queue. -/
def pending (q : Nat) : WritePc → Nat
  | .getQueue _ => 1
  | .append l _ => if l = q then 1 else 0
  | _ => 0

/-- The number of such writes. -/
def passed (c : Threaded) : Nat := (c.threads.map (pending c.queue)).sum

theorem pending_le (q : Nat) (pc : WritePc) : pending q pc ≤ 1 := by
  cases pc <;> simp only [pending] <;> first | omega | (split <;> omega)

theorem sum_pending_le (q : Nat) (ts : List WritePc) : (ts.map (pending q)).sum ≤ ts.length := by
  induction ts with
  | nil => simp
  | cons t ts ih =>
    have := pending_le q t
    simp only [List.map_cons, List.sum_cons, List.length_cons]; omega

theorem sum_set (q : Nat) (new : WritePc) : ∀ (ts : List WritePc) (i : Nat) (old : WritePc), ts[i]? = some old →
    ((ts.set i new).map (pending q)).sum + pending q old = (ts.map (pending q)).sum + pending q new := by
  intro ts
  induction ts with
  | nil => intro i old h; simp at h
  | cons x ts ih =>
    intro i old h
    cases i with
    | zero =>
      simp only [List.getElem?_cons_zero, Option.some.injEq] at h
      subst h
      simp only [List.set_cons_zero, List.map_cons, List.sum_cons]; omega
    | succ i =>
      simp only [List.getElem?_cons_succ] at h
      simp only [List.set_cons_succ, List.map_cons, List.sum_cons]
      have := ih i old h
      omega

/-- The queue is not longer than allowed, counting the writes that have passed the test. -/
structure Bound (limit n : Nat) (c : Threaded) : Prop where
  threads : c.threads.length = n
  lim : c.limit = limit
  le : c.queueLength + c.passed ≤ limit + n

theorem passed_le {limit n : Nat} {c : Threaded} (h : c.threads.length = n) : c.passed ≤ n := h ▸ sum_pending_le _ _

theorem queueLength_push (c : Threaded) (l : Nat) (m : Msg) :
    (c.push l m).queueLength ≤ c.queueLength + if l = c.queue then 1 else 0 := by
  unfold queueLength push
  simp only
  rw [List.getElem?_modify]
  split
  · next h =>
    subst h
    cases c.lists[c.queue]? <;> simp
  · simp

theorem bound_goto {limit n : Nat} {c : Threaded} (h : Bound limit n c) {i : Nat} {old : WritePc} (ho : c.threads[i]? = some old) (new : WritePc)
    (hp : pending c.queue new ≤ pending c.queue old) : Bound limit n (c.goto i new) := by
  refine ⟨by simpa [goto] using h.threads, h.lim, ?_⟩
  have := sum_set c.queue new c.threads i old ho
  have h2 := h.le
  show c.queueLength + ((c.threads.set i new).map (pending c.queue)).sum ≤ _
  unfold passed at h2
  omega

theorem bound_writeHere {limit n : Nat} {c : Threaded} (h : Bound limit n c) (m : Msg) : Bound limit n (c.writeHere m) := by
  unfold writeHere
  split
  · exact ⟨h.threads, h.lim, h.le⟩
  · split
    · next hlt =>
      refine ⟨h.threads, h.lim, ?_⟩
      have h1 := queueLength_push c c.queue m
      have h2 : (c.push c.queue m).passed ≤ n := passed_le (limit := limit) h.threads
      rw [if_pos rfl] at h1
      have := h.lim
      omega
    · exact ⟨h.threads, h.lim, h.le⟩

theorem bound_advance {limit n : Nat} {c : Threaded} (h : Bound limit n c) (i : Nat) : Bound limit n (c.advance i) := by
  unfold advance
  split
  · exact h
  · exact h
  · next m ho => exact bound_goto h ho _ (by split <;> simp [pending])
  · next m ho => exact bound_goto h ho _ (by split <;> simp [pending])
  · next m ho =>
    split
    · exact bound_goto h ho _ (by simp [pending])
    · exact bound_goto h ho _ (by simp [pending])
  · next g m ho =>
    have := bound_goto h ho .idle (by simp [pending])
    exact ⟨this.threads, this.lim, this.le⟩
  · next m ho =>
    split
    · next hlt =>
      refine ⟨by simpa [goto] using h.threads, h.lim, ?_⟩
      have h2 : (c.goto i (.getQueue m)).passed ≤ n := passed_le (limit := limit) (by simpa [goto] using h.threads)
      have h3 : (c.goto i (.getQueue m)).queueLength = c.queueLength := rfl
      have := h.lim
      omega
    · have := bound_goto h ho .idle (by simp [pending])
      exact ⟨this.threads, this.lim, this.le⟩
  · next m ho => exact bound_goto h ho _ (by simp [pending])
  · next l m ho =>
    refine ⟨by simpa [goto, push] using h.threads, h.lim, ?_⟩
    have h1 := queueLength_push (c.goto i .idle) l m
    have h3 : (c.goto i .idle).queueLength = c.queueLength := rfl
    have h4 := sum_set c.queue .idle c.threads i _ ho
    have h5 : ((c.goto i .idle).push l m).passed = ((c.threads.set i .idle).map (pending c.queue)).sum := rfl
    have h6 := h.le
    have h7 : (c.goto i .idle).queue = c.queue := rfl
    unfold passed at h6
    simp only [pending] at h4
    rw [h7] at h1
    omega

theorem queueLength_set (c : Threaded) (l : Nat) (m : Msg) (ms : List Msg) (h : c.lists[l]? = some (m :: ms)) :
    ({ c with lists := c.lists.set l ms } : Threaded).queueLength ≤ c.queueLength := by
  unfold queueLength
  simp only
  rw [List.getElem?_set]
  split
  · next hl =>
    subst hl
    split <;> simp [h]
  · exact Nat.le_refl _

theorem bound_react {limit n : Nat} {c : Threaded} (h : Bound limit n c) : Bound limit n c.react := by
  unfold react
  split
  · exact h
  · exact ⟨h.threads, h.lim, h.le⟩
  · split <;> exact ⟨h.threads, h.lim, h.le⟩
  · exact ⟨h.threads, h.lim, h.le⟩
  · next m rest _ => exact bound_writeHere (c := { c with prog := rest, begun := c.begun ++ [m] }) ⟨h.threads, h.lim, h.le⟩ _
  · exact ⟨h.threads, h.lim, h.le⟩
  · refine ⟨h.threads, h.lim, ?_⟩
    have h2 := sum_pending_le c.lists.length c.threads
    have := h.threads
    simp only [queueLength, passed, List.getElem?_append_right (Nat.le_refl _), Nat.sub_self]
    simp only [List.getElem?_cons_zero, Option.getD_some, List.length_nil]
    omega
  · next l rest hp =>
    split
    · next m ms hl =>
      refine bound_writeHere (c := { c with lists := c.lists.set l ms }) ⟨h.threads, h.lim, ?_⟩ _
      have h1 := queueLength_set c _ m ms hl
      have h2 := h.le
      exact Nat.le_trans (Nat.add_le_add_right h1 _) h2
    · exact ⟨h.threads, h.lim, h.le⟩
  · split
    · exact ⟨h.threads, h.lim, h.le⟩
    · split <;> exact ⟨h.threads, h.lim, h.le⟩

theorem bound_step {limit n : Nat} {c : Threaded} (h : Bound limit n c) (e : Ev) : Bound limit n (c.step e) := by
  cases e with
  | «begin» i m =>
    unfold step
    simp only
    split
    · next ho =>
      have := bound_goto h ho (.testGateway m) (by simp [pending])
      exact ⟨this.threads, this.lim, this.le⟩
    · exact h
  | advance i => exact bound_advance h i
  | call k =>
    unfold step
    simp only
    split
    · exact ⟨h.threads, h.lim, h.le⟩
    · exact h
  | react => exact bound_react h

theorem bound_run {limit n : Nat} {c : Threaded} (h : Bound limit n c) (es : List Ev) : Bound limit n (c.run es) := by
  induction es generalizing c with
  | nil => exact h
  | cons e es ih => exact ih (bound_step h e)

theorem bound_init (limit n : Nat) : Bound limit n (init limit n) := by
  refine ⟨by simp [init], rfl, ?_⟩
  have := sum_pending_le 0 (List.replicate n WritePc.idle)
  simp only [List.length_replicate] at this
  simp only [queueLength, init, passed, List.getElem?_cons_zero, Option.getD_some, List.length_nil]
  omega

/-! ## Forgotten lists -/

theorem forgotten_writeHere {c : Threaded} {l : Nat} (h : c.Forgotten l) (m : Msg) :
    (c.writeHere m).Forgotten l ∧ (c.writeHere m).lists[l]? = c.lists[l]? ∧ (c.writeHere m).prog = c.prog := by
  unfold writeHere
  split
  · exact ⟨h, rfl, rfl⟩
  · split
    · refine ⟨⟨by simpa [push] using h.1, h.2.1, h.2.2⟩, ?_, rfl⟩
      simp only [push, List.getElem?_modify, if_neg h.2.1.symm]
      simp
    · exact ⟨h, rfl, rfl⟩

theorem forgotten_step {c : Threaded} {l : Nat} (h : c.Forgotten l) (e : Ev) :
    (c.step e).Forgotten l ∧ (c.lists[l]?.getD []) <+: ((c.step e).lists[l]?.getD []) := by
  obtain ⟨h1, h2, h3⟩ := h
  have hself : (c.lists[l]?.getD []) <+: (c.lists[l]?.getD []) := List.prefix_refl _
  cases e with
  | «begin» i m =>
    unfold step
    simp only
    split <;> exact ⟨⟨h1, h2, h3⟩, hself⟩
  | advance i =>
    unfold step
    simp only
    unfold advance
    split
    · exact ⟨⟨h1, h2, h3⟩, hself⟩
    · exact ⟨⟨h1, h2, h3⟩, hself⟩
    · exact ⟨⟨h1, h2, h3⟩, hself⟩
    · exact ⟨⟨h1, h2, h3⟩, hself⟩
    · split <;> exact ⟨⟨h1, h2, h3⟩, hself⟩
    · exact ⟨⟨h1, h2, h3⟩, hself⟩
    · split <;> exact ⟨⟨h1, h2, h3⟩, hself⟩
    · exact ⟨⟨h1, h2, h3⟩, hself⟩
    · next l' m ho =>
      refine ⟨⟨by simpa [push, goto] using h1, h2, h3⟩, ?_⟩
      simp only [push, goto, List.getElem?_modify]
      cases c.lists[l]? with
      | none => simp
      | some x => by_cases hl : l' = l <;> simp [hl]
  | call k =>
    unfold step
    simp only
    split
    · refine ⟨⟨h1, h2, ?_⟩, hself⟩
      cases k with
      | connect t => cases t <;> simp [Call.steps]
      | disconnect bye => simp [Call.steps]
      | resolved ip hello => simp [Call.steps]
      | turn => simp [Call.steps]
    · exact ⟨⟨h1, h2, h3⟩, hself⟩
  | react =>
    unfold step
    simp only
    unfold react
    split
    · exact ⟨⟨h1, h2, h3⟩, hself⟩
    · next t rest hp => exact ⟨⟨h1, h2, fun hm => h3 (hp ▸ List.mem_cons_of_mem _ hm)⟩, hself⟩
    · next t rest hp => split <;> exact ⟨⟨h1, h2, fun hm => h3 (hp ▸ List.mem_cons_of_mem _ hm)⟩, hself⟩
    · next t rest hp => exact ⟨⟨h1, h2, fun hm => h3 (hp ▸ List.mem_cons_of_mem _ hm)⟩, hself⟩
    · next m rest hp =>
      have := forgotten_writeHere (c := { c with prog := rest, begun := c.begun ++ [m] }) (l := l)
        ⟨h1, h2, fun hm => h3 (hp ▸ List.mem_cons_of_mem _ hm)⟩ m
      exact ⟨this.1, by rw [this.2.1]; exact hself⟩
    · next rest hp =>
      refine ⟨⟨h1, h2, fun hm => ?_⟩, hself⟩
      simp only [List.mem_cons, reduceCtorEq, Instr.iterate.injEq, false_or] at hm
      rcases hm with hm | hm
      · exact h2 hm
      · exact h3 (hp ▸ List.mem_cons_of_mem _ hm)
    · next rest hp =>
      refine ⟨⟨by simp; omega, by simp only; omega, fun hm => h3 (hp ▸ List.mem_cons_of_mem _ hm)⟩, ?_⟩
      simp [List.getElem?_append_left h1]
    · next l' rest hp =>
      have hne : l' ≠ l := by
        rintro rfl
        exact h3 (hp ▸ List.mem_cons_self)
      split
      · next m ms hl =>
        have := forgotten_writeHere (c := { c with lists := c.lists.set l' ms }) (l := l) ⟨by simpa using h1, h2, h3⟩ m
        refine ⟨this.1, ?_⟩
        rw [this.2.1]
        simp [List.getElem?_set_ne hne]
      · exact ⟨⟨h1, h2, fun hm => h3 (hp ▸ List.mem_cons_of_mem _ hm)⟩, hself⟩
    · next rest hp =>
      have h3' : Instr.iterate l ∉ rest := fun hm => h3 (hp ▸ List.mem_cons_of_mem _ hm)
      split
      · exact ⟨⟨h1, h2, h3'⟩, hself⟩
      · split <;> exact ⟨⟨h1, h2, h3'⟩, hself⟩

theorem forgotten_run {c : Threaded} {l : Nat} (h : c.Forgotten l) (es : List Ev) :
    (c.run es).Forgotten l ∧ (c.lists[l]?.getD []) <+: ((c.run es).lists[l]?.getD []) := by
  induction es generalizing c with
  | nil => exact ⟨h, List.prefix_refl _⟩
  | cons e es ih =>
    have h1 := forgotten_step h e
    have h2 := ih h1.1
    exact ⟨h2.1, h1.2.trans h2.2⟩

/-! ## Undisturbed schedules -/

/-- A transport or gateway set is followed by a flush; a new queue is set up only at once. -/
structure Shape (prog : List Instr) : Prop where
  flush : ∀ pre a post, prog = pre ++ a :: post → ((∃ t, a = .setTransport (some t)) ∨ ∃ ip, a = .setGateway ip) → .takeItems ∈ post
  fresh : .newQueue ∉ prog.tail

theorem Shape.tail {a : Instr} {rest : List Instr} (h : Shape (a :: rest)) : Shape rest := by
  refine ⟨fun pre b post he => h.flush (a :: pre) b post (by rw [he]; rfl), fun hm => h.fresh ?_⟩
  exact List.mem_of_mem_tail hm

theorem shape_nil : Shape [] := ⟨by simp, by simp⟩

theorem shape_of_flush {prog : List Instr} (h1 : ∀ a ∈ prog, a ≠ .newQueue) (h : ∀ pre a post, prog = pre ++ a :: post →
    ((∃ t, a = .setTransport (some t)) ∨ ∃ ip, a = .setGateway ip) → .takeItems ∈ post) : Shape prog :=
  ⟨h, fun hm => h1 _ (List.mem_of_mem_tail hm) rfl⟩

theorem mem_post_of_last {prog : List Instr} {x : Instr} {pre post : List Instr} {a : Instr} (h : prog ++ [x] = pre ++ a :: post)
    (hx : a ≠ x) : x ∈ post := by
  rcases List.eq_nil_or_concat post with rfl | ⟨post', y, rfl⟩
  · have := congrArg List.getLast? h
    simp at this
    exact absurd this.symm hx
  · rw [List.concat_eq_append, ← List.cons_append, ← List.append_assoc] at h
    have := List.append_inj_right' h rfl
    simp only [List.cons.injEq, and_true] at this
    subst this
    simp

theorem shape_steps (k : Call) : Shape k.steps := by
  cases k with
  | connect t =>
    cases t with
    | none => exact shape_of_flush (by simp [Call.steps]) (fun pre a post he ha => by
        refine mem_post_of_last (prog := []) he ?_
        rcases ha with ⟨t, rfl⟩ | ⟨ip, rfl⟩ <;> simp)
    | some t => exact shape_of_flush (by simp [Call.steps]) (fun pre a post he ha => by
        refine mem_post_of_last (prog := [.setTransport (some t), .setGatewayTransport t]) he ?_
        rcases ha with ⟨t, rfl⟩ | ⟨ip, rfl⟩ <;> simp)
  | disconnect bye =>
    refine shape_of_flush (by simp only [Call.steps, List.mem_append, List.mem_map, List.mem_singleton]; rintro a (⟨m, _, rfl⟩ | rfl) <;> simp) (fun pre a post he ha => ?_)
    exfalso
    have : a ∈ Call.steps (.disconnect bye) := by rw [he]; simp
    simp only [Call.steps, List.mem_append, List.mem_map, List.mem_singleton] at this
    rcases ha with ⟨t, rfl⟩ | ⟨ip, rfl⟩ <;> simp at this
  | resolved ip hello =>
    refine shape_of_flush (by simp only [Call.steps, List.mem_cons, List.mem_append, List.mem_map, List.mem_singleton]; rintro a (rfl | ⟨m, _, rfl⟩ | h) <;> simp_all) (fun pre a post he ha => ?_)
    refine mem_post_of_last (prog := .setGateway ip :: hello.map .write) (by rw [← he]; rfl) ?_
    rcases ha with ⟨t, rfl⟩ | ⟨ip, rfl⟩ <;> simp
  | turn =>
    refine shape_of_flush (by simp [Call.steps]) (fun pre a post he ha => ?_)
    exfalso
    have : a ∈ Call.steps .turn := by rw [he]; simp
    simp only [Call.steps, List.mem_singleton] at this
    rcases ha with ⟨t, rfl⟩ | ⟨ip, rfl⟩ <;> simp at this

/-- A write on its way to the queue. -/
def queueing : WritePc → Prop
  | .testLength _ | .getQueue _ | .append _ _ => True
  | _ => False

/-- What holds as long as nothing disturbs. -/
structure Calm (c : Threaded) : Prop where
  valid : Valid c
  shape : Shape c.prog
  quiet : c.prog ≠ [] → c.Quiet
  kept : ∀ l, l ≠ c.queue → c.lists[l]?.getD [] ≠ [] → .iterate l ∈ c.prog
  fresh : ∀ rest, c.prog = .newQueue :: rest → .iterate c.queue ∈ rest
  drained : c.Up → .takeItems ∈ c.prog ∨ .newQueue ∈ c.prog ∨ c.lists[c.queue]?.getD [] = []
  pcs : ∀ pc ∈ c.threads, (queueing pc → ¬ c.Up) ∧ ∀ l m, pc = .append l m → l = c.queue

theorem calm_init (limit n : Nat) : Calm (init limit n) := by
  refine ⟨valid_init limit n, shape_nil, by simp [init], ?_, by simp [init], by simp [init, Up], ?_⟩
  · intro l hl h
    cases l with
    | zero => exact absurd rfl hl
    | succ l => simp [init] at h
  · intro pc hpc
    have := List.eq_of_mem_replicate hpc
    subst this
    simp [queueing]

theorem quiet_pcs {c : Threaded} (h : c.Quiet) (q : Nat) (P : Prop) : ∀ pc ∈ c.threads, (queueing pc → ¬ P) ∧ ∀ l m, pc = .append l m → l = q := by
  intro pc hpc
  have := h pc hpc
  subst this
  simp [queueing]

/-- A write in the reactor's thread. -/
theorem calm_writeHere {c : Threaded} (hv : Valid c) (hs : Shape c.prog) (hq : c.Quiet)
    (hk : ∀ l, l ≠ c.queue → c.lists[l]?.getD [] ≠ [] → .iterate l ∈ c.prog)
    (hf : ∀ rest, c.prog = .newQueue :: rest → .iterate c.queue ∈ rest)
    (hd : c.Up → .takeItems ∈ c.prog ∨ .newQueue ∈ c.prog ∨ c.lists[c.queue]?.getD [] = []) (m : Msg) : Calm (c.writeHere m) := by
  have hv' := valid_writeHere hv m
  unfold writeHere at hv' ⊢
  split
  · next g t hg ht =>
    exact ⟨⟨hv.queue, hv.append⟩, hs, fun _ => hq, hk, hf, hd, quiet_pcs hq _ _⟩
  · next hne =>
    have hdown : ¬ c.Up := by
      intro hu
      obtain ⟨t, ht⟩ := Option.isSome_iff_exists.1 hu.1
      obtain ⟨g, hg⟩ := Option.isSome_iff_exists.1 hu.2
      exact hne g t hg ht
    have hv1 : Valid (if c.queueLength < c.limit then c.push c.queue m else { c with dropped := c.dropped ++ [m] }) := by
      split
      · exact valid_push hv _ _
      · exact ⟨hv.queue, hv.append⟩
    split at hv1
    · rw [if_pos (by assumption)]
      refine ⟨hv1, hs, fun _ => hq, ?_, hf, fun hu => absurd hu hdown, quiet_pcs hq _ _⟩
      intro l hl h
      refine hk l hl ?_
      have hl' : ¬ c.queue = l := fun h => hl h.symm
      simpa [push, List.getElem?_modify, hl'] using h
    · rw [if_neg (by assumption)]
      exact ⟨hv1, hs, fun _ => hq, hk, hf, fun hu => absurd hu hdown, quiet_pcs hq _ _⟩

theorem calm_react {c : Threaded} (h : Calm c) : Calm c.react := by
  have hv := valid_react h.valid
  unfold react at hv ⊢
  split
  · exact h
  · next t rest hp =>
    have hq := h.quiet (by simp [hp])
    simp only [hp] at hv
    refine ⟨hv, (hp ▸ h.shape).tail, fun _ => hq, ?_, ?_, ?_, quiet_pcs hq _ _⟩
    · intro l hl hne
      have := h.kept l hl hne
      rw [hp] at this
      simpa using this
    · intro r hr
      exact absurd (by simp [hp, show rest = .newQueue :: r from hr]) h.shape.fresh
    · intro hu
      cases t with
      | none => simp [Up] at hu
      | some t => exact Or.inl (h.shape.flush [] _ _ hp (Or.inl ⟨t, rfl⟩))
  · next t rest hp =>
    have hq := h.quiet (by simp [hp])
    have hk : ∀ l, l ≠ c.queue → c.lists[l]?.getD [] ≠ [] → .iterate l ∈ rest := by
      intro l hl hne
      have := h.kept l hl hne
      rw [hp] at this
      simpa using this
    have hf : ∀ r, rest = .newQueue :: r → .iterate c.queue ∈ r := by
      intro r hr
      exact absurd (by simp [hp, hr]) h.shape.fresh
    have hd : c.Up → .takeItems ∈ rest ∨ .newQueue ∈ rest ∨ c.lists[c.queue]?.getD [] = [] := by
      intro hu
      have := h.drained hu
      rw [hp] at this
      simpa using this
    split
    · exact ⟨⟨h.valid.queue, h.valid.append⟩, (hp ▸ h.shape).tail, fun _ => hq, hk, hf, hd, quiet_pcs hq _ _⟩
    · exact ⟨⟨h.valid.queue, h.valid.append⟩, (hp ▸ h.shape).tail, fun _ => hq, hk, hf, hd, quiet_pcs hq _ _⟩
  · next ip rest hp =>
    have hq := h.quiet (by simp [hp])
    refine ⟨⟨h.valid.queue, h.valid.append⟩, (hp ▸ h.shape).tail, fun _ => hq, ?_, ?_, ?_, quiet_pcs hq _ _⟩
    · intro l hl hne
      have := h.kept l hl hne
      rw [hp] at this
      simpa using this
    · intro r hr
      exact absurd (by simp [hp, show rest = .newQueue :: r from hr]) h.shape.fresh
    · intro hu
      exact Or.inl (h.shape.flush [] _ _ hp (Or.inr ⟨ip, rfl⟩))
  · next m rest hp =>
    have hq := h.quiet (by simp [hp])
    refine calm_writeHere (c := { c with prog := rest, begun := c.begun ++ [m] }) ⟨h.valid.queue, h.valid.append⟩ (hp ▸ h.shape).tail hq ?_ ?_ ?_ m
    · intro l hl hne
      have := h.kept l hl hne
      rw [hp] at this
      simpa using this
    · intro r hr
      exact absurd (by simp [hp, show rest = .newQueue :: r from hr]) h.shape.fresh
    · intro hu
      have := h.drained hu
      rw [hp] at this
      simpa using this
  · next rest hp =>
    have hq := h.quiet (by simp [hp])
    refine ⟨⟨h.valid.queue, h.valid.append⟩, ?_, fun _ => hq, ?_, ?_, ?_, quiet_pcs hq _ _⟩
    · have hs := hp ▸ h.shape
      refine ⟨fun pre a post he ha => ?_, ?_⟩
      · cases pre with
        | nil =>
          simp only [List.nil_append, List.cons.injEq] at he
          obtain ⟨rfl, _⟩ := he
          rcases ha with ⟨t, ha⟩ | ⟨ip, ha⟩ <;> cases ha
        | cons p pre =>
          simp only [List.cons_append, List.cons.injEq] at he
          cases pre with
          | nil =>
            simp only [List.nil_append, List.cons.injEq] at he
            obtain ⟨_, rfl, _⟩ := he
            rcases ha with ⟨t, ha⟩ | ⟨ip, ha⟩ <;> cases ha
          | cons p' pre =>
            simp only [List.cons_append, List.cons.injEq] at he
            exact hs.tail.flush pre a post he.2.2 ha
      · intro hm
        simp only [List.tail_cons, List.mem_cons, reduceCtorEq, false_or] at hm
        exact hs.fresh hm
    · intro l hl hne
      have := h.kept l hl hne
      rw [hp] at this
      simp only [List.mem_cons, reduceCtorEq, false_or] at this ⊢
      exact Or.inr this
    · intro r hr
      simp only [List.cons.injEq, true_and] at hr
      subst hr
      simp
    · intro hu
      simp
  · next rest hp =>
    have hq := h.quiet (by simp [hp])
    have hs := (hp ▸ h.shape)
    simp only [hp] at hv
    refine ⟨hv, hs.tail, fun _ => hq, ?_, ?_, ?_, quiet_pcs hq _ _⟩
    · intro l hl hne
      simp only at hl hne
      by_cases hlq : l = c.queue
      · subst hlq
        exact h.fresh rest hp
      · have : c.lists[l]?.getD [] ≠ [] := by
          rw [List.getElem?_append] at hne
          split at hne
          · exact hne
          · exfalso
            have : l - c.lists.length ≠ 0 := by omega
            obtain ⟨k, hk⟩ := Nat.exists_eq_succ_of_ne_zero this
            rw [hk] at hne
            simp at hne
        have := h.kept l hlq this
        rw [hp] at this
        simpa using this
    · intro r hr
      exact absurd (by simp [show rest = .newQueue :: r from hr]) hs.fresh
    · intro hu
      right; right
      simp
  · next l rest hp =>
    have hq := h.quiet (by simp [hp])
    split
    · next m ms hl =>
      refine calm_writeHere (c := { c with lists := c.lists.set l ms })
        ⟨by simpa using h.valid.queue, fun l m hm => by simpa using h.valid.append l m hm⟩ h.shape hq ?_ h.fresh ?_ m
      · intro l' hl' hne
        by_cases hll : l' = l
        · subst hll; simp [hp]
        · refine h.kept l' hl' ?_
          have hll' : ¬ l = l' := fun h => hll h.symm
          simpa [List.getElem?_set, hll'] using hne
      · intro hu
        rcases h.drained hu with h1 | h1 | h1
        · exact Or.inl h1
        · exact Or.inr (Or.inl h1)
        · right; right
          simp only
          rw [List.getElem?_set_ne]
          · exact h1
          · rintro rfl
            rw [hl] at h1
            simp at h1
    · next hne0 =>
      have hempty : c.lists[l]?.getD [] = [] := by
        match hl : c.lists[l]? with
        | none => rfl
        | some [] => rfl
        | some (m :: ms) => exact absurd hl (hne0 m ms)
      refine ⟨⟨h.valid.queue, h.valid.append⟩, (hp ▸ h.shape).tail, fun _ => hq, ?_, ?_, ?_, quiet_pcs hq _ _⟩
      · intro l' hl hne
        have := h.kept l' hl hne
        rw [hp] at this
        simp only [List.mem_cons, Instr.iterate.injEq] at this
        rcases this with rfl | h2
        · exact absurd hempty hne
        · exact h2
      · intro r hr
        exact absurd (by simp [hp, show rest = .newQueue :: r from hr]) h.shape.fresh
      · intro hu
        have := h.drained hu
        rw [hp] at this
        simpa using this
  · next rest hp =>
    have hq := h.quiet (by simp [hp])
    have hk : ∀ l, l ≠ c.queue → c.lists[l]?.getD [] ≠ [] → .iterate l ∈ rest := by
      intro l hl hne
      have := h.kept l hl hne
      rw [hp] at this
      simpa using this
    have hf : ∀ r, rest = .newQueue :: r → .iterate c.queue ∈ r := by
      intro r hr
      exact absurd (by simp [hp, hr]) h.shape.fresh
    have hd : c.Up → .takeItems ∈ rest ∨ .newQueue ∈ rest ∨ c.lists[c.queue]?.getD [] = [] := by
      intro hu
      have := h.drained hu
      rw [hp] at this
      simpa using this
    split
    · exact ⟨⟨h.valid.queue, h.valid.append⟩, (hp ▸ h.shape).tail, fun _ => hq, hk, hf, hd, quiet_pcs hq _ _⟩
    · split
      · exact ⟨⟨h.valid.queue, h.valid.append⟩, (hp ▸ h.shape).tail, fun _ => hq, hk, hf, hd, quiet_pcs hq _ _⟩
      · exact ⟨⟨h.valid.queue, h.valid.append⟩, (hp ▸ h.shape).tail, fun _ => hq, hk, hf, hd, quiet_pcs hq _ _⟩

/-- A thread moves on while the reactor's thread does nothing to the client. -/
theorem calm_goto {c : Threaded} (h : Calm c) (hp : c.prog = []) (i : Nat) (pc : WritePc) (h1 : queueing pc → ¬ c.Up)
    (h2 : ∀ l m, pc = .append l m → l = c.queue) : Calm (c.goto i pc) := by
  refine ⟨valid_goto h.valid i pc fun l m he => h2 l m he ▸ h.valid.queue, h.shape, fun hne => absurd hp hne, h.kept, h.fresh, h.drained, ?_⟩
  intro x hx
  rcases mem_set hx with rfl | hx
  · exact ⟨h1, h2⟩
  · exact h.pcs x hx

theorem calm_advance {c : Threaded} (h : Calm c) (hp : c.prog = []) (i : Nat) : Calm (c.advance i) := by
  have hnone : ¬ c.gateway.isSome → ¬ c.Up := fun hn hu => hn hu.2
  unfold advance
  split
  · exact h
  · exact h
  · split
    · exact calm_goto h hp i _ (by simp [queueing]) (by simp)
    · next hg => exact calm_goto h hp i _ (fun _ hu => hg hu.2) (by simp)
  · split
    · exact calm_goto h hp i _ (by simp [queueing]) (by simp)
    · next hg => exact calm_goto h hp i _ (fun _ hu => hg hu.1) (by simp)
  · split
    · exact calm_goto h hp i _ (by simp [queueing]) (by simp)
    · next hg => exact calm_goto h hp i _ (fun _ hu => by have := hu.2; rw [hg] at this; simp at this) (by simp)
  · have := calm_goto h hp i .idle (by simp [queueing]) (by simp)
    exact ⟨⟨this.valid.queue, this.valid.append⟩, this.shape, this.quiet, this.kept, this.fresh, this.drained, this.pcs⟩
  · next m ho =>
    have hn : ¬ c.Up := (h.pcs _ (List.mem_of_getElem? ho)).1 trivial
    split
    · exact calm_goto h hp i _ (fun _ => hn) (by simp)
    · have := calm_goto h hp i .idle (by simp [queueing]) (by simp)
      exact ⟨⟨this.valid.queue, this.valid.append⟩, this.shape, this.quiet, this.kept, this.fresh, this.drained, this.pcs⟩
  · next m ho =>
    have hn : ¬ c.Up := (h.pcs _ (List.mem_of_getElem? ho)).1 trivial
    exact calm_goto h hp i _ (fun _ => hn) (by simp)
  · next l m ho =>
    obtain ⟨hn, hl⟩ := h.pcs _ (List.mem_of_getElem? ho)
    have hn := hn trivial
    have hl := hl l m rfl
    have := calm_goto h hp i .idle (by simp [queueing]) (by simp)
    refine ⟨valid_push this.valid _ _, this.shape, this.quiet, ?_, this.fresh, fun hu => absurd hu hn, this.pcs⟩
    intro l' hl' hne
    refine h.kept l' hl' ?_
    have : ¬ c.queue = l' := fun h => hl' h.symm
    subst hl
    simpa [push, goto, List.getElem?_modify, this] using hne

theorem calm_run (es : List Ev) : ∀ c : Threaded, Calm c → c.Undisturbed es → Calm (c.run es) := by
  induction es with
  | nil => intro c h _; exact h
  | cons e es ih =>
    intro c h hu
    obtain ⟨ho, hu⟩ := hu
    refine ih _ ?_ hu
    cases e with
    | «begin» i m =>
      unfold step
      simp only
      split
      · have := calm_goto h ho i (.testGateway m) (by simp [queueing]) (by simp)
        exact ⟨⟨this.valid.queue, this.valid.append⟩, this.shape, this.quiet, this.kept, this.fresh, this.drained, this.pcs⟩
      · exact h
    | advance i => exact calm_advance h ho i
    | call k =>
      unfold step
      simp only
      split
      · next hp =>
        refine ⟨⟨h.valid.queue, h.valid.append⟩, shape_steps k, fun _ => ho, ?_, ?_, ?_, h.pcs⟩
        · intro l hl hne
          have := h.kept l hl hne
          rw [hp] at this
          simp at this
        · intro r hr
          cases k with
          | connect t => cases t <;> simp [Call.steps] at hr
          | disconnect bye => cases bye <;> simp [Call.steps] at hr
          | resolved ip hello => simp [Call.steps] at hr
          | turn => simp [Call.steps] at hr
        · intro hu
          have := h.drained hu
          rw [hp] at this
          right; right
          simpa using this
      · exact h
    | react => exact calm_react h

end Threaded
end Txstatsd
