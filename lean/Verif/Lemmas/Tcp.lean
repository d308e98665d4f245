import Verif.Model.Tcp
import Verif.Spec.Tcp
import Mathlib.Data.List.Infix

/-!
# Line framing over TCP
-/

set_option linter.unusedSectionVars false
set_option linter.unusedSimpArgs false
set_option linter.unusedVariables false

namespace Txstatsd
open Spec

/-! ## Cutting a stream at CRLF -/

theorem crlf_cons_cons {c d : Char} {rest : Str} (h : ¬ (c = '\r' ∧ d = '\n')) :
    crlf <:+: c :: d :: rest ↔ crlf <:+: d :: rest := by
  rw [List.infix_cons_iff]
  constructor
  · rintro (hp | h')
    · obtain ⟨t, ht⟩ := hp
      simp only [crlf, List.cons_append, List.nil_append, List.cons.injEq] at ht
      exact absurd ⟨ht.1.symm, ht.2.1.symm⟩ h
    · exact h'
  · exact .inr

theorem splitCrlf_none {s : Str} (h : NoCrlf s) : splitCrlf s = none := by
  induction s with
  | nil => rfl
  | cons c s ih =>
    cases s with
    | nil => rfl
    | cons d rest =>
      have hcd : ¬ (c = '\r' ∧ d = '\n') := by
        rintro ⟨rfl, rfl⟩
        exact h ⟨[], rest, by simp⟩
      rw [splitCrlf, if_neg hcd, ih (fun h' => h ((crlf_cons_cons hcd).2 h'))]

theorem splitCrlf_append {a b : Str} (h : NoCrlf a) : splitCrlf (a ++ crlf ++ b) = some (a, b) := by
  induction a with
  | nil => show splitCrlf ('\r' :: '\n' :: b) = _; rw [splitCrlf, if_pos ⟨rfl, rfl⟩]
  | cons c a ih =>
    have h1 : NoCrlf a := fun h' => h (List.infix_cons_iff.2 (.inr h'))
    have h2 : ∀ d r, a ++ crlf ++ b = d :: r → ¬ (c = '\r' ∧ d = '\n') := by
      intro d r e
      rintro ⟨rfl, rfl⟩
      cases a with
      | nil => simp [crlf] at e
      | cons x a =>
        simp only [List.cons_append, List.cons.injEq] at e
        obtain ⟨rfl, -⟩ := e
        exact h ⟨[], a, by simp⟩
    have ih' := ih h1
    rw [List.cons_append, List.cons_append]
    cases hx : a ++ crlf ++ b with
    | nil => simp at hx
    | cons d r =>
      rw [hx] at ih'
      rw [splitCrlf, if_neg (h2 d r hx), ih']

theorem splitCrlf_some {s a b : Str} (h : splitCrlf s = some (a, b)) :
    s = a ++ crlf ++ b ∧ NoCrlf a := by
  induction s generalizing a b with
  | nil => cases h
  | cons c s ih =>
    cases s with
    | nil => cases h
    | cons d rest =>
      rw [splitCrlf] at h
      split at h
      · next hcd =>
        obtain ⟨rfl, rfl⟩ := hcd
        cases h
        exact ⟨by simp, by simp [NoCrlf]⟩
      · next hcd =>
        cases hs : splitCrlf (d :: rest) with
        | none => rw [hs] at h; cases h
        | some p =>
          obtain ⟨x, y⟩ := p
          rw [hs] at h
          cases h
          obtain ⟨e, hn⟩ := ih hs
          refine ⟨by rw [e]; simp, ?_⟩
          cases x with
          | nil => intro h'; have := h'.length_le; simp [crlf] at this
          | cons z x =>
            simp only [List.cons_append, List.cons.injEq] at e
            obtain ⟨rfl, -⟩ := e
            intro h'; exact hn ((crlf_cons_cons hcd).1 h')

theorem splitCrlf_eq_none {s : Str} (h : splitCrlf s = none) : NoCrlf s := by
  rintro ⟨a, b, e⟩
  -- the shortest prefix before a CRLF
  induction s generalizing a b with
  | nil => simp [crlf] at e
  | cons c s ih =>
    cases s with
    | nil =>
      have := congrArg List.length e
      simp [crlf] at this
      omega
    | cons d rest =>
      rw [splitCrlf] at h
      split at h
      · cases h
      · next hcd =>
        cases hs : splitCrlf (d :: rest) with
        | none =>
          cases a with
          | nil =>
            simp only [crlf, List.nil_append, List.cons_append, List.cons.injEq] at e
            exact hcd ⟨e.1.symm, e.2.1.symm⟩
          | cons x a =>
            simp only [List.cons_append, List.cons.injEq] at e
            exact ih hs a b e.2
        | some p => rw [hs] at h; cases h

/-- `s` consists of the complete lines `ls` and the unfinished rest `r`. -/
structure Cut (s : Str) (ls : List Str) (r : Str) : Prop where
  eq : s = stream ls ++ r
  lines : ∀ l ∈ ls, NoCrlf l
  rest : NoCrlf r

theorem cut_cons {s l : Str} {ls : List Str} {r : Str} (hl : NoCrlf l) (h : Cut s ls r) :
    Cut (l ++ crlf ++ s) (l :: ls) r :=
  ⟨by rw [h.eq]; simp [stream], by
    intro x hx
    rcases List.mem_cons.1 hx with rfl | hx
    · exact hl
    · exact h.lines x hx, h.rest⟩

theorem cut_exists (s : Str) : ∃ ls r, Cut s ls r := by
  generalize hn : s.length = n
  induction n using Nat.strong_induction_on generalizing s with
  | _ n ih =>
    cases hs : splitCrlf s with
    | none => exact ⟨[], s, by simp [stream], by simp, splitCrlf_eq_none hs⟩
    | some p =>
      obtain ⟨a, b⟩ := p
      obtain ⟨e, hn'⟩ := splitCrlf_some hs
      have := splitCrlf_length hs
      obtain ⟨ls, r, hc⟩ := ih b.length (by omega) b rfl
      exact ⟨a :: ls, r, by rw [e]; exact cut_cons hn' hc⟩

theorem cut_unique {s : Str} {ls ls' : List Str} {r r' : Str} (h : Cut s ls r) (h' : Cut s ls' r') :
    ls = ls' ∧ r = r' := by
  induction ls generalizing s ls' with
  | nil =>
    have e : s = r := by rw [h.eq]; simp [stream]
    subst e
    cases ls' with
    | nil => exact ⟨rfl, by rw [h'.eq]; simp [stream]⟩
    | cons l ls' =>
      exfalso
      apply h.rest
      rw [h'.eq]
      exact ⟨l, stream ls' ++ r', by simp [stream]⟩
  | cons l ls ih =>
    have e : s = l ++ crlf ++ (stream ls ++ r) := by rw [h.eq]; simp [stream]
    have hs := splitCrlf_append (b := stream ls ++ r) (h.lines l (by simp))
    rw [← e] at hs
    cases ls' with
    | nil =>
      exfalso
      have e' : s = r' := by rw [h'.eq]; simp [stream]
      rw [e', splitCrlf_none h'.rest] at hs; cases hs
    | cons l' ls' =>
      have e' : s = l' ++ crlf ++ (stream ls' ++ r') := by rw [h'.eq]; simp [stream]
      have hs' := splitCrlf_append (b := stream ls' ++ r') (h'.lines l' (by simp))
      rw [← e', hs] at hs'
      simp only [Option.some.injEq, Prod.mk.injEq] at hs'
      obtain ⟨rfl, hb⟩ := hs'
      have hc1 : Cut (stream ls ++ r) ls r := ⟨rfl, fun x hx => h.lines x (by simp [hx]), h.rest⟩
      have hc2 : Cut (stream ls ++ r) ls' r' := ⟨hb, fun x hx => h'.lines x (by simp [hx]), h'.rest⟩
      obtain ⟨rfl, rfl⟩ := ih hc1 hc2
      exact ⟨rfl, rfl⟩

theorem cut_append {p q : Str} {ls ls' : List Str} {r r' : Str} (h : Cut p ls r)
    (h' : Cut (r ++ q) ls' r') : Cut (p ++ q) (ls ++ ls') r' :=
  ⟨by rw [h.eq, List.append_assoc, h'.eq]; simp [stream], by
    intro x hx
    rcases List.mem_append.1 hx with hx | hx
    · exact h.lines x hx
    · exact h'.lines x hx, h'.rest⟩

/-- The unfinished rest of a prefix of a stream is at most one character longer than a line. -/
theorem cut_prefix {ls : List Str} (hls : ∀ l ∈ ls, NoCrlf l) {p q : Str} (e : stream ls = p ++ q)
    {ls1 : List Str} {r : Str} (h : Cut p ls1 r) :
    (∃ ls2, ls = ls1 ++ ls2 ∧ Cut (r ++ q) ls2 []) ∧ ∀ n, (∀ l ∈ ls, l.length < n) → r.length ≤ n := by
  obtain ⟨ls2, r2, h2⟩ := cut_exists (r ++ q)
  have h3 := cut_append h h2
  have h0 : Cut (p ++ q) ls [] := ⟨by rw [← e]; simp, hls, by simp [NoCrlf]⟩
  obtain ⟨e1, e2⟩ := cut_unique h0 h3
  subst e2
  refine ⟨⟨ls2, e1, h2⟩, ?_⟩
  intro n hn
  by_contra hlt
  have hr : r ≠ [] := by rintro rfl; simp at hlt
  cases ls2 with
  | nil =>
    have := h2.eq
    simp [stream] at this
    exact hr this.1
  | cons l ls2 =>
    have hl : l.length < n := hn l (by rw [e1]; simp)
    have e3 : r ++ q = l ++ crlf ++ stream ls2 := by rw [h2.eq]; simp [stream]
    have hpre : l ++ crlf <+: r := by
      have h1 : l ++ crlf <+: r ++ q := ⟨stream ls2, e3.symm⟩
      have h4 : r <+: r ++ q := List.prefix_append r q
      exact List.prefix_of_prefix_length_le h1 h4 (by simp [crlf]; omega)
    obtain ⟨t, ht⟩ := hpre
    exact h.rest ⟨l, t, ht⟩

/-! ## The receiver -/

variable {H : Type}

/-- Handlers run over lines until one returns a true value: the state, the lines left, and whether
one did. -/
def runLines (f : H → Str → H × Bool) : H → List Str → H × List Str × Bool
  | h, [] => (h, [], false)
  | h, l :: ls => if (f h l).2 then ((f h l).1, ls, true) else runLines f (f h l).1 ls

theorem drain_cut (f : H → Str → H × Bool) {ls : List Str} {r : Str} (h0 : H)
    (hl : ∀ l ∈ ls, NoCrlf l ∧ l.length ≤ maxLength) (hr : NoCrlf r) (hrl : r.length ≤ maxLength) :
    Receiver.drain f ⟨stream ls ++ r, h0, false⟩
      = ⟨stream (runLines f h0 ls).2.1 ++ r, (runLines f h0 ls).1, (runLines f h0 ls).2.2⟩ := by
  induction ls generalizing h0 with
  | nil =>
    rw [Receiver.drain]
    split
    · next hs => simp [runLines, stream, Nat.not_lt.2 hrl]
    · next line rest hs =>
      exfalso
      have : splitCrlf (stream [] ++ r) = none := splitCrlf_none (by simpa [stream] using hr)
      rw [this] at hs; cases hs
  | cons l ls ih =>
    have e : splitCrlf (stream (l :: ls) ++ r) = some (l, stream ls ++ r) := by
      have := splitCrlf_append (b := stream ls ++ r) (hl l (by simp)).1
      rw [← this]; congr 1; simp [stream]
    rw [Receiver.drain]
    split
    · next hs => simp only at hs; rw [e] at hs; cases hs
    · next line rest hs =>
      simp only at hs
      rw [e] at hs
      cases hs
      rw [if_neg (Nat.not_lt.2 (hl l (by simp)).2)]
      simp only [runLines]
      split
      · rfl
      · rw [ih _ (fun x hx => hl x (by simp [hx]))]

theorem runLines_append (f : H → Str → H × Bool) (h : H) (ls ls' : List Str) :
    runLines f h (ls ++ ls') =
      if (runLines f h ls).2.2 then ((runLines f h ls).1, (runLines f h ls).2.1 ++ ls', true)
      else runLines f (runLines f h ls).1 ls' := by
  induction ls generalizing h with
  | nil => simp [runLines]
  | cons l ls ih =>
    rw [List.cons_append, runLines, runLines]
    by_cases hx : (f h l).2 = true
    · simp [hx]
    · rw [if_neg hx, if_neg hx, ih]

theorem runLines_false {f : H → Str → H × Bool} {h : H} {ls : List Str}
    (hc : (runLines f h ls).2.2 = false) : (runLines f h ls).2.1 = [] := by
  induction ls generalizing h with
  | nil => rfl
  | cons l ls ih =>
    rw [runLines] at hc ⊢
    split at hc
    · cases hc
    · next hx => rw [if_neg hx]; exact ih hc

theorem feedAll_closed (f : H → Str → H × Bool) (r : Receiver H) (hc : r.closed = true)
    (chunks : List Str) : Receiver.feedAll f r chunks = r := by
  induction chunks with
  | nil => rfl
  | cons c cs ih =>
    show Receiver.feedAll f (Receiver.feed f r c) cs = r
    rw [show Receiver.feed f r c = r by simp [Receiver.feed, hc]]
    exact ih

/-- A stream of short lines, in any chunks: the handler's state is the one obtained by running it
over the lines, until it returns a true value. -/
theorem feedAll_stream (f : H → Str → H × Bool) (h0 : H) {ls : List Str}
    (hl : ∀ l ∈ ls, NoCrlf l ∧ l.length < maxLength) {chunks : List Str}
    (hc : chunks.flatten = stream ls) :
    (Receiver.feedAll f ⟨[], h0, false⟩ chunks).h = (runLines f h0 ls).1 ∧
    (Receiver.feedAll f ⟨[], h0, false⟩ chunks).closed = (runLines f h0 ls).2.2 ∧
    ((runLines f h0 ls).2.2 = false → (Receiver.feedAll f ⟨[], h0, false⟩ chunks).buffer = []) := by
  -- invariant along the chunks
  have key : ∀ (cs : List Str) (p : Str) (ls1 : List Str) (r : Str), p ++ cs.flatten = stream ls →
      Cut p ls1 r → (runLines f h0 ls1).2.2 = false →
      (Receiver.feedAll f ⟨r, (runLines f h0 ls1).1, false⟩ cs).h = (runLines f h0 ls).1 ∧
      (Receiver.feedAll f ⟨r, (runLines f h0 ls1).1, false⟩ cs).closed = (runLines f h0 ls).2.2 ∧
      ((runLines f h0 ls).2.2 = false →
        (Receiver.feedAll f ⟨r, (runLines f h0 ls1).1, false⟩ cs).buffer = []) := by
    intro cs
    induction cs with
    | nil =>
      intro p ls1 r e hcut hopen
      rw [List.flatten_nil, List.append_nil] at e
      have h0' : Cut p ls [] := ⟨by rw [e]; simp, fun l hx => (hl l hx).1, by simp [NoCrlf]⟩
      obtain ⟨rfl, rfl⟩ := cut_unique h0' hcut
      exact ⟨rfl, hopen.symm, fun _ => rfl⟩
    | cons c cs ih =>
      intro p ls1 r e hcut hopen
      rw [List.flatten_cons, ← List.append_assoc] at e
      obtain ⟨ls2, r2, h2⟩ := cut_exists (r ++ c)
      have hcut' := cut_append hcut h2
      obtain ⟨⟨ls3, e3, _⟩, hlen⟩ := cut_prefix (fun l hx => (hl l hx).1) e.symm hcut'
      have hl2 : ∀ l ∈ ls2, NoCrlf l ∧ l.length ≤ maxLength := by
        intro l hx
        have := hl l (by rw [e3]; simp [hx])
        exact ⟨this.1, this.2.le⟩
      have hr2 : r2.length ≤ maxLength := hlen maxLength (fun l hx => (hl l hx).2)
      have hstep : Receiver.feed f ⟨r, (runLines f h0 ls1).1, false⟩ c
          = ⟨stream (runLines f (runLines f h0 ls1).1 ls2).2.1 ++ r2,
              (runLines f (runLines f h0 ls1).1 ls2).1, (runLines f (runLines f h0 ls1).1 ls2).2.2⟩ := by
        have := drain_cut f (runLines f h0 ls1).1 hl2 h2.rest hr2
        rw [← h2.eq] at this
        simpa [Receiver.feed] using this
      have happ : runLines f h0 (ls1 ++ ls2) = runLines f (runLines f h0 ls1).1 ls2 := by
        rw [runLines_append, hopen]; simp
      show (Receiver.feedAll f (Receiver.feed f ⟨r, (runLines f h0 ls1).1, false⟩ c) cs).h = _ ∧
        (Receiver.feedAll f (Receiver.feed f ⟨r, (runLines f h0 ls1).1, false⟩ c) cs).closed = _ ∧
        (_ → (Receiver.feedAll f (Receiver.feed f ⟨r, (runLines f h0 ls1).1, false⟩ c) cs).buffer = _)
      rw [hstep, ← happ]
      by_cases hcl : (runLines f h0 (ls1 ++ ls2)).2.2 = true
      · rw [feedAll_closed f _ hcl, e3, runLines_append f h0 (ls1 ++ ls2) ls3, if_pos hcl]
        refine ⟨rfl, hcl, ?_⟩
        intro hf; cases hf
      · have hcl' : (runLines f h0 (ls1 ++ ls2)).2.2 = false := by simpa using hcl
        rw [runLines_false hcl', hcl']
        exact ih (p ++ c) (ls1 ++ ls2) r2 e hcut' hcl'
  exact key chunks [] [] [] (by simpa using hc) ⟨by simp [stream], by simp, by simp [NoCrlf]⟩ rfl

/-! ## The TCP redirect -/

theorem lastTwo_iff (line : Str) : lastTwo line = ['\r', '\n'] ↔ crlf <:+ line := by
  unfold lastTwo
  constructor
  · intro h; show ['\r', '\n'] <:+ line; rw [← h]; exact List.drop_suffix _ _
  · rintro ⟨t, rfl⟩
    simp [crlf]

theorem body_exists (line : Str) (hne : line ≠ []) : ∃ t, Body line t := by
  by_cases h1 : crlf <:+ line
  · obtain ⟨t, rfl⟩ := h1; exact ⟨t, .inl rfl⟩
  · by_cases h2 : ['\r'] <:+ line
    · obtain ⟨t, rfl⟩ := h2; exact ⟨t, .inr (.inl rfl)⟩
    · exact ⟨line, .inr (.inr ⟨rfl, h1, h2⟩)⟩

theorem body_unique {line t t' : Str} (h : Body line t) (h' : Body line t') : t = t' := by
  have k1 : ∀ x y : Str, x ++ crlf ≠ y ++ ['\r'] := by
    intro x y e
    have := congrArg List.getLast? e
    simp [crlf] at this
  rcases h with h | h | ⟨h, ha, hb⟩ <;> rcases h' with h' | h' | ⟨h', ha', hb'⟩
  · exact List.append_cancel_right (h.symm.trans h')
  · exact absurd (h.symm.trans h') (k1 _ _)
  · exfalso; apply ha'; rw [← h', h]; exact List.suffix_append _ _
  · exact absurd (h'.symm.trans h) (k1 _ _)
  · exact List.append_cancel_right (h.symm.trans h')
  · exfalso; apply hb'; rw [← h', h]; exact List.suffix_append _ _
  · exfalso; apply ha; rw [← h, h']; exact List.suffix_append _ _
  · exfalso; apply hb; rw [← h, h']; exact List.suffix_append _ _
  · rw [← h, ← h']

/-- An unpaused write sends the body of the line and one CRLF. -/
theorem write_body (p : RedirectProto) (hp : p.paused = false) {line t : Str} (hne : line ≠ [])
    (h : Body line t) : p.write line = ({ p with wire := p.wire ++ (t ++ crlf) }, none) := by
  unfold RedirectProto.write
  rw [if_neg (by simp [hp])]
  rcases h with rfl | rfl | ⟨rfl, h1, h2⟩
  · rw [if_neg (by simp only [ne_eq, not_not]; exact (lastTwo_iff _).2 (List.suffix_append _ _))]
  · have : ¬ crlf <:+ t ++ ['\r'] := by
      rintro ⟨x, e⟩
      have := congrArg List.getLast? e
      simp [crlf] at this
    rw [if_pos (fun e => this ((lastTwo_iff _).1 e))]
    simp [crlf]
  · rw [if_pos (fun e => h1 ((lastTwo_iff _).1 e))]
    cases hl : line.getLast? with
    | none => exact absurd (List.getLast?_eq_none_iff.1 hl) hne
    | some c =>
      have hc : c ≠ '\r' := by
        rintro rfl
        obtain ⟨ys, e⟩ := List.getLast?_eq_some_iff.1 hl
        exact h2 ⟨ys, e.symm⟩
      simp [hc, crlf]

/-- A sequence of unpaused writes. -/
theorem writes_stream (p : RedirectProto) (hp : p.paused = false) {lines ts : List Str}
    (h : List.Forall₂ (fun line t => line ≠ [] ∧ Body line t) lines ts) :
    lines.foldl (fun p line => (p.write line).1) p = { p with wire := p.wire ++ stream ts } := by
  induction h generalizing p with
  | nil => simp [stream]
  | cons h1 _ ih =>
    rw [List.foldl_cons, write_body p hp h1.1 h1.2]
    simp only
    rw [ih { p with wire := p.wire ++ _ } hp]
    simp [stream]

/-- Nothing in a connection's life but a new connection ends a pause. -/
theorem paused_run {p : RedirectProto} (hp : p.paused = true) (es : List RedirectEvent)
    (hes : RedirectEvent.connect ∉ es) (earlier : List RedirectProto) :
    ∃ q : RedirectProto, RedirectFactory.run ⟨some p, earlier⟩ es = ⟨some q, earlier⟩ ∧
      q.paused = true ∧ q.wire = p.wire ∧
      q.dropped = p.dropped + es.countP (fun e => match e with | .write _ => true | _ => false) := by
  induction es generalizing p with
  | nil => exact ⟨p, rfl, hp, rfl, by simp⟩
  | cons e es ih =>
    have hes' : RedirectEvent.connect ∉ es := fun h => hes (by simp [h])
    have goal : ∀ q1 : RedirectProto, q1.paused = true →
        RedirectFactory.run ⟨some p, earlier⟩ (e :: es) = RedirectFactory.run ⟨some q1, earlier⟩ es →
        q1.wire = p.wire → q1.dropped = p.dropped + (match e with | .write _ => 1 | _ => 0) →
        ∃ q : RedirectProto, RedirectFactory.run ⟨some p, earlier⟩ (e :: es) = ⟨some q, earlier⟩ ∧
          q.paused = true ∧ q.wire = p.wire ∧ q.dropped = p.dropped +
            (e :: es).countP (fun e => match e with | .write _ => true | _ => false) := by
      intro q1 h1 h2 h3 h4
      obtain ⟨q, hq, hq1, hq2, hq3⟩ := ih h1 hes'
      refine ⟨q, by rw [h2, hq], hq1, by rw [hq2, h3], ?_⟩
      rw [hq3, h4, List.countP_cons]
      cases e <;> (simp; try omega)
    cases e with
    | connect => exact absurd (by simp) hes
    | pause now => exact goal (p.pause now) rfl rfl rfl rfl
    | resume now => exact goal p hp rfl rfl rfl
    | write line =>
      refine goal { p with dropped := p.dropped + 1 } hp ?_ rfl rfl
      show RedirectFactory.run (RedirectFactory.step ⟨some p, earlier⟩ (.write line)).1 es = _
      simp [RedirectFactory.step, RedirectProto.write, hp]

end Txstatsd
