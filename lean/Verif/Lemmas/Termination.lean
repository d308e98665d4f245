import Verif.Lemmas.Receive
import Mathlib.Data.Prod.Lex
import Mathlib.Order.WellFounded

set_option linter.unusedSectionVars false
set_option linter.unusedSimpArgs false
set_option linter.unusedVariables false

namespace Txstatsd
open Spec
section
variable [Rounding] {C T G PF PM : Type}

/-- How far a generator still is from its end. -/
def distance : Pc → ℕ ×ₗ ℕ ×ₗ ℕ
  | .fresh => toLex (16, toLex (0, 0))
  | .phaseStart k _ _ => toLex (5 + 2 * (5 - k), toLex (0, 0))
  | .inPhase k _ _ _ size cursor _ pend => toLex (4 + 2 * (5 - k), toLex (size - cursor, pend.length))
  | .sumInit _ _ pend => toLex (3, toLex (0, pend.length))
  | .sumPer _ todo cur pend => toLex (2, toLex (2 * todo.length + (if cur.isSome then 1 else 0), pend.length))
  | .sumRecv _ size cursor cur pend =>
    toLex (1, toLex (2 * (size - cursor) + (if cur.isSome then 1 else 0), pend.length))
  | .done => toLex (0, toLex (0, 0))
  | .crashed _ => toLex (0, toLex (0, 0))

theorem lex3 {a b c a' b' c' : ℕ} (h : a < a' ∨ (a = a' ∧ (b < b' ∨ (b = b' ∧ c < c')))) :
    (toLex (a, toLex (b, c)) : ℕ ×ₗ ℕ ×ₗ ℕ) < toLex (a', toLex (b', c')) := by
  rw [Prod.Lex.toLex_lt_toLex]
  rcases h with h | ⟨h, h'⟩
  · exact Or.inl h
  · refine Or.inr ⟨h, ?_⟩
    show toLex (b, c) < toLex (b', c')
    rw [Prod.Lex.toLex_lt_toLex]; exact h'

/-- The generator has ended. -/
def Ended (pc : Pc) : Prop := pc = .done ∨ ∃ e, pc = .crashed e

theorem micro_distance (I : Impl C T G PF PM) (w : World) (s : PS C T G PF PM) (g : Gen) (h : ¬ Ended g.pc) :
    distance (micro I w s g).2.1.pc < distance g.pc := by
  obtain ⟨interval, percent, pc⟩ := g
  have hc0 : ∀ (e : PyErr) a b c, 0 < a → distance (.crashed e) < toLex (a, toLex (b, c)) :=
    fun e a b c h => lex3 (Or.inl h)
  cases pc with
  | fresh => exact lex3 (Or.inl (by norm_num))
  | phaseStart k ts acc => exact lex3 (Or.inl (by omega))
  | inPhase k ts acc start size cursor events pend =>
    cases pend with
    | cons d pend => exact lex3 (Or.inr ⟨rfl, Or.inr ⟨rfl, by simp⟩⟩)
    | nil =>
      unfold micro
      simp only
      split_ifs with h1 h2 h3
      · exact hc0 _ _ _ _ (by omega)
      · rcases phaseVisit I w (Int.fdiv interval 1000) percent ts k s cursor with ⟨s', e | (_ | ds)⟩
        · exact hc0 _ _ _ _ (by omega)
        · exact lex3 (Or.inr ⟨rfl, Or.inl (by omega)⟩)
        · exact lex3 (Or.inr ⟨rfl, Or.inl (by omega)⟩)
      · exact lex3 (Or.inl (by omega))
      · exact lex3 (Or.inl (by omega))
  | sumInit ts acc pend =>
    cases pend with
    | cons d pend => exact lex3 (Or.inr ⟨rfl, Or.inr ⟨rfl, by simp⟩⟩)
    | nil => exact lex3 (Or.inl (by norm_num))
  | sumPer ts todo cur pend =>
    cases pend with
    | cons d pend => exact lex3 (Or.inr ⟨rfl, Or.inr ⟨rfl, by simp⟩⟩)
    | nil =>
      cases cur with
      | some d => exact lex3 (Or.inr ⟨rfl, Or.inl (by simp)⟩)
      | none =>
        cases todo with
        | cons p todo => exact lex3 (Or.inr ⟨rfl, Or.inl (by simp; omega)⟩)
        | nil => exact lex3 (Or.inl (by norm_num))
  | sumRecv ts size cursor cur pend =>
    cases pend with
    | cons d pend => exact lex3 (Or.inr ⟨rfl, Or.inr ⟨rfl, by simp⟩⟩)
    | nil =>
      cases cur with
      | some p =>
        obtain ⟨t, d⟩ := p
        unfold micro
        simp only
        split_ifs
        · exact lex3 (Or.inr ⟨rfl, Or.inl (by simp)⟩)
        · exact hc0 _ _ _ _ (by omega)
      | none =>
        unfold micro
        simp only
        split_ifs with h1
        · exact hc0 _ _ _ _ (by omega)
        · cases hp : s.processTimings[cursor]? with
          | none => exact lex3 (Or.inl (by norm_num))
          | some p =>
            obtain ⟨t, d⟩ := p
            have hlt : cursor < s.processTimings.length := (List.getElem?_eq_some_iff.1 hp).1
            simp only
            cases hb : s.byType.find t with
            | none => exact hc0 _ _ _ _ (by omega)
            | some n =>
              refine lex3 (Or.inr ⟨rfl, Or.inl ?_⟩)
              simp only [ne_eq, not_not] at h1
              simp; omega
  | done => exact absurd (Or.inl rfl) h
  | crashed e => exact absurd (Or.inr ⟨e, rfl⟩) h

theorem after_gen (I : Impl C T G PF PM) (w : World) (v : Server C T G PF PM) (f : ℕ → Event) {i : Nat} {n : ℕ} {g : Gen}
    (h : (after I w v f n).gens[i]? = some g) :
    (after I w v f (n + 1)).gens[i]? = some (if f n = .advance i then (micro I w (after I w v f n).ps g).2.1 else g) := by
  have hlt : i < (after I w v f n).gens.length := (List.getElem?_eq_some_iff.1 h).1
  simp only [after]
  cases hf : f n with
  | arrive m => simpa [Server.step] using h
  | spawn a b =>
    simp only [Server.step, reduceCtorEq, if_false]
    rw [List.getElem?_append_left hlt]; exact h
  | advance j =>
    by_cases hj : j = i
    · subst hj
      simp only [if_true, Server.step, h]
      rw [List.getElem?_set_self hlt]
    · have : ¬ (Event.advance j = Event.advance i) := by simpa using hj
      rw [if_neg this]
      simp only [Server.step]
      cases hg : (after I w v f n).gens[j]? with
      | none => exact h
      | some g' => simp only; rw [List.getElem?_set_ne hj]; exact h

theorem eventually_ended (I : Impl C T G PF PM) (w : World) (v : Server C T G PF PM) (f : ℕ → Event) (i : Nat)
    (hf : ∀ n, ∃ m, n ≤ m ∧ f m = .advance i) :
    ∀ (x : ℕ ×ₗ ℕ ×ₗ ℕ) (n : ℕ) (g : Gen), distance g.pc = x → (after I w v f n).gens[i]? = some g →
    ∃ m g', n ≤ m ∧ (after I w v f m).gens[i]? = some g' ∧ Ended g'.pc := by
  intro x
  induction x using WellFoundedLT.induction with
  | ind x ih =>
    intro n g hx hg
    by_cases he : Ended g.pc
    · exact ⟨n, g, le_rfl, hg, he⟩
    · obtain ⟨m, hm, hfm⟩ := hf n
      -- the first advance
      have hex : ∃ k, f (n + k) = .advance i := ⟨m - n, by rw [Nat.add_sub_cancel' hm]; exact hfm⟩
      classical
      have hmin : ∀ k, k ≤ Nat.find hex → (after I w v f (n + k)).gens[i]? = some g := by
        intro k
        induction k with
        | zero => intro _; exact hg
        | succ k ihk =>
          intro hk
          have h1 := after_gen I w v f (ihk (by omega))
          rw [if_neg (Nat.find_min hex (by omega))] at h1
          exact h1
      have h2 := after_gen I w v f (hmin _ le_rfl)
      rw [if_pos (Nat.find_spec hex)] at h2
      obtain ⟨m', g', h3, h4, h5⟩ := ih _ (by rw [← hx]; exact micro_distance I w _ g he) _ _ rfl h2
      exact ⟨m', g', by omega, h4, h5⟩

end

section
variable [Rounding] {PF PM : Type}

theorem div_error {a b : PyFloat} {e : PyErr} (h : a.div b = .error e) : e = .zeroDivisionError := by
  unfold PyFloat.div at h
  split at h <;> try split at h
  all_goals first | (simp only [Except.error.injEq] at h; exact h.symm) | cases h

theorem divInt_error {a : Num} {n : ℤ} {e : PyErr} (h : a.divInt n = .error e) : e = .zeroDivisionError := by
  unfold Num.divInt at h
  split_ifs at h
  · simp only [Except.error.injEq] at h; exact h.symm
  · split at h <;> cases h

theorem toIntF_error {x : PyFloat} {e : PyErr} (h : toIntF x = .error e) : e = .valueError ∨ e = .overflowError := by
  unfold toIntF at h
  split at h
  all_goals first | (simp only [Except.error.injEq] at h; simp [← h]) | cases h

/-- The loop bodies themselves never raise `RuntimeError` or `KeyError`; plugins may. -/
theorem visit_error (ops : PluginOps PF PM) (w : World) (secs percent ts : ℤ) (k : Nat) {s : MPState PF PM} (hs : MPWf ops s) (i : Nat)
    {e : PyErr} (h : (phaseVisit (messageProcessor ops) w secs percent ts k s i).2 = .error e) :
    (e ≠ .runtimeError ∧ e ≠ .keyError) ∨ PluginRaises ops w statsPrefix secs e := by
  match k with
  | 0 =>
    have h : (counterVisit secs ts s i).2 = .error e := h
    left
    unfold counterVisit at h
    cases hi : s.counters[i]? with
    | none => simp [hi] at h
    | some p =>
      obtain ⟨key, c⟩ := p
      simp only [hi] at h
      cases hd : c.divInt secs with
      | ok x => simp [hd] at h
      | error e' =>
        simp only [hd, Except.error.injEq] at h; subst h
        rw [divInt_error hd]; simp
  | 1 =>
    have h : (timerVisit percent ts s i).2 = .error e := h
    left
    unfold timerVisit at h
    cases hi : s.timers[i]? with
    | none => simp [hi] at h
    | some p =>
      obtain ⟨key, c⟩ := p
      simp only [hi] at h
      split at h
      · split at h
        · rename_i e' heq
          simp only [Except.error.injEq] at h; subst h
          unfold timerThreshold at heq
          simp only at heq
          split_ifs at heq
          split at heq
          · rename_i hi'
            simp only [Except.error.injEq] at heq; subst heq
            rcases toIntF_error hi' with rfl | rfl <;> simp
          · split at heq
            · simp only [Except.error.injEq] at heq; subst heq; simp
            · split at heq
              · rename_i hd
                simp only [Except.error.injEq] at heq; subst heq
                rw [divInt_error hd]; simp
              · cases heq
        · cases h
      · cases h
  | 2 =>
    have h : (gaugeVisit ts s i).2 = .error e := h
    unfold gaugeVisit at h
    split at h <;> cases h
  | 3 =>
    have h : (meterVisit ts s i).2 = .error e := h
    left
    unfold meterVisit at h
    cases hi : s.meters[i]? with
    | none => simp [hi] at h
    | some p =>
      obtain ⟨key, m⟩ := p
      simp only [hi] at h
      cases hr : (m.report ts).2 with
      | ok l => simp [hr, Except.map] at h
      | error e' =>
        have he : e' = e := by simpa [hr, Except.map] using h
        subst he
        unfold Meter.report at hr
        simp only at hr
        split_ifs at hr
        split at hr
        · rename_i hd
          simp only [Except.error.injEq] at hr; subst hr
          rw [div_error hd]; simp
        · cases hr
  | k + 4 =>
    have h : (pluginVisit (messageProcessor ops) w secs ts s i).2 = .error e := h
    right
    unfold pluginVisit at h
    cases hi : s.pluginMetrics[i]? with
    | none => simp [hi] at h
    | some p =>
      obtain ⟨key, m⟩ := p
      simp only [hi] at h
      cases hr : (ops.flush w s.ticks m secs ts).2.2 with
      | ok l =>
        have hr' : ((messageProcessor ops).ops.flush w s.ticks m secs ts).2.2 = .ok l := hr
        simp [hr', Except.map] at h
      | error e' =>
        have hr' : ((messageProcessor ops).ops.flush w s.ticks m secs ts).2.2 = .error e' := hr
        have he : e' = e := by simpa [hr', Except.map] using h
        subst he
        exact ⟨_, _, _, _, hs.came _ (List.mem_of_getElem? hi), hr⟩

/-! ## Settled schedules -/

theorem sameNames_undisturbed (ops : PluginOps PF PM) {s s' : MPState PF PM} (hs : MPWf ops s) (hs' : MPWf ops s')
    (h : SameNames s s') {pc : Pc} (hu : Undisturbed (messageProcessor ops) s pc) :
    Undisturbed (messageProcessor ops) s' pc := by
  obtain ⟨h0, h1, h2, h3, h4, h5⟩ := h
  have hb : s'.byType.keys = s.byType.keys := by rw [hs'.shared.recv, h5, hs.shared.recv]
  have l0 := congrArg List.length h0
  have l1 := congrArg List.length h1
  have l3 := congrArg List.length h3
  have l4 := congrArg List.length h4
  have l5 := congrArg List.length h5
  simp only [Dict.keys, List.length_map] at l0 l1 l3 l4 l5
  cases pc with
  | inPhase k ts acc start size cursor events pend =>
    simp only [Undisturbed] at hu ⊢
    rw [← hu]
    unfold phaseLen
    split
    · exact l0
    · exact l1
    · rw [h2]
    · exact l3
    · exact l4
  | sumRecv ts size cursor cur pend =>
    simp only [Undisturbed] at hu ⊢
    rw [l5, hb]; exact hu
  | _ => trivial

theorem settled_run (ops : PluginOps PF PM) (w : World) (i : Nat) (interval percent : ℤ) (es : List Event) :
    ∀ (v : Server Num (List PyFloat) (List (PyFloat × Str)) PF PM) (pc : Pc), MPWf ops v.ps →
    v.gens[i]? = some ⟨interval, percent, pc⟩ → Undisturbed (messageProcessor ops) v.ps pc →
    (∀ e, pc = .crashed e → ∃ k ts c s0, MPWf ops s0 ∧
      (phaseVisit (messageProcessor ops) w (Int.fdiv interval 1000) percent ts k s0 c).2 = .error e) →
    (∀ j, Event.advance j ∈ es → j = i) → Settled (messageProcessor ops) w v es →
    ∃ pc', (v.run (messageProcessor ops) w es).gens[i]? = some ⟨interval, percent, pc'⟩ ∧
      ∀ e, pc' = .crashed e → ∃ k ts c s0, MPWf ops s0 ∧
        (phaseVisit (messageProcessor ops) w (Int.fdiv interval 1000) percent ts k s0 c).2 = .error e := by
  induction es with
  | nil => intro v pc _ hg _ hc _ _; exact ⟨pc, hg, hc⟩
  | cons e es ih =>
    intro v pc hv hg hu hc hj hst
    have hlt : i < v.gens.length := (List.getElem?_eq_some_iff.1 hg).1
    have hwf := mpwf_step ops w hv e
    rw [run_cons]
    have hj' : ∀ j, Event.advance j ∈ es → j = i := fun j h => hj j (by simp [h])
    cases e with
    | arrive m =>
      refine ih _ pc hwf hg ?_ hc hj' hst.2
      exact sameNames_undisturbed ops hv hwf hst.1 hu
    | spawn a b =>
      refine ih _ pc hwf ?_ hu hc hj' hst.2
      simp only [Server.step]; rw [List.getElem?_append_left hlt]; exact hg
    | advance j =>
      have := hj j (by simp)
      subst this
      obtain ⟨h1, h2⟩ := undisturbed_micro ops w hv (g := ⟨interval, percent, pc⟩) hu
      have hi := micro_interval (messageProcessor ops) w v.ps ⟨interval, percent, pc⟩
      rcases hm : micro (messageProcessor ops) w v.ps ⟨interval, percent, pc⟩ with ⟨s', ⟨iv, pr, pc'⟩, d⟩
      rw [hm] at h1 h2 hi
      simp only at h1 h2 hi
      obtain ⟨rfl, rfl⟩ := hi
      have e1 : v.step (messageProcessor ops) w (.advance j) =
          { ps := s', gens := v.gens.set j ⟨iv, pr, pc'⟩, out := v.out ++ d.toList } := by
        simp only [Server.step, hg, hm]
      rw [e1] at hwf ⊢
      refine ih _ pc' hwf (by simp [hlt]) h1 ?_ hj' ?_
      · intro e he
        rcases h2 e he with h | h
        · exact hc e h
        · exact h
      · have := hst.2; rw [e1] at this; exact this

end
end Txstatsd
