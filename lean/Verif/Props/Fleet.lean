import Verif.Spec.Fleet
import Verif.Props.EndToEnd
import Verif.Props.Sharded
import Verif.Props.Distinct
import Verif.Props.Metrics

set_option linter.unusedSectionVars false
set_option linter.unusedVariables false

/-!
# C176: counting on several services made of command lines, behind a sharded client
-/

namespace Txstatsd
open Spec
section
variable [Rounding] {N : Type}

/-- What holds of each part holds of the sum. -/
theorem parts_balance (key : Str) (e : ℚ) (texts : N → List Str) (Q : N → ℚ → Prop) (clients : List N)
    (h : ∀ n ∈ clients, ∀ qs, FiniteIncrements key (texts n) qs → AddsUp e qs → ∃ x, Q n x ∧ |x - amount qs| ≤ e * sizes qs)
    (qs : List (ℚ × ℚ)) (hinc : FiniteIncrements key (clients.flatMap texts) qs) (hc : AddsUp e qs) :
    ∃ xs : List ℚ, List.Forall₂ Q clients xs ∧ |xs.sum - amount qs| ≤ e * sizes qs := by
  induction clients generalizing qs with
  | nil =>
    have : qs = [] := by
      have := increments_unique hinc Increments.nil
      simpa using this
    subst this
    exact ⟨[], .nil, by simp [amount, sizes]⟩
  | cons n cs ih =>
    obtain ⟨qa, qb, h1, h2, h3⟩ := finite_parts (.refl _) (by simpa [List.flatMap_cons] using hinc)
    obtain ⟨xs, h4, h5⟩ := ih (fun m hm => h m (by simp [hm])) qb h2
      (addsUp_sub hc ((List.sublist_append_right qa qb).subperm.trans h3.subperm))
    obtain ⟨x, h8, h9⟩ := h n (by simp) qa h1 (addsUp_sub hc ((List.sublist_append_left qa qb).subperm.trans h3.subperm))
    refine ⟨x :: xs, .cons h8 h4, ?_⟩
    obtain ⟨a1, a2⟩ := parts_sum h3
    rw [a1, a2, List.sum_cons]
    have e' : x + xs.sum - (amount qa + amount qb) = (x - amount qa) + (xs.sum - amount qb) := by ring
    rw [e', mul_add]
    exact (abs_add_le _ _).trans (add_le_add h9 h5)

/-- If the monitor's message and what the service writes to itself are no increments of a counter, those taken in are those received. -/
theorem taken_received {key message : Str} (hm : ∀ v r, ¬ Increment message key v r) :
    ∀ {es : List AppEvent} {incs : List (PyFloat × PyFloat)}, (∀ t ∈ writtenInside es, ∀ v r, ¬ Increment t key v r) →
      Increments key (datagrams es) incs → Increments key (takenIn (some message) es) incs
  | [], incs, _, h => h
  | ev :: es, incs, hw, h => by
    have ih := @taken_received key message hm es
    cases ev with
    | receive d =>
      have hw' : ∀ t ∈ writtenInside es, ∀ v r, ¬ Increment t key v r := hw
      have h' : Increments key (d :: datagrams es) incs := h
      have e : takenIn (some message) (.receive d :: es) = (if message = d then [] else [d]) ++ takenIn (some message) es := by
        simp only [takenIn, List.filterMap_cons, Option.some.injEq]
        by_cases hd : message = d <;> simp [hd]
      rw [e]
      by_cases hd : message = d
      · subst hd
        simp only [if_true, List.nil_append]
        cases h' with
        | hit hi hr => exact absurd hi (hm _ _)
        | skip hi hr => exact ih hw' hr
      · simp only [if_neg hd, List.singleton_append]
        cases h' with
        | hit hi hr => exact .hit hi (ih hw' hr)
        | skip hi hr => exact .skip hi (ih hw' hr)
    | internal t =>
      have hw' : ∀ x ∈ t :: writtenInside es, ∀ v r, ¬ Increment x key v r := hw
      exact .skip (hw' t List.mem_cons_self) (ih (fun x hx => hw' x (List.mem_cons_of_mem _ hx)) h)
    | turn i => exact ih hw h
    | tick => exact ih hw h
    | advance i => exact ih hw h

end

section
variable [Rounding] [Power] {R N : Type} [LinearOrder N]

/-- C176: a client writes to several services through consistent hashing, each made of its own command line and files; whatever the
network does to the order, and in any schedule of each service, the counts of a counter that were sent to carbon, are under way or
stored, and the increments still scheduled, of all services together, add up to the increments that can be sent. -/
theorem C176_total (H : Hashing N) (clients : List N) (hne : clients ≠ []) (hnd : clients.Nodup) (datas : List Str)
    (rx : Regexes R) (c : N → Created R) (message : N → Str) (hs : ∀ n ∈ clients, OrdinaryService rx (c n) (message n))
    (w : N → World) (es : N → List AppEvent)
    (hes : ∀ n ∈ clients, (datagrams (es n)).Perm (toServer ((ShardedClient.init H clients).writes H datas).sent n))
    (key : Str) (hm : ∀ n ∈ clients, ∀ v r, ¬ Increment (message n) key v r)
    (hi : ∀ n ∈ clients, ∀ t ∈ writtenInside (es n), ∀ v r, ¬ Increment t key v r)
    (e : ℚ) (he : 0 ≤ e) (qs : List (ℚ × ℚ)) (hinc : FiniteIncrements key (sendable datas) qs) (hc : AddsUp e qs) :
    let v := fun n => App.run (messageProcessor shippedOps).proc ((c n).conf rx) (w n) { ps := MPState.init shippedOps (c n).plugins } (es n)
    (∀ n ∈ clients, (c n).kind = .default) ∧
    ∃ xs : List ℚ, List.Forall₂ (fun n x => ∃ waiting y, FiniteIncrements key (v n).scheduled waiting ∧
        SumOf (countsAt key (v n).out (v n).gens (v n).ps) y ∧ x = y + amount waiting) clients xs ∧
      |xs.sum - amount qs| ≤ e * sizes qs := by
  intro v
  constructor
  · intro n hn
    obtain ⟨files, argv, o, node, hasInfo, fs, interval, compliance, h1, h2, h3, h4, h5, h6, h7, -, -⟩ := hs n hn
    exact created_default h1 h2 h5 h6 h7
  obtain ⟨owner, h1, h2⟩ := sharded_sent H clients hne
  rw [h2] at hes
  have hp := servers_perm ((sendable datas).map fun d => (owner ((metricName d).getD []), d)) clients hnd (by
    intro p hp
    obtain ⟨d, _, rfl⟩ := List.mem_map.1 hp
    exact h1 _)
  rw [List.map_map] at hp
  have hid : (Prod.snd ∘ fun d => (owner ((metricName d).getD []), d)) = id := rfl
  rw [hid, List.map_id] at hp
  obtain ⟨qs', y, h3, h4, h5⟩ := finite_parts (b := []) (by simpa using hp) hinc
  have : y = [] := by
    have := increments_unique h4 Increments.nil
    simpa using this
  subst this
  rw [List.append_nil] at h5
  obtain ⟨b1, b2⟩ := parts_sum (qs := qs) (a := qs') (b := []) (by simpa using h5)
  have z1 : amount [] = 0 := rfl
  have z2 : sizes [] = 0 := rfl
  rw [b1, b2, z1, z2, add_zero, add_zero]
  refine parts_balance key e _ _ clients ?_ qs' h3 (addsUp_sub hc h5.subperm)
  intro n hn qn hqn hcn
  obtain ⟨files, argv, o, node, hasInfo, fs, interval, compliance, g1, g2, g3, g4, g5, g6, g7, g8, g9⟩ := hs n hn
  obtain ⟨qm, y', k1, k2, k3⟩ := finite_parts (a := datagrams (es n)) (b := []) (by simpa using hes n hn) hqn
  have : y' = [] := by
    have := increments_unique k2 Increments.nil
    simpa using this
  subst this
  rw [List.append_nil] at k3
  obtain ⟨-, waiting, x, l1, l2, l3⟩ := C172_counts files argv o g1 rx node hasInfo fs (c n) g2 interval g3 g4 compliance g5 g6 g7 g8 (message n) g9
    (w n) (es n) key e he qm (taken_received (hm n hn) (hi n hn) k1) (addsUp_sub hcn k3.subperm)
  refine ⟨x + amount waiting, ⟨waiting, x, l1, l2, rfl⟩, ?_⟩
  obtain ⟨c1, c2⟩ := parts_sum (qs := qn) (a := qm) (b := []) (by simpa using k3)
  rw [c1, c2, z1, z2, add_zero, add_zero]
  exact l3

/-- C176: exactly, in doubles, for whole unsampled increments. -/
theorem C176_whole [IntExact] (H : Hashing N) (clients : List N) (hne : clients ≠ []) (hnd : clients.Nodup) (datas : List Str)
    (rx : Regexes R) (c : N → Created R) (message : N → Str) (hs : ∀ n ∈ clients, OrdinaryService rx (c n) (message n))
    (w : N → World) (es : N → List AppEvent)
    (hes : ∀ n ∈ clients, (datagrams (es n)).Perm (toServer ((ShardedClient.init H clients).writes H datas).sent n))
    (key : Str) (hm : ∀ n ∈ clients, ∀ v r, ¬ Increment (message n) key v r)
    (hi : ∀ n ∈ clients, ∀ t ∈ writtenInside (es n), ∀ v r, ¬ Increment t key v r)
    (zs : List ℤ) (hinc : FiniteIncrements key (sendable datas) (zs.map fun z : ℤ => ((z : ℚ), (1 : ℚ)))) (hz : (zs.map abs).sum ≤ 2 ^ 53) :
    let v := fun n => App.run (messageProcessor shippedOps).proc ((c n).conf rx) (w n) { ps := MPState.init shippedOps (c n).plugins } (es n)
    ∃ xs : List ℚ, List.Forall₂ (fun n x => ∃ waiting y, FiniteIncrements key (v n).scheduled waiting ∧
        SumOf (countsAt key (v n).out (v n).gens (v n).ps) y ∧ x = y + amount waiting) clients xs ∧
      xs.sum = zs.sum := by
  intro v
  have h1 : amount (zs.map fun z : ℤ => ((z : ℚ), (1 : ℚ))) = zs.sum := by
    clear hinc hz
    induction zs with
    | nil => rfl
    | cons z zs ih => simp only [amount, List.map_cons, List.sum_cons] at ih ⊢; rw [ih]; push_cast; simp
  have h2 : sizes (zs.map fun z : ℤ => ((z : ℚ), (1 : ℚ))) = ((zs.map abs).sum : ℤ) := by
    clear hinc hz h1
    induction zs with
    | nil => rfl
    | cons z zs ih => simp only [sizes, List.map_cons, List.sum_cons] at ih ⊢; rw [ih]; push_cast; simp
  obtain ⟨-, xs, h3, h4⟩ := C176_total H clients hne hnd datas rx c message hs w es hes key hm hi 0 (le_refl _) _ hinc
    (C125_whole _ (by
      intro p hp
      obtain ⟨z, _, rfl⟩ := List.mem_map.1 hp
      exact ⟨rfl, z, rfl⟩) (by rw [h2]; exact_mod_cast hz))
  refine ⟨xs, h3, ?_⟩
  rw [h1, zero_mul] at h4
  exact sub_eq_zero.1 (abs_eq_zero.1 (le_antisymm h4 (abs_nonneg _)))

end

section
variable [Rounding] [Power] [IntExact] {R N : Type} [LinearOrder N]

theorem legal_small {c : Char} (h : Legal c) : c.toNat < 128 := by
  rcases h with h | rfl | rfl | rfl
  · simp only [Char.isAlphanum, Char.isAlpha, Char.isUpper, Char.isLower, Char.isDigit, Bool.or_eq_true, Bool.and_eq_true, decide_eq_true_eq,
      UInt32.le_iff_toNat_le, ge_iff_le] at h
    have : c.toNat = c.val.toNat := rfl
    rw [this]
    rcases h with (h | h) | h <;> · have := h.2; simp at this; omega
  · decide
  · decide
  · decide

/-- Whatever an ordinary program writes can be sent. -/
theorem ord_sendable {ns : Option Str} (hns : ∀ s, ns = some s → ∀ c ∈ s, Legal c) {fmt : PyFloat → Str} (hf : NumberTexts fmt) :
    ∀ (sts : List Client.Step) {c : Client}, OrdInv ns c → (∀ st ∈ sts, Ordinary st.call) →
      sendable (written (c.run fmt sts).2) = written (c.run fmt sts).2 := by
  intro sts
  induction sts with
  | nil => intro c h ho; rfl
  | cons st sts ih =>
    intro c h ho
    rw [Client.run_cons]
    obtain ⟨hi, hout⟩ := Client.ord_call hns h hf st.now st.draw (ho st (by simp))
    have ih' := ih hi (fun st' h' => ho st' (by simp [h']))
    simp only [written, List.filterMap_cons] at ih' ⊢
    rcases hout with ⟨h1, h2⟩ | ⟨n, text, t, hp, h1, h2⟩
    · simp only [h1]; exact ih'
    · simp only [h1]
      unfold sendable at ih' ⊢
      have hcol : ':' ∉ n := fun hc => absurd (hp.1 _ hc) (by decide)
      have hm : ∀ rest, metricName (n ++ (':' :: rest)) = some n := by
        intro rest
        unfold metricName
        rw [if_pos (by simp), List.takeWhile_append_of_pos (by
          intro c hc
          simp only [decide_eq_true_eq]
          rintro rfl
          exact hcol hc)]
        simp
      have ha : isAscii n = true := by
        simp only [isAscii, List.all_eq_true, decide_eq_true_eq]
        exact fun c hc => legal_small (hp.1 c hc)
      rw [List.filter_cons_of_pos, ih']
      simp [hm, ha]

/-- C176: from the calls to carbon. A program calls `increment`, `decrement`, `gauge`, `meter` and `timing` with legal names and without
sampling, on a `Metrics` object behind a sharded client; then the counts for a name on all services together are, at every moment, what the calls
added to it. -/
theorem C176_calls (H : Hashing N) (clients : List N) (hne : clients ≠ []) (hnd : clients.Nodup) (fmt : PyFloat → Str) (hf : NumberTexts fmt)
    (ns : Option Str) (hns : ∀ s, ns = some s → ∀ c ∈ s, Legal c) (sts : List Client.Step) (ho : ∀ st ∈ sts, Ordinary st.call)
    (rx : Regexes R) (c : N → Created R) (message : N → Str) (hs : ∀ n ∈ clients, OrdinaryService rx (c n) (message n))
    (w : N → World) (es : N → List AppEvent) (key : Str) (hm : ∀ n ∈ clients, ∀ v r, ¬ Increment (message n) key v r)
    (hi : ∀ n ∈ clients, ∀ t ∈ writtenInside (es n), ∀ v r, ¬ Increment t key v r) :
    let texts := written (({ conn := true, namespc := ns, ext := false } : Client).run fmt sts).2
    let zs := deltas ns key (sts.map Client.Step.call)
    let v := fun n => App.run (messageProcessor shippedOps).proc ((c n).conf rx) (w n) { ps := MPState.init shippedOps (c n).plugins } (es n)
    (∀ n ∈ clients, (datagrams (es n)).Perm (toServer ((ShardedClient.init H clients).writes H texts).sent n)) →
    (zs.map abs).sum ≤ 2 ^ 53 →
    ∃ xs : List ℚ, List.Forall₂ (fun n x => ∃ waiting y, FiniteIncrements key (v n).scheduled waiting ∧
        SumOf (countsAt key (v n).out (v n).gens (v n).ps) y ∧ x = y + amount waiting) clients xs ∧
      xs.sum = zs.sum := by
  intro texts zs v hes hz
  have hinv : OrdInv ns ({ conn := true, namespc := ns, ext := false } : Client) := ⟨rfl, rfl, rfl, Client.wf_empty rfl, by intro key m hm; cases hm⟩
  refine C176_whole H clients hne hnd texts rx c message hs w es hes key hm hi zs ?_ hz
  rw [ord_sendable hns hf sts hinv ho]
  have hinc := ord_run_increments hns hinv hf key sts ho
  have hb : ∀ z ∈ zs, |z| ≤ 2 ^ 53 := by
    intro z hzm
    refine le_trans ?_ hz
    exact List.single_le_sum (by intro x hx; obtain ⟨y, -, rfl⟩ := List.mem_map.1 hx; exact abs_nonneg _) _ (List.mem_map.2 ⟨z, hzm, rfl⟩)
  have h1 : rnd (1 : ℚ) = .fin 1 := by simpa using IntExact.rnd_int 1 (by norm_num)
  have hmap : zs.map (fun z : ℤ => (rnd (z : ℚ), rnd 1)) = (zs.map fun z : ℤ => ((z : ℚ), (1 : ℚ))).map fun p => (PyFloat.fin p.1, PyFloat.fin p.2) := by
    rw [List.map_map]
    refine List.map_congr_left fun z hzm => ?_
    simp only [Function.comp, h1, IntExact.rnd_int z (hb z hzm)]
  show Increments key _ _
  rw [← hmap]
  exact hinc

omit [Rounding] [Power] [IntExact] in
/-- What several writers of the same services, listed in any order, send to a server is what one writer of all their texts sends to it. -/
theorem toServer_flatMap (H : Hashing N) (clients : List N) (hne : clients ≠ []) (n : N) {A : Type} (f : A → List Str) (g : A → List N) (l : List A)
    (hg : ∀ a ∈ l, ∀ m, m ∈ g a ↔ m ∈ clients) :
    toServer ((ShardedClient.init H clients).writes H (l.flatMap f)).sent n =
      l.flatMap fun a => toServer ((ShardedClient.init H (g a)).writes H (f a)).sent n := by
  obtain ⟨owner, -, h2⟩ := C59_sharding H clients hne
  induction l with
  | nil => rw [h2 clients (fun _ => Iff.rfl)]; rfl
  | cons a l ih =>
    rw [List.flatMap_cons, List.flatMap_cons, ← ih (fun b hb => hg b (by simp [hb])), h2 clients (fun _ => Iff.rfl),
      h2 clients (fun _ => Iff.rfl), h2 (g a) (hg a (by simp)), List.filterMap_append]
    simp only [toServer, List.filter_append, List.map_append]

/-- C176: and with several programs, each with its own `Metrics` object, namespace and sharded client for the same services, which
each may list in its own order, the counts are what the calls of all of them added. -/
theorem C176_programs (H : Hashing N) (clients : List N) (hne : clients ≠ []) (hnd : clients.Nodup) (fmt : PyFloat → Str) (hf : NumberTexts fmt)
    (programs : List (Reporter N)) (hservices : ∀ p ∈ programs, ∀ n, n ∈ p.services ↔ n ∈ clients)
    (hns : ∀ p ∈ programs, ∀ s, p.namespc = some s → ∀ c ∈ s, Legal c) (ho : ∀ p ∈ programs, ∀ st ∈ p.steps, Ordinary st.call)
    (rx : Regexes R) (c : N → Created R) (message : N → Str) (hs : ∀ n ∈ clients, OrdinaryService rx (c n) (message n))
    (w : N → World) (es : N → List AppEvent) (key : Str) (hm : ∀ n ∈ clients, ∀ v r, ¬ Increment (message n) key v r)
    (hi : ∀ n ∈ clients, ∀ t ∈ writtenInside (es n), ∀ v r, ¬ Increment t key v r) :
    let texts := fun p : Reporter N => written (({ conn := true, namespc := p.namespc, ext := false } : Client).run fmt p.steps).2
    let zs : List ℤ := programs.flatMap fun p => p.adds key
    let v := fun n => App.run (messageProcessor shippedOps).proc ((c n).conf rx) (w n) { ps := MPState.init shippedOps (c n).plugins } (es n)
    (∀ n ∈ clients, (datagrams (es n)).Perm
      (programs.flatMap fun p => toServer ((ShardedClient.init H p.services).writes H (texts p)).sent n)) →
    (zs.map abs).sum ≤ 2 ^ 53 →
    ∃ xs : List ℚ, List.Forall₂ (fun n x => ∃ waiting y, FiniteIncrements key (v n).scheduled waiting ∧
        SumOf (countsAt key (v n).out (v n).gens (v n).ps) y ∧ x = y + amount waiting) clients xs ∧
      xs.sum = zs.sum := by
  intro texts zs v hes hz
  have hinv : ∀ ns, OrdInv ns ({ conn := true, namespc := ns, ext := false } : Client) :=
    fun ns => ⟨rfl, rfl, rfl, Client.wf_empty rfl, by intro key m hm; cases hm⟩
  refine C176_whole H clients hne hnd (programs.flatMap texts) rx c message hs w es
    (fun n hn => by rw [toServer_flatMap H clients hne n texts Reporter.services programs hservices]; exact hes n hn) key hm hi zs ?_ hz
  have hb : ∀ z ∈ zs, |z| ≤ 2 ^ 53 := by
    intro z hzm
    refine le_trans ?_ hz
    exact List.single_le_sum (by intro x hx; obtain ⟨y, -, rfl⟩ := List.mem_map.1 hx; exact abs_nonneg _) _ (List.mem_map.2 ⟨z, hzm, rfl⟩)
  have h1 : rnd (1 : ℚ) = .fin 1 := by simpa using IntExact.rnd_int 1 (by norm_num)
  have hmap : zs.map (fun z : ℤ => (rnd (z : ℚ), rnd 1)) = (zs.map fun z : ℤ => ((z : ℚ), (1 : ℚ))).map fun p => (PyFloat.fin p.1, PyFloat.fin p.2) := by
    rw [List.map_map]
    refine List.map_congr_left fun z hzm => ?_
    simp only [Function.comp, h1, IntExact.rnd_int z (hb z hzm)]
  show Increments key _ _
  rw [← hmap]
  clear hmap hb hz hes hservices
  show Increments key (sendable (programs.flatMap texts)) (List.map _ (programs.flatMap fun p => p.adds key))
  clear v zs
  induction programs with
  | nil => exact .nil
  | cons p ps ih =>
    rw [List.flatMap_cons, List.flatMap_cons, List.map_append]
    have ha : sendable (texts p ++ ps.flatMap texts) = sendable (texts p) ++ sendable (ps.flatMap texts) := by simp [sendable]
    rw [ha, ord_sendable (hns p (by simp)) hf p.steps (hinv p.namespc) (ho p (by simp))]
    exact increments_append (ord_run_increments (hns p (by simp)) (hinv p.namespc) hf key p.steps (ho p (by simp)))
      (ih (fun q hq => hns q (by simp [hq])) (fun q hq => ho q (by simp [hq])))

/-- The increments of a counter that an ordinary program writes are written under its name. -/
theorem ord_names {ns : Option Str} (hns : ∀ s, ns = some s → ∀ c ∈ s, Legal c) {fmt : PyFloat → Str} (hf : NumberTexts fmt) (key : Str) :
    ∀ (sts : List Client.Step) {c : Client}, OrdInv ns c → (∀ st ∈ sts, Ordinary st.call) →
      ∀ d ∈ written (c.run fmt sts).2, ∀ v r, Increment d key v r → metricName d = some key := by
  intro sts
  induction sts with
  | nil => intro c h ho d hd; cases hd
  | cons st sts ih =>
    intro c h ho
    rw [Client.run_cons]
    obtain ⟨hi, hout⟩ := Client.ord_call hns h hf st.now st.draw (ho st (by simp))
    have ih' := ih hi (fun st' h' => ho st' (by simp [h']))
    simp only [written, List.filterMap_cons] at ih' ⊢
    rcases hout with ⟨h1, h2⟩ | ⟨n, text, t, hp, h1, h2⟩
    · simp only [h1]; exact ih'
    · simp only [h1]
      intro d hd v r hinc
      rcases List.mem_cons.1 hd with rfl | hd
      · have hn : n = key := by
          by_contra hk
          exact hp.not_increment (Or.inl hk) v r hinc
        subst hn
        have hcol : ':' ∉ n := fun hc => absurd (hp.1 _ hc) (by decide)
        unfold metricName
        rw [if_pos (by simp), List.append_assoc, List.takeWhile_append_of_pos (by
          intro c hc
          simp only [decide_eq_true_eq]
          rintro rfl
          exact hcol hc)]
        simp
      · exact ih' d hd v r hinc

theorem sumOf_unique {vs : List Num} {x y : ℚ} (hx : SumOf vs x) (hy : SumOf vs y) : x = y := by
  obtain ⟨a, ha, rfl⟩ := hx
  obtain ⟨b, hb, rfl⟩ := hy
  congr 1
  induction ha generalizing b with
  | nil => cases hb; rfl
  | cons h _ ih =>
    cases hb with
    | cons h' hb =>
      rw [h] at h'
      simp only [PyFloat.fin.injEq] at h'
      rw [h', ih _ hb]

theorem only_one {Q : N → ℚ → Prop} {n : N} {l : List N} {xs : List ℚ} (h : List.Forall₂ Q l xs) (hnd : l.Nodup)
    (h0 : ∀ m ∈ l, m ≠ n → ∀ x, Q m x → x = 0) : (n ∈ l → Q n xs.sum) ∧ (n ∉ l → xs.sum = 0) := by
  induction h with
  | nil => exact ⟨fun h => absurd h (by simp), fun _ => rfl⟩
  | @cons m x l xs hq hr ih =>
    obtain ⟨ih1, ih2⟩ := ih (List.nodup_cons.1 hnd).2 (fun m hm => h0 m (by simp [hm]))
    rw [List.sum_cons]
    by_cases e : m = n
    · subst e
      rw [ih2 (List.nodup_cons.1 hnd).1, add_zero]
      exact ⟨fun _ => hq, fun h => absurd (by simp) h⟩
    · rw [h0 m (by simp) e x hq, zero_add]
      exact ⟨fun h => ih1 ((List.mem_cons.1 h).resolve_left (fun h => e h.symm)), fun h => ih2 (fun hl => h (by simp [hl]))⟩

/-- C176: one of the services has it all; no other one is ever sent an increment of the counter. -/
theorem C176_one (H : Hashing N) (clients : List N) (hne : clients ≠ []) (hnd : clients.Nodup) (fmt : PyFloat → Str) (hf : NumberTexts fmt)
    (programs : List (Reporter N)) (hservices : ∀ p ∈ programs, ∀ n, n ∈ p.services ↔ n ∈ clients)
    (hns : ∀ p ∈ programs, ∀ s, p.namespc = some s → ∀ c ∈ s, Legal c) (ho : ∀ p ∈ programs, ∀ st ∈ p.steps, Ordinary st.call)
    (rx : Regexes R) (c : N → Created R) (message : N → Str) (hs : ∀ n ∈ clients, OrdinaryService rx (c n) (message n))
    (w : N → World) (es : N → List AppEvent) (key : Str) (hm : ∀ n ∈ clients, ∀ v r, ¬ Increment (message n) key v r)
    (hi : ∀ n ∈ clients, ∀ t ∈ writtenInside (es n), ∀ v r, ¬ Increment t key v r) :
    let texts := fun p : Reporter N => written (({ conn := true, namespc := p.namespc, ext := false } : Client).run fmt p.steps).2
    let zs : List ℤ := programs.flatMap fun p => p.adds key
    let v := fun n => App.run (messageProcessor shippedOps).proc ((c n).conf rx) (w n) { ps := MPState.init shippedOps (c n).plugins } (es n)
    (∀ n ∈ clients, (datagrams (es n)).Perm
      (programs.flatMap fun p => toServer ((ShardedClient.init H p.services).writes H (texts p)).sent n)) →
    (zs.map abs).sum ≤ 2 ^ 53 →
    ∃ n ∈ clients, (∃ waiting y, FiniteIncrements key (v n).scheduled waiting ∧
        SumOf (countsAt key (v n).out (v n).gens (v n).ps) y ∧ y + amount waiting = zs.sum) ∧
      ∀ m ∈ clients, m ≠ n → (∀ d ∈ datagrams (es m), ∀ x r, ¬ Increment d key x r) ∧
        SumOf (countsAt key (v m).out (v m).gens (v m).ps) 0 := by
  intro texts zs v hes hz
  obtain ⟨xs, hx, hsum⟩ := C176_programs H clients hne hnd fmt hf programs hservices hns ho rx c message hs w es key hm hi hes hz
  obtain ⟨owner, h1, h2⟩ := C59_sharding H clients hne
  have hno : ∀ m ∈ clients, m ≠ owner key → ∀ d ∈ datagrams (es m), ∀ x r, ¬ Increment d key x r := by
    intro m hmc hmn d hd x r hinc
    have hd' := (hes m hmc).mem_iff.1 hd
    obtain ⟨p, hp, hd'⟩ := List.mem_flatMap.1 hd'
    rw [h2 p.services (hservices p hp)] at hd'
    simp only [toServer, List.mem_map, List.mem_filter, decide_eq_true_eq, List.mem_filterMap] at hd'
    obtain ⟨⟨n', d'⟩, ⟨⟨d'', hd'', heq⟩, hn'⟩, rfl⟩ := hd'
    have hdd : d'' = d' := by
      cases hmn : metricName d'' with
      | none => rw [hmn] at heq; cases heq
      | some name =>
        rw [hmn] at heq
        simp only at heq
        split_ifs at heq
        simp only [Option.some.injEq, Prod.mk.injEq] at heq
        exact heq.2
    subst hdd
    have hname := ord_names (hns p hp) hf key p.steps (c := { conn := true, namespc := p.namespc, ext := false })
      ⟨rfl, rfl, rfl, Client.wf_empty rfl, by intro key m hm; cases hm⟩ (ho p hp) d'' hd'' x r hinc
    rw [hname] at heq
    simp only at heq
    split_ifs at heq
    simp only [Option.some.injEq, Prod.mk.injEq] at heq
    exact hmn (by rw [← hn', ← heq.1])
  have hzero : ∀ m ∈ clients, m ≠ owner key → SumOf (countsAt key (v m).out (v m).gens (v m).ps) 0 ∧ FiniteIncrements key (v m).scheduled [] := by
    intro m hmc hmn
    obtain ⟨files, argv, o, node, hasInfo, fs, interval, compliance, g1, g2, g3, g4, g5, g6, g7, g8, g9⟩ := hs m hmc
    have hnil : Increments key (datagrams (es m)) [] := by
      have := hno m hmc hmn
      generalize datagrams (es m) = l at this
      induction l with
      | nil => exact .nil
      | cons d l ih => exact .skip (this d (by simp)) (ih fun d hd => this d (by simp [hd]))
    have htaken : FiniteIncrements key (takenIn (some (message m)) (es m)) [] := taken_received (hm m hmc) (hi m hmc) hnil
    obtain ⟨-, waiting, x, l1, l2, l3⟩ := C172_counts files argv o g1 rx node hasInfo fs (c m) g2 interval g3 g4 compliance g5 g6 g7 g8 (message m) g9
      (w m) (es m) key 0 le_rfl [] htaken (C125_whole [] (by simp) (by simp [sizes]))
    obtain ⟨es', k1, -⟩ := C92_processed_once (messageProcessor shippedOps) (textFree_messageProcessor _) ((c m).conf rx)
      (created_norules g1 g2 g8) (w m) (MPState.init shippedOps (c m).plugins) (es m)
    rw [created_message g1 g2 g9] at k1
    obtain ⟨qa, qb, f1, f2, f3⟩ := finite_parts k1 htaken
    obtain ⟨rfl, rfl⟩ : qa = [] ∧ qb = [] := by simpa using f3.eq_nil
    have hw : waiting = [] := by simpa using increments_unique l1 f2
    subst hw
    have hx0 : x = 0 := by
      have : |x + amount [] - amount []| ≤ 0 := by simpa using l3
      have := abs_eq_zero.1 (le_antisymm this (abs_nonneg _))
      simpa using this
    subst hx0
    exact ⟨l2, f2⟩
  obtain ⟨k1, -⟩ := only_one (n := owner key) hx hnd (by
    rintro m hmc hmn x ⟨waiting, y, q1, q2, rfl⟩
    obtain ⟨z1, z2⟩ := hzero m hmc hmn
    have hw : waiting = [] := by simpa using increments_unique q1 z2
    rw [sumOf_unique q2 z1, hw]
    simp [amount])
  obtain ⟨waiting, y, q1, q2, q3⟩ := k1 (h1 key)
  exact ⟨owner key, h1 key, ⟨waiting, y, q1, q2, by rw [← q3, hsum]⟩, fun m hmc hmn => ⟨hno m hmc hmn, (hzero m hmc hmn).1⟩⟩

omit [Rounding] [Power] [IntExact] in
theorem taken_from {message : Option Str} {es : List AppEvent} {t : Str} (h : t ∈ takenIn message es) : t ∈ datagrams es ∨ t ∈ writtenInside es := by
  simp only [takenIn, datagrams, writtenInside, List.mem_filterMap] at h ⊢
  obtain ⟨ev, hev, he⟩ := h
  cases ev with
  | receive d =>
    simp only at he
    split_ifs at he
    exact .inl ⟨_, hev, he⟩
  | internal d => exact .inr ⟨_, hev, he⟩
  | turn i => cases he
  | tick => cases he
  | advance i => cases he

omit [Rounding] [Power] [IntExact] in
/-- Where the texts that a server is sent come from. -/
theorem sent_from {H : Hashing N} {clients : List N} {owner : Str → N} (h2 : ∀ clients' : List N, (∀ n, n ∈ clients' ↔ n ∈ clients) → ∀ datas : List Str,
      ((ShardedClient.init H clients').writes H datas).sent = datas.filterMap fun d => match metricName d with
        | some name => if isAscii name then some (owner name, d) else none
        | none => none)
    {programs : List (Reporter N)} (hservices : ∀ p ∈ programs, ∀ n, n ∈ p.services ↔ n ∈ clients) {texts : Reporter N → List Str} {n : N} {t : Str}
    (hd' : t ∈ programs.flatMap fun p => toServer ((ShardedClient.init H p.services).writes H (texts p)).sent n) :
    ∃ p ∈ programs, t ∈ texts p ∧ ∃ name, metricName t = some name ∧ owner name = n := by
  obtain ⟨p, hp, hd'⟩ := List.mem_flatMap.1 hd'
  rw [h2 p.services (hservices p hp)] at hd'
  simp only [toServer, List.mem_map, List.mem_filter, decide_eq_true_eq, List.mem_filterMap] at hd'
  obtain ⟨⟨n', d'⟩, ⟨⟨d'', hd'', heq⟩, hn'⟩, rfl⟩ := hd'
  cases hmn : metricName d'' with
  | none => rw [hmn] at heq; cases heq
  | some name =>
    rw [hmn] at heq
    simp only at heq
    split_ifs at heq
    simp only [Option.some.injEq, Prod.mk.injEq] at heq
    obtain ⟨e1, rfl⟩ := heq
    exact ⟨p, hp, hd'', name, hmn, e1.trans hn'⟩

omit [IntExact] in
/-- C176: every point that a service sends to carbon is about texts that some of the programs wrote, each under a name that belongs to this
service, or that the service wrote to itself; no text is used more often than it was taken in. -/
theorem C176_points (H : Hashing N) (clients : List N) (hne : clients ≠ []) (fmt : PyFloat → Str)
    (programs : List (Reporter N)) (hservices : ∀ p ∈ programs, ∀ n, n ∈ p.services ↔ n ∈ clients)
    (rx : Regexes R) (c : N → Created R) (message : N → Str) (hs : ∀ n ∈ clients, OrdinaryService rx (c n) (message n))
    (w : N → World) (es : N → List AppEvent) (str : Num → Str) :
    let texts := fun p : Reporter N => written (({ conn := true, namespc := p.namespc, ext := false } : Client).run fmt p.steps).2
    (∀ n ∈ clients, (datagrams (es n)).Perm
      (programs.flatMap fun p => toServer ((ShardedClient.init H p.services).writes H (texts p)).sent n)) →
    ∃ owner : Str → N, ∀ n ∈ clients, ∀ d ∈ (behaviour str shippedOps (c n).plugins ((c n).conf rx) (w n) (es n) (c n).kind).out,
      ∃ done, done.Subperm (takenIn (some (message n)) (es n)) ∧
        (∀ t ∈ done, t ∈ writtenInside (es n) ∨ ∃ p ∈ programs, t ∈ texts p ∧ ∃ name, metricName t = some name ∧ owner name = n) ∧
        AboutD (ByPlugin shippedOps (w n) (MPState.init shippedOps (c n).plugins).plugins statsPrefix done) done d := by
  intro texts hes
  obtain ⟨owner, h1, h2⟩ := C59_sharding H clients hne
  refine ⟨owner, fun n hn d hd => ?_⟩
  obtain ⟨files, argv, o, node, hasInfo, fs, interval, compliance, g1, g2, g3, g4, g5, g6, g7, g8, g9⟩ := hs n hn
  obtain ⟨done, k1, k2⟩ := C172_default files argv o g1 rx node hasInfo fs (c n) g2 compliance g5 g6 g7 g8 (message n) g9 str (w n) (es n) d hd
  refine ⟨done, k1, fun t ht => ?_, k2⟩
  rcases taken_from (k1.subset ht) with h | h
  · right
    exact sent_from h2 hservices ((hes n hn).mem_iff.1 h)
  · exact .inl h

omit [IntExact] in
/-- C176: the same of services without compliance. -/
theorem C176_pointsC (H : Hashing N) (clients : List N) (hne : clients ≠ []) (fmt : PyFloat → Str)
    (programs : List (Reporter N)) (hservices : ∀ p ∈ programs, ∀ n, n ∈ p.services ↔ n ∈ clients)
    (rx : Regexes R) (c : N → Created R) (pre inst message : N → Str) (hs : ∀ n ∈ clients, PrefixedService rx (c n) (pre n) (inst n) (message n))
    (w : N → World) (es : N → List AppEvent) (str : Num → Str) :
    let texts := fun p : Reporter N => written (({ conn := true, namespc := p.namespc, ext := false } : Client).run fmt p.steps).2
    (∀ n ∈ clients, (datagrams (es n)).Perm
      (programs.flatMap fun p => toServer ((ShardedClient.init H p.services).writes H (texts p)).sent n)) →
    ∃ owner : Str → N, ∀ n ∈ clients, ∀ d ∈ (behaviour str shippedOps (c n).plugins ((c n).conf rx) (w n) (es n) (c n).kind).out,
      ∃ done, done.Subperm (takenIn (some (message n)) (es n)) ∧
        (∀ t ∈ done, t ∈ writtenInside (es n) ∨ ∃ p ∈ programs, t ∈ texts p ∧ ∃ name, metricName t = some name ∧ owner name = n) ∧
        AboutC (ByPlugin shippedOps (w n) (CPState.init shippedOps (c n).plugins).plugins (fun _ => pre n) done) (pre n)
          (pre n ++ c!"." ++ inst n ++ c!".") done d := by
  intro texts hes
  obtain ⟨owner, h1, h2⟩ := C59_sharding H clients hne
  refine ⟨owner, fun n hn d hd => ?_⟩
  obtain ⟨files, argv, o, node, hasInfo, fs, g1, g2, g3, g4, g5, g6, g7⟩ := hs n hn
  obtain ⟨done, k1, k2⟩ := C172_configurable files argv o g1 rx node hasInfo fs (c n) g2 g3 (pre n) (inst n) g4 g5 g6 (message n) g7 str (w n)
    (es n) d hd
  refine ⟨done, k1, fun t ht => ?_, k2⟩
  rcases taken_from (k1.subset ht) with h | h
  · right
    exact sent_from h2 hservices ((hes n hn).mem_iff.1 h)
  · exact .inl h

end

section
variable [Rounding] {R : Type}

/-- The service without arguments is one of these. -/
theorem ordinary_default (rx : Regexes R) (node : Str) (hasInfo : Bool) (fs : List Factory) :
    ∃ c : Created R, createService rx node hasInfo fs statsdOpts = .ok c ∧ OrdinaryService rx c c!"txstatsd ping" := by
  obtain ⟨h1, h2⟩ := C169_default (fun _ => none) rx node hasInfo fs
  exact ⟨_, h2, fun _ => none, [], statsdOpts, node, hasInfo, fs, 60000, 1, h1, h2, by decide +kernel, by decide, by decide +kernel, by decide,
    by decide +kernel, by decide +kernel, by decide +kernel⟩

/-- Two services get what the client of C149 sends; the second also its monitor's message, and the first writes to itself. -/
def exFleet : Nat → List AppEvent
  | 5 => [.receive c!"/x:1|c", .turn 0, .tick, .advance 0]
  | 0 => [.receive c!"-x:1|c", .internal c!"statsd.own:1|g", .turn 0]
  | _ => []

end

section
attribute [local instance] ratRounding

example : (∀ n ∈ [0, 5], (datagrams (exFleet n)).Perm
      (toServer ((ShardedClient.init slashHashing [0, 5]).writes slashHashing [c!"/x:1|c", c!"-x:1|c"]).sent n)) ∧
    (∀ n ∈ [0, 5], ∀ t ∈ writtenInside (exFleet n), ∀ v r, ¬ Increment t c!"-x" v r) ∧
    (∀ v r, ¬ Increment c!"txstatsd ping" c!"-x" v r) ∧
    FiniteIncrements c!"-x" (sendable [c!"/x:1|c", c!"-x:1|c", c!"junk"]) ([1, 1].map fun z : ℤ => ((z : ℚ), (1 : ℚ))) := by
  refine ⟨?_, ?_, ?_, ?_⟩
  · rw [slash_sent]
    intro n hn
    simp only [List.mem_cons, List.not_mem_nil, or_false] at hn
    rcases hn with rfl | rfl <;> decide
  · intro n hn t ht v r
    rintro ⟨f0, extra, hp, -⟩
    have : ∀ n ∈ [0, 5], ∀ t ∈ writtenInside (exFleet n), ((parseMessage t).map fun x => x.mtype) ≠ some c!"c" := by decide +kernel
    refine this n hn t ht ?_
    rw [parsed_iff.1 hp]
    rfl
  · rintro v r ⟨f0, extra, hp, -⟩
    have h1 := parsed_iff.1 hp
    rw [show parseMessage c!"txstatsd ping" = none by decide +kernel] at h1
    cases h1
  · have e : sendable [c!"/x:1|c", c!"-x:1|c", c!"junk"] = [c!"/x:1|c", c!"-x:1|c"] := by decide
    rw [e]
    simp only [List.map_cons, List.map_nil, Int.cast_one]
    exact .hit (increment_of (by decide +kernel)) (.hit (increment_of (by decide +kernel)) .nil)

/-- Two calls on names of different services. -/
def exCalls : List Client.Step :=
  [{ call := .increment (some c!"b") (.num (.int 3)) (.int 1) }, { call := .decrement (some c!"x") (.num (.int 1)) (.int 1) }]

/-- What two services may go through meanwhile. -/
def exFleetCalls : Nat → List AppEvent
  | 5 => [.receive c!"b:3|c", .turn 0, .tick, .advance 0]
  | 0 => [.internal c!"statsd.own:1|g", .receive c!"x:-1|c", .turn 0]
  | _ => []

example : (∀ st ∈ exCalls, Ordinary st.call) ∧ deltas none c!"x" (exCalls.map Client.Step.call) = [-1] ∧
    ∀ n ∈ [0, 5], (datagrams (exFleetCalls n)).Perm (toServer ((ShardedClient.init slashHashing [0, 5]).writes slashHashing
      (written (({ conn := true, namespc := none, ext := false } : Client).run exFmt exCalls).2)).sent n) := by
  refine ⟨?_, by decide, ?_⟩
  · intro st hst
    simp only [exCalls, List.mem_cons, List.not_mem_nil, or_false] at hst
    rcases hst with rfl | rfl
    · exact .increment (by decide) rfl
    · exact .decrement (by decide) rfl
  · have e : written (({ conn := true, namespc := none, ext := false } : Client).run exFmt exCalls).2 = [c!"b:3|c", c!"x:-1|c"] := by decide +kernel
    have h1 := slash_owner c!"b" (by decide)
    have h2 := slash_owner c!"x" (by decide)
    rw [show slashHashing.hash c!"b" = 1 by decide, if_pos rfl] at h1
    rw [show slashHashing.hash c!"x" = 0 by decide, if_neg (by decide)] at h2
    have hs : ((ShardedClient.init slashHashing [0, 5]).writes slashHashing [c!"b:3|c", c!"x:-1|c"]).sent =
        [(5, c!"b:3|c"), (0, c!"x:-1|c")] := by
      unfold ShardedClient.init
      exact writes_two slashHashing _ h1 h2 (x' := c!"3|c") (y' := c!"-1|c") (by decide) (by decide)
    rw [e, hs]
    intro n hn
    simp only [List.mem_cons, List.not_mem_nil, or_false] at hn
    rcases hn with rfl | rfl <;> decide

/-- Two programs which list the services in different orders and count under different names. -/
def exReporters : List (Reporter Nat) :=
  [{ services := [0, 5], namespc := none, steps := exCalls },
    { services := [5, 0], namespc := some c!"b", steps := [{ call := .increment (some c!"y") (.num (.int 2)) (.int 1) }] }]

example : (∀ p ∈ exReporters, ∀ n, n ∈ p.services ↔ n ∈ [0, 5]) ∧ (∀ p ∈ exReporters, ∀ s, p.namespc = some s → ∀ c ∈ s, Legal c) ∧
    (∀ p ∈ exReporters, ∀ st ∈ p.steps, Ordinary st.call) ∧ (exReporters.flatMap fun p => p.adds c!"b.y") = [2] ∧
    (exReporters.flatMap fun p => p.adds c!"x") = [-1] := by
  refine ⟨?_, ?_, ?_, by decide, by decide⟩
  · intro p hp n
    simp only [exReporters, List.mem_cons, List.not_mem_nil, or_false] at hp
    rcases hp with rfl | rfl <;> simp [or_comm]
  · intro p hp s hs c hc
    simp only [exReporters, List.mem_cons, List.not_mem_nil, or_false] at hp
    rcases hp with rfl | rfl
    · cases hs
    · cases hs
      revert c
      decide
  · intro p hp st hst
    simp only [exReporters, List.mem_cons, List.not_mem_nil, or_false] at hp
    rcases hp with rfl | rfl
    · simp only [exCalls, List.mem_cons, List.not_mem_nil, or_false] at hst
      rcases hst with rfl | rfl
      · exact .increment (by decide) rfl
      · exact .decrement (by decide) rfl
    · simp only [List.mem_cons, List.not_mem_nil, or_false] at hst
      subst hst
      exact .increment (by decide) rfl

/-- What the two services may go through meanwhile. -/
def exFleetPrograms : Nat → List AppEvent
  | 5 => [.receive c!"b.y:2|c", .turn 0, .tick, .receive c!"b:3|c", .advance 0]
  | 0 => [.internal c!"statsd.own:1|g", .receive c!"x:-1|c", .turn 0]
  | _ => []

example : ∀ n ∈ [0, 5], (datagrams (exFleetPrograms n)).Perm (exReporters.flatMap fun p => toServer ((ShardedClient.init slashHashing p.services).writes
    slashHashing (written (({ conn := true, namespc := p.namespc, ext := false } : Client).run exFmt p.steps).2)).sent n) := by
  intro n hn
  rw [← toServer_flatMap slashHashing [0, 5] (by decide) n
    (fun p : Reporter Nat => written (({ conn := true, namespc := p.namespc, ext := false } : Client).run exFmt p.steps).2) Reporter.services exReporters
    (by
      intro p hp n
      simp only [exReporters, List.mem_cons, List.not_mem_nil, or_false] at hp
      rcases hp with rfl | rfl <;> simp [or_comm])]
  have e : (exReporters.flatMap fun p => written (({ conn := true, namespc := p.namespc, ext := false } : Client).run exFmt p.steps).2) =
      [c!"b:3|c", c!"x:-1|c", c!"b.y:2|c"] := by decide +kernel
  have h1 := slash_owner c!"b" (by decide)
  have h2 := slash_owner c!"x" (by decide)
  have h3 := slash_owner c!"b.y" (by decide)
  rw [show slashHashing.hash c!"b" = 1 by decide, if_pos rfl] at h1
  rw [show slashHashing.hash c!"x" = 0 by decide, if_neg (by decide)] at h2
  rw [show slashHashing.hash c!"b.y" = 1 by decide, if_pos rfl] at h3
  have e1 : split1 ':' c!"b:3|c" = some (c!"b", c!"3|c") := by decide
  have e2 : split1 ':' c!"x:-1|c" = some (c!"x", c!"-1|c") := by decide
  have e3 : split1 ':' c!"b.y:2|c" = some (c!"b.y", c!"2|c") := by decide
  have hs : ((ShardedClient.init slashHashing [0, 5]).writes slashHashing [c!"b:3|c", c!"x:-1|c", c!"b.y:2|c"]).sent =
      [(5, c!"b:3|c"), (0, c!"x:-1|c"), (5, c!"b.y:2|c")] := by
    have three : ∀ r : HashRing Nat, r.getNode slashHashing c!"b" = .ok 5 → r.getNode slashHashing c!"x" = .ok 0 →
        r.getNode slashHashing c!"b.y" = .ok 5 → (({ ring := r, sent := [] } : ShardedClient Nat).writes slashHashing
          [c!"b:3|c", c!"x:-1|c", c!"b.y:2|c"]).sent = [(5, c!"b:3|c"), (0, c!"x:-1|c"), (5, c!"b.y:2|c")] := by
      intro r h1 h2 h3
      simp [ShardedClient.writes, ShardedClient.write, e1, e2, e3, h1, h2, h3]
    exact three _ h1 h2 h3
  rw [e, hs]
  simp only [List.mem_cons, List.not_mem_nil, or_false] at hn
  rcases hn with rfl | rfl <;> decide

/-- A service without compliance. -/
example : ∃ c, PrefixedService exRx c [] c!"host" c!"txstatsd ping" := by
  obtain ⟨o, c, h1, h2, h3, h4, h5, h6, h7, -⟩ := exPlain
  exact ⟨c, _, _, o, _, _, _, h1, h2, h3, h4, h5, h6, h7⟩

end
end Txstatsd
