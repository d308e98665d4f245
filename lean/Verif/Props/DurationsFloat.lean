import Verif.Lemmas.DurationsFloat
import Verif.Props.Durations
import Verif.Props.Site

/-!
# C150: the durations of the summary, in doubles
-/

set_option linter.unusedVariables false
set_option linter.unusedSectionVars false

namespace Txstatsd
open Spec
section
variable [Rounding] [Ieee] {PF PM : Type}

theorem mp_time_near (ops : PluginOps PF PM) (plugins : List PF) (w : World) (hw : SteadyClock w) (os : List Op) (t : Str)
    (hn : (messages os).length ≤ 2 ^ 52) :
    TimeNear (runOps (messageProcessor ops) w (MPState.init ops plugins) os).1 t
      (workedSince (messageProcessor ops) w (· = t) (MPState.init ops plugins) 0 os)
      (handledSince (messageProcessor ops) w t (MPState.init ops plugins) 0 os) :=
  time_near w hw t (MPWf ops) (mp_local ops) (mp_timed ops) (fun s m h => mpwf_process ops w h m)
    (fun s i p h => mpwf_flush ops w i p h)
    (fun s i p h => ⟨fun e => ((flush_recv (mp_timed ops) w i p h.shared).1 e).1,
      fun e => ((flush_recv (mp_timed ops) w i p h.shared).2 e).1⟩) os (MPState.init ops plugins, []) 0 0 (mpwf_init ops plugins)
    (Or.inl ⟨rfl, rfl, rfl⟩) (by omega)

theorem handled_le {C T G : Type} (I : Impl C T G PF PM) (w : World) (t : Str) (os : List Op) (s : PS C T G PF PM) (n : ℕ) :
    handledSince I w t s n os ≤ n + (messages os).length := by
  classical
  induction os generalizing s n with
  | nil => simp [handledSince]
  | cons o os ih =>
    cases o with
    | msg m =>
      have hlen : (messages (Op.msg m :: os)).length = (messages os).length + 1 := by simp [messages]
      simp only [handledSince]
      refine (ih _ _).trans ?_
      rw [hlen]
      split <;> omega
    | flush i p =>
      have hlen : (messages (Op.flush i p :: os)).length = (messages os).length := by simp [messages]
      simp only [handledSince]
      refine (ih _ _).trans ?_
      rw [hlen]
      split <;> omega

/-- C150: `statsd.receive.<t>.duration` in doubles: a finite number of milliseconds that is not negative, within n + 1 roundings of the
time spent on the n messages of type `t` since the last completed flush. -/
theorem C150_receive (ops : PluginOps PF PM) (hq : Quiet ops c!"statsd.") (plugins : List PF) (w : World) (hw : SteadyClock w)
    (os : List Op) (hn : (messages os).length < 2 ^ 52) (interval percent : ℤ) (t : Str) :
    let s := (runOps (messageProcessor ops) w (MPState.init ops plugins) os).1
    let r := flush (messageProcessor ops) w interval percent s
    let n := handledSince (messageProcessor ops) w t (MPState.init ops plugins) 0 os
    r.2.2 = none → n ≠ 0 →
    ∃ v, named (c!"statsd.receive." ++ t ++ c!".duration") r.2.1 =
        [⟨c!"statsd.receive." ++ t ++ c!".duration", .flt (.fin v), truncQ (w.clk s.ticks)⟩] ∧ 0 ≤ v ∧
      Within (n + 1) v (1000 * workedSince (messageProcessor ops) w (· = t) (MPState.init ops plugins) 0 os) := by
  intro s r n hok h0
  have hwf : MPWf ops s := mpwf_runOps ops w (mpwf_init ops plugins) os
  obtain ⟨acc, hacc, hnm⟩ := named_summary ops hq w interval percent hwf hok
  have hr := summary_receive_time (messageProcessor ops) (truncQ (w.clk s.ticks)) acc hwf.shared t
  have ht := mp_time_near ops plugins w hw os t hn.le
  have hle := handled_le (messageProcessor ops) w t os (MPState.init ops plugins) 0
  change TimeNear s t _ n at ht
  have e := (hnm (c!"receive." ++ t ++ c!".duration")).trans hr
  change named (c!"statsd.receive." ++ t ++ c!".duration") r.2.1 = _ at e
  rcases ht with ⟨_, _, h⟩ | ⟨v, h1, h2, h3⟩
  · exact absurd h h0
  · have hn52 : n < 2 ^ 52 := by change n ≤ _ at hle; omega
    obtain ⟨c, c1, _, c2⟩ := near_scale hn52.le h2 (big_le hn52.le h3) (z := 1000) (by norm_num) (by norm_num)
    push_cast at c2
    refine ⟨c, ?_, c2.val, near_within c2 (by omega)⟩
    rw [e, h1]
    simp only [Option.map_some, Option.toList_some, c1]
    rfl

/-- The durations of the flush, in any arithmetic. -/
theorem flush_duration (ops : PluginOps PF PM) (hq : Quiet ops c!"statsd.") (w : World) (s : MPState PF PM) (hwf : MPWf ops s)
    (interval percent : ℤ) :
    let r := flush (messageProcessor ops) w interval percent s
    r.2.2 = none →
    ∃ (ws : List (Nat × Nat)) (acc : List PerMetric), Tiles (s.ticks + 1) ws r.1.ticks ∧ ws.length = 5 ∧
      (acc.map fun (p : PerMetric) => (p.1, p.2.2)) =
        List.zipWith (fun k (v : Nat × Nat) => (k, Num.flt (rnd (w.clk v.2 - w.clk v.1)))) flushKinds ws ∧
      r.1.lastFlush = acc.foldl (fun (a : Num) (p : PerMetric) => a.add p.2.2) (.int 0) ∧
      ∀ p ∈ flushKinds.zip ws, named (c!"statsd.flush." ++ p.1 ++ c!".duration") r.2.1 =
        [⟨c!"statsd.flush." ++ p.1 ++ c!".duration", (Num.flt (rnd (w.clk p.2.2 - w.clk p.2.1))).mul (.int 1000),
          truncQ (w.clk s.ticks)⟩] := by
  intro r hok
  obtain ⟨ws, acc, pre, t1, t2, t3, t4, t5, _⟩ := flush_tiles (mp_timed ops) w interval percent hwf.shared hok
  obtain ⟨acc', hacc', hn⟩ := named_summary ops hq w interval percent hwf hok
  refine ⟨ws, acc, t1, t2, t3, t5, fun p hp => ?_⟩
  rcases ws with _ | ⟨a, _ | ⟨b, _ | ⟨c, _ | ⟨d, _ | ⟨e, _ | ⟨f, ws⟩⟩⟩⟩⟩⟩ <;> simp at t2
  have hd := summary_durations (messageProcessor ops) (truncQ (w.clk s.ticks)) s t3
  have hacc : ∃ n0 n1 n2 n3 n4, (acc'.map fun (p : PerMetric) => (p.1, p.2.2)) =
      [(c!"counter", n0), (c!"timer", n1), (c!"gauge", n2), (c!"meter", n3), (c!"plugin", n4)] := by
    rcases acc' with _ | ⟨a', _ | ⟨b', _ | ⟨c', _ | ⟨d', _ | ⟨e', _ | ⟨f', acc'⟩⟩⟩⟩⟩⟩ <;> simp at hacc'
    obtain ⟨⟨h1, -⟩, ⟨h2, -⟩, ⟨h3, -⟩, ⟨h4, -⟩, ⟨h5, -⟩⟩ := hacc'
    exact ⟨a'.2.2, b'.2.2, c'.2.2, d'.2.2, e'.2.2, by simp [h1, h2, h3, h4, h5]⟩
  obtain ⟨n0, n1, n2, n3, n4, hacc⟩ := hacc
  have hd' := summary_durations (messageProcessor ops) (truncQ (w.clk s.ticks)) s hacc
  have key : ∀ (kind : Str) (x y : Num),
      named (c!"statsd." ++ c!"flush." ++ kind ++ c!".duration") (summaryPoints (messageProcessor ops) (truncQ (w.clk s.ticks)) acc s) =
        [⟨c!"statsd." ++ c!"flush." ++ kind ++ c!".duration", x.mul (.int 1000), truncQ (w.clk s.ticks)⟩] →
      named (c!"statsd." ++ c!"flush." ++ kind ++ c!".duration") (summaryPoints (messageProcessor ops) (truncQ (w.clk s.ticks)) acc' s) =
        [⟨c!"statsd." ++ c!"flush." ++ kind ++ c!".duration", y.mul (.int 1000), truncQ (w.clk s.ticks)⟩] →
      named (c!"statsd.flush." ++ kind ++ c!".duration") r.2.1 =
        [⟨c!"statsd.flush." ++ kind ++ c!".duration", x.mul (.int 1000), truncQ (w.clk s.ticks)⟩] := by
    intro kind x y h1 h2
    have h3 := hn (c!"flush." ++ kind ++ c!".duration")
    rw [t4, named_append] at h3
    have h4 : c!"statsd." ++ (c!"flush." ++ kind ++ c!".duration") = c!"statsd." ++ c!"flush." ++ kind ++ c!".duration" := by simp
    rw [h4, h1, h2] at h3
    have hl := congrArg List.length h3
    simp only [List.length_append, List.length_cons, List.length_nil] at hl
    have h0 : named (c!"statsd." ++ c!"flush." ++ kind ++ c!".duration") pre = [] := List.length_eq_zero_iff.1 (by omega)
    show named (c!"statsd." ++ c!"flush." ++ kind ++ c!".duration") (flush (messageProcessor ops) w interval percent s).2.1 = _
    rw [t4, named_append, h0, h1]
    rfl
  simp only [flushKinds, List.zip_cons_cons, List.zip_nil_right, List.mem_cons, List.not_mem_nil, or_false] at hp
  rcases hp with rfl | rfl | rfl | rfl | rfl
  · exact key c!"counter" _ n0 (hd (c!"counter", .flt (rnd (w.clk a.2 - w.clk a.1))) (by simp)) (hd' (c!"counter", n0) (by simp))
  · exact key c!"timer" _ n1 (hd (c!"timer", .flt (rnd (w.clk b.2 - w.clk b.1))) (by simp)) (hd' (c!"timer", n1) (by simp))
  · exact key c!"gauge" _ n2 (hd (c!"gauge", .flt (rnd (w.clk c.2 - w.clk c.1))) (by simp)) (hd' (c!"gauge", n2) (by simp))
  · exact key c!"meter" _ n3 (hd (c!"meter", .flt (rnd (w.clk d.2 - w.clk d.1))) (by simp)) (hd' (c!"meter", n3) (by simp))
  · exact key c!"plugin" _ n4 (hd (c!"plugin", .flt (rnd (w.clk e.2 - w.clk e.1))) (by simp)) (hd' (c!"plugin", n4) (by simp))

theorem tiles_le {a b : ℕ} {ws : List (ℕ × ℕ)} (h : Tiles a ws b) : ∀ v ∈ ws, v.1 ≤ v.2 := by
  induction h with
  | nil => simp
  | cons h _ ih =>
    intro v hv
    rcases List.mem_cons.1 hv with rfl | hv
    · exact h.le
    · exact ih v hv

/-- C150: `statsd.flush.<kind>.duration` in doubles: finite, not negative, and one rounding off the time between the two readings. -/
theorem C150_flush (ops : PluginOps PF PM) (hq : Quiet ops c!"statsd.") (plugins : List PF) (w : World) (hw : SteadyClock w)
    (os : List Op) (interval percent : ℤ) :
    let s := (runOps (messageProcessor ops) w (MPState.init ops plugins) os).1
    let r := flush (messageProcessor ops) w interval percent s
    r.2.2 = none →
    ∃ ws, Tiles (s.ticks + 1) ws r.1.ticks ∧ ws.length = 5 ∧
      ∀ p ∈ flushKinds.zip ws, ∃ v, named (c!"statsd.flush." ++ p.1 ++ c!".duration") r.2.1 =
        [⟨c!"statsd.flush." ++ p.1 ++ c!".duration", .flt (.fin v), truncQ (w.clk s.ticks)⟩] ∧ 0 ≤ v ∧
        Within 1 v (1000 * (w.clk p.2.2 - w.clk p.2.1)) := by
  intro s r hok
  have hwf : MPWf ops s := mpwf_runOps ops w (mpwf_init ops plugins) os
  obtain ⟨ws, acc, t1, t2, _, _, h⟩ := flush_duration ops hq w s hwf interval percent hok
  refine ⟨ws, t1, t2, fun p hp => ?_⟩
  obtain ⟨d1, d2, d3⟩ := steady_sub hw (tiles_le t1 p.2 (List.of_mem_zip hp).2)
  obtain ⟨c, c1, _, c2⟩ := near_scale (Nat.zero_le _) (near_refl d1 d2) (d3.trans (le_trans (by norm_num : (2 : ℚ) ^ 60 ≤ 2 ^ (60 : ℤ))
    (zpow_mono (by norm_num)))) (z := 1000) (by norm_num) (by norm_num)
  push_cast at c2
  refine ⟨c, ?_, c2.val, near_within c2 (by norm_num)⟩
  have := h p hp
  rw [d1, c1] at this
  exact this

theorem tiles_near {w : World} (hw : SteadyClock w) {a b : ℕ} {ws : List (ℕ × ℕ)} (h : Tiles a ws b) :
    ∀ (ks : List Str) (acc : List PerMetric), ws.length = ks.length → (acc.map fun (p : PerMetric) => (p.1, p.2.2)) =
        List.zipWith (fun k (v : Nat × Nat) => (k, Num.flt (rnd (w.clk v.2 - w.clk v.1)))) ks ws →
    List.Forall₂ (fun (p : PerMetric) y => ∃ v, p.2.2 = .flt (.fin v) ∧ Near 0 v y) acc (ws.map fun v => w.clk v.2 - w.clk v.1) ∧
      (ws.map fun v => w.clk v.2 - w.clk v.1).sum ≤ ws.length * 2 ^ 60 := by
  induction h with
  | nil a =>
    intro ks acc hl h
    rcases acc with _ | ⟨q, acc⟩
    · exact ⟨.nil, by simp⟩
    · simp at h
  | cons h _ ih =>
    rename_i a j b ws _
    intro ks acc hl e
    rcases ks with _ | ⟨k, ks⟩
    · simp at hl
    · rcases acc with _ | ⟨q, acc⟩
      · simp at e
      · simp only [List.map_cons, List.zipWith_cons_cons, List.cons.injEq] at e
        obtain ⟨i1, i2⟩ := ih ks acc (by simpa using hl) e.2
        obtain ⟨d1, d2, d3⟩ := steady_sub hw h.le
        refine ⟨.cons ⟨_, ?_, near_refl d1 d2⟩ i1, ?_⟩
        · have := congrArg Prod.snd e.1
          simp only at this
          rw [this, d1]
        · simp only [List.map_cons, List.sum_cons, List.length_cons]
          push_cast
          linarith

/-- The two times of the status page. -/
theorem status_near {C T G : Type} {I : Impl C T G PF PM} (Q : PS C T G PF PM → Prop) (hI : I.Local) (hT : I.Timed) (w : World)
    (hw : SteadyClock w) (hQs : ∀ s, Q s → Shared s) (hQm : ∀ s m, Q s → Q (process I w s m).1)
    (hQf : ∀ s i p, Q s → Q (flush I w i p s).1) (s0 : PS C T G PF PM) (h0 : Q s0) (he : s0.processTimings = []) (os : List Op)
    (interval percent : ℤ) (hn : (messages os).length < 2 ^ 49) :
    let s := (runOps I w s0 os).1
    let r := flush I w interval percent s
    r.2.2 = none →
    ∃ ws, Tiles (s.ticks + 1) ws r.1.ticks ∧ ws.length = 5 ∧
      (∃ f, r.1.lastFlush = .flt (.fin f) ∧ Near 5 f (ws.map fun v => w.clk v.2 - w.clk v.1).sum ∧
        (ws.map fun v => w.clk v.2 - w.clk v.1).sum ≤ 2 ^ (900 : ℤ)) ∧
      workedSince I w (fun _ => True) s0 0 os ≤ 2 ^ (900 : ℤ) ∧
      ((r.1.lastProcess = .int 0 ∧ workedSince I w (fun _ => True) s0 0 os = 0) ∨
       ∃ p, r.1.lastProcess = .flt (.fin p) ∧ Near (2 * (messages os).length) p (workedSince I w (fun _ => True) s0 0 os)) := by
  intro s r hok
  have hQ : ∀ (os : List Op) (c : PS C T G PF PM × List Datapoint), Q c.1 → Q (os.foldl (Op.apply I w) c).1 := by
    intro os
    induction os with
    | nil => intro c hc; exact hc
    | cons o os ih =>
      intro c hc
      rw [List.foldl_cons]
      cases o with
      | msg m => exact ih _ (hQm _ _ hc)
      | flush i p => exact ih _ (hQf _ _ _ hc)
  have hs : Shared s := hQs _ (hQ os (s0, []) h0)
  obtain ⟨ws, acc, pre', t1, t2, t3, t4, t5, t6⟩ := flush_tiles hT w interval percent hs hok
  have htot := total_near w hw Q hI hT hQm hQf
    (fun s i p h => ⟨fun e => ((flush_recv hT w i p (hQs s h)).1 e).1,
      fun e => ((flush_recv hT w i p (hQs s h)).2 e).1⟩) os (s0, []) 0 0 h0
    ⟨[], by simp only [he]; exact .nil, rfl, by simp, by simp [he]⟩ (by omega)
  rw [zero_add] at htot
  obtain ⟨ys, y1, y2, y3, y4⟩ := htot
  change List.Forall₂ _ s.processTimings ys at y1
  change s.processTimings.length ≤ _ at y4
  generalize (messages os).length = N at *
  refine ⟨ws, t1, t2, ?_, big_le (by omega) y3, ?_⟩
  · rw [show r.1.lastFlush = _ from t5]
    obtain ⟨z1, z2⟩ := tiles_near hw t1 flushKinds acc t2 t3
    have hl : acc.length = 5 := by rw [← t2]; simpa using z1.length_eq
    obtain ⟨c, c1, c2⟩ := fold_near_zero (fun p : PerMetric => p.2.2) acc _ (by rintro rfl; simp at hl) z1 (by omega)
      ((big_le (by omega : ws.length ≤ 2 ^ 52) z2).trans (zpow_mono (by norm_num)))
    rw [c1]
    rw [hl] at c2
    exact ⟨c, rfl, near_mono (by omega) c2, big_le (by omega : ws.length ≤ 2 ^ 52) z2⟩
  · rw [show r.1.lastProcess = _ from t6]
    by_cases hne : s.processTimings = []
    · rw [hne] at y1 ⊢
      cases y1
      exact Or.inl ⟨rfl, y2.symm⟩
    · obtain ⟨c, c1, c2⟩ := fold_near_zero (fun p : Str × Num => p.2) s.processTimings ys hne y1 (by omega)
        (by rw [y2]; exact (big_le (by omega) y3).trans (zpow_mono (by norm_num)))
      rw [c1]
      rw [y2] at c2
      exact Or.inr ⟨c, rfl, near_mono (by omega) c2⟩

/-- The decision of the status page, `total` being the exact sum of the two times. -/
theorem decide_near {i : ℤ} (hi : 0 ≤ i) (hi' : i ≤ 2 ^ 53) {n : ℕ} (hn : n < 2 ^ 49) {pt ft : Num} {p f f' : ℚ}
    (hft : ft = .flt (.fin f')) (hf : Near 5 f' f) (hfb : f ≤ 2 ^ (900 : ℤ)) (hpb : p ≤ 2 ^ (900 : ℤ))
    (hp : (pt = .int 0 ∧ p = 0) ∨ ∃ p', pt = .flt (.fin p') ∧ Near (2 * n) p' p) :
    ((1 + ((2 * n + 9 : ℕ) : ℚ) / 2 ^ 52) * (p + f) ≤ 7 / 10 * i → statusError i pt ft = false) ∧
    ((7 / 10 : ℚ) * i < (1 - ((2 * n + 9 : ℕ) : ℚ) / 2 ^ 52) * (p + f) → statusError i pt ft = true) := by
  subst hft
  have hsum : ∃ c, pt.add (.flt (.fin f')) = .flt (.fin c) ∧ Near (2 * n + 6) c (p + f) := by
    rcases hp with ⟨rfl, rfl⟩ | ⟨p', rfl, hp⟩
    · refine ⟨f', zero_add_dbl hf.dbl, ?_⟩
      rw [zero_add]; exact near_mono (by omega) hf
    · refine near_add (k := 2 * n + 5) (by omega) (near_mono (by omega) hp) (near_mono (by omega) hf) ?_
      have e : (2 : ℚ) ^ (1000 : ℤ) = 2 ^ (100 : ℤ) * 2 ^ (900 : ℤ) := by rw [← zpow_add₀ (by norm_num)]; norm_num
      have e2 : (2 : ℚ) ≤ 2 ^ (100 : ℤ) := le_trans (by norm_num : (2 : ℚ) ≤ 2 ^ (1 : ℤ)) (zpow_mono (by norm_num))
      have h9 := two_zpow_pos 900
      rw [e]
      generalize (2 : ℚ) ^ (900 : ℤ) = M at *
      generalize (2 : ℚ) ^ (100 : ℤ) = K at *
      nlinarith
  obtain ⟨c, hc, hcn⟩ := hsum
  have h7 : ∃ q, rnd (7 / 10) = .fin q ∧ Near 1 q (7 / 10) := by
    obtain ⟨q, hq, q0, q1⟩ := rnd_between rnd_zero rep_two (by norm_num : (0 : ℚ) ≤ 7 / 10)
      (le_trans (by norm_num : (7 / 10 : ℚ) ≤ 2 ^ (0 : ℤ)) (le_trans (zpow_mono (by norm_num : (0 : ℤ) ≤ 1000))
        (le_mul_of_one_le_left (two_zpow_pos 1000).le (by norm_num))))
    refine ⟨q, hq, Ieee.idem hq, q0, by norm_num, ?_⟩
    have hbig : (2 : ℚ) ^ (-1022 : ℤ) ≤ |7 / 10| := by
      rw [abs_of_pos (by norm_num)]
      exact le_trans (zpow_mono (by norm_num : (-1022 : ℤ) ≤ -1)) (by norm_num)
    have := Ieee.norm hbig hq
    rw [abs_of_pos (by norm_num : (0 : ℚ) < 7 / 10)] at this
    rw [pow_one]
    linarith
  obtain ⟨q, hq, hqn⟩ := h7
  have hthr : ∃ t, (Num.int i).mul (.flt (.fin q)) = .flt (.fin t) ∧ Near 2 t (7 / 10 * i) := by
    rcases hi.lt_or_eq with h | h
    · obtain ⟨t, _, t1, t2⟩ := near_scale (by norm_num) hqn (le_trans (by norm_num : (7 / 10 : ℚ) ≤ 2 ^ (0 : ℤ)) (zpow_mono (by norm_num))) h hi'
      exact ⟨t, t1, by rw [mul_comm]; exact t2⟩
    · subst h
      refine ⟨0, ?_, ⟨rnd_zero, le_refl _, by simp, by simp⟩⟩
      simp only [Num.mul, Num.toFloat, Int.cast_zero, rnd_zero, PyFloat.mul, zero_mul]
  obtain ⟨t, ht, htn⟩ := hthr
  have hst : statusError i pt (.flt (.fin f')) = decide (t < c) := by
    simp only [statusError, hq, ht, hc, Num.exact, PyFloat.lt]
  rw [hst]
  have hk : ((2 * n + 6 : ℕ) : ℚ) = 2 * n + 6 := by push_cast; ring
  have hk9 : ((2 * n + 9 : ℕ) : ℚ) = 2 * n + 9 := by push_cast; ring
  have w1 := near_within hcn (by omega)
  have w2 := near_within htn (by norm_num)
  unfold Within at w1 w2
  obtain ⟨a1, a2⟩ := abs_le.1 w1
  obtain ⟨b1, b2⟩ := abs_le.1 w2
  have hnq : (n : ℚ) ≤ 2 ^ 49 := by exact_mod_cast hn.le
  have hn0 : (0 : ℚ) ≤ n := Nat.cast_nonneg n
  clear hfb hpb
  have hT := hcn.exact
  have hθ := htn.exact
  rw [hk] at a1 a2
  rw [hk9]
  push_cast at b1 b2
  generalize p + f = T at *
  generalize (7 / 10 : ℚ) * i = θ at *
  constructor
  · intro h
    rw [decide_eq_false_iff_not, not_lt]
    have h1 : (1 - 2 / 2 ^ 52 : ℚ) * ((1 + (2 * n + 9) / 2 ^ 52) * T) ≤ (1 - 2 / 2 ^ 52) * θ :=
      mul_le_mul_of_nonneg_left h (by norm_num)
    have h2 : (1 + (2 * n + 6) / 2 ^ 52) * T ≤ (1 - 2 / 2 ^ 52 : ℚ) * ((1 + (2 * n + 9) / 2 ^ 52) * T) := by
      rw [← mul_assoc]
      refine mul_le_mul_of_nonneg_right ?_ hT
      norm_num
      linarith
    linarith
  · intro h
    rw [decide_eq_true_eq]
    have h1 : (1 + 2 / 2 ^ 52 : ℚ) * θ < (1 + 2 / 2 ^ 52 : ℚ) * ((1 - (2 * n + 9) / 2 ^ 52) * T) :=
      mul_lt_mul_of_pos_left h (by norm_num)
    have h2 : (1 + 2 / 2 ^ 52 : ℚ) * ((1 - (2 * n + 9) / 2 ^ 52) * T) ≤ (1 - (2 * n + 6) / 2 ^ 52) * T := by
      rw [← mul_assoc]
      refine mul_le_mul_of_nonneg_right ?_ hT
      norm_num
      linarith
    linarith

/-- What the status page says after a completed flush, of work that took `p` and a flush that took `f`; `n` messages so far. -/
def PageSays (n : ℕ) (i : ℤ) (ok : Bool) (pt ft : Num) (p f : ℚ) : Prop :=
  (∃ x, pt.exact = .fin x ∧ 0 ≤ x ∧ Within (2 * n) x p) ∧ (∃ x, ft.exact = .fin x ∧ 0 ≤ x ∧ Within 5 x f) ∧
  ((1 + ((2 * n + 9 : ℕ) : ℚ) / 2 ^ 52) * (p + f) ≤ 7 / 10 * i → ok = true) ∧
  ((7 / 10 : ℚ) * i < (1 - ((2 * n + 9 : ℕ) : ℚ) / 2 ^ 52) * (p + f) → ok = false)

theorem page_says {i : ℤ} (hi : 0 ≤ i) (hi' : i ≤ 2 ^ 53) {n : ℕ} (hn : n < 2 ^ 49) {pt ft : Num} {p f : ℚ} {ok : Bool}
    (hf : ∃ f', ft = .flt (.fin f') ∧ Near 5 f' f ∧ f ≤ 2 ^ (900 : ℤ)) (hpb : p ≤ 2 ^ (900 : ℤ))
    (hp : (pt = .int 0 ∧ p = 0) ∨ ∃ p', pt = .flt (.fin p') ∧ Near (2 * n) p' p)
    (hok : ok = true ↔ ¬ statusError i pt ft = true) : PageSays n i ok pt ft p f := by
  obtain ⟨f', h1, h2, h3⟩ := hf
  obtain ⟨d1, d2⟩ := decide_near hi hi' hn h1 h2 h3 hpb hp
  refine ⟨?_, ⟨f', by rw [h1]; rfl, h2.val, near_within h2 (by norm_num)⟩, fun h => hok.2 (by rw [d1 h]; decide), fun h => ?_⟩
  · rcases hp with ⟨rfl, rfl⟩ | ⟨p', rfl, hp⟩
    · exact ⟨0, by simp [Num.exact], le_refl _, by simp [Within]⟩
    · exact ⟨p', rfl, hp.val, near_within hp (by omega)⟩
  · have h4 : ¬ ok = true := fun e => hok.1 e (d2 h)
    simpa using h4

/-- C150: the status page after a completed flush, on the default processor: the two times are finite, not negative, and near the exact
ones; and the page decides by their exact sum, except within `2n + 9` roundings of the threshold. -/
theorem C150_page (ops : PluginOps PF PM) (plugins : List PF) (w : World) (hw : SteadyClock w) (os : List Op)
    (hn : (messages os).length < 2 ^ 49) (interval percent : ℤ) (pluginPage : PM → Option Response)
    (i : ℤ) (hi : 0 ≤ i) (hi' : i ≤ 2 ^ 53) :
    let s := (runOps (messageProcessor ops) w (MPState.init ops plugins) os).1
    let r := flush (messageProcessor ops) w interval percent s
    r.2.2 = none →
    ∃ ws, Tiles (s.ticks + 1) ws r.1.ticks ∧ ws.length = 5 ∧
      ∃ ok ft pt, (siteM pluginPage i r.1).answer c!"GET" c!"/status" = ⟨if ok then 200 else 500, .status ok ft pt i⟩ ∧
        PageSays (messages os).length i ok pt ft
          (workedSince (messageProcessor ops) w (fun _ => True) (MPState.init ops plugins) 0 os)
          (ws.map fun v => w.clk v.2 - w.clk v.1).sum := by
  intro s r hok
  obtain ⟨ws, t1, t2, t3, t4, t5⟩ := status_near (MPWf ops) (mp_local ops) (mp_timed ops) w hw (fun _ h => h.shared)
    (fun s m h => mpwf_process ops w h m) (fun s i p h => mpwf_flush ops w i p h) (MPState.init ops plugins) (mpwf_init ops plugins) rfl
    os interval percent hn hok
  obtain ⟨ok, e1, e2⟩ := C113_status (siteM pluginPage i r.1) c!"/status" [] (path_plain ⟨rfl, by simp, by decide⟩)
  exact ⟨ws, t1, t2, ok, r.1.lastFlush, r.1.lastProcess, e1, page_says hi hi' hn t3 t4 t5 e2⟩

/-- C150: the same on the configurable processor. -/
theorem C150_page_configurable (ops : PluginOps PF PM) (pre int : Str) (plugins : List PF) (w : World) (hw : SteadyClock w)
    (os : List Op) (hn : (messages os).length < 2 ^ 49) (interval percent : ℤ) (pluginPage : PM → Option Response)
    (i : ℤ) (hi : 0 ≤ i) (hi' : i ≤ 2 ^ 53) :
    let s := (runOps (configurable ops pre int) w (CPState.init ops plugins) os).1
    let r := flush (configurable ops pre int) w interval percent s
    r.2.2 = none →
    ∃ ws, Tiles (s.ticks + 1) ws r.1.ticks ∧ ws.length = 5 ∧
      ∃ ok ft pt, (siteC pluginPage i r.1).answer c!"GET" c!"/status" = ⟨if ok then 200 else 500, .status ok ft pt i⟩ ∧
        PageSays (messages os).length i ok pt ft
          (workedSince (configurable ops pre int) w (fun _ => True) (CPState.init ops plugins) 0 os)
          (ws.map fun v => w.clk v.2 - w.clk v.1).sum := by
  intro s r hok
  obtain ⟨ws, t1, t2, t3, t4, t5⟩ := status_near (CPWf ops pre) (cp_local ops pre int) (cp_timed ops pre int) w hw (fun _ h => h.shared)
    (fun s m h => cpwf_process ops pre int w h m) (fun s i p h => cpwf_flush ops pre int w i p h) (CPState.init ops plugins)
    (cpwf_init ops pre plugins) rfl os interval percent hn hok
  obtain ⟨ok, e1, e2⟩ := C113_status (siteC pluginPage i r.1) c!"/status" [] (path_plain ⟨rfl, by simp, by decide⟩)
  exact ⟨ws, t1, t2, ok, r.1.lastFlush, r.1.lastProcess, e1, page_says hi hi' hn t3 t4 t5 e2⟩

end

section
attribute [local instance] binary64

/-- A clock that starts in 2023 and is read every 1/1024 s (for 17 minutes). -/
def exSteady : World := { exWorld with clk := fun i => (1700000000 * 1024 + (min i (2 ^ 20) : ℕ) : ℤ) / 1024 }

theorem exSteady_steady : SteadyClock exSteady := by
  have := binary64_ieee
  have hm : ∀ i : ℕ, min i (2 ^ 20) ≤ 2 ^ 20 := fun i => Nat.min_le_right _ _
  have hq : ∀ i : ℕ, ((min i (2 ^ 20) : ℕ) : ℚ) ≤ 2 ^ 20 := fun i => by exact_mod_cast hm i
  have h0 : ∀ i : ℕ, (0 : ℚ) ≤ ((min i (2 ^ 20) : ℕ) : ℚ) := fun i => Nat.cast_nonneg _
  refine ⟨fun i => ?_, fun i j h => ?_, fun i j h => ?_, fun i => ?_⟩
  · refine Ieee.rep.2 ⟨⟨1700000000 * 1024 + (min i (2 ^ 20) : ℕ), -10, ?_, by norm_num, ?_⟩, ?_⟩
    · have := hm i
      rw [abs_of_nonneg (by positivity)]
      have : ((min i (2 ^ 20) : ℕ) : ℤ) ≤ 2 ^ 20 := by exact_mod_cast this
      linarith
    · simp only [exSteady]; norm_num; ring
    · refine lt_trans (b := (2 : ℚ) ^ (40 : ℤ)) ?_ (zpow_lt_zpow_right₀ (by norm_num) (by norm_num))
      simp only [exSteady]
      push_cast
      have a := hq i
      have b := h0 i
      push_cast at a b
      rw [abs_of_nonneg (by positivity)]
      linarith
  · have : ((min i (2 ^ 20) : ℕ) : ℚ) ≤ ((min j (2 ^ 20) : ℕ) : ℚ) := by exact_mod_cast min_le_min_right _ h
    simp only [exSteady]
    push_cast at this ⊢
    linarith
  · simp only [exSteady]
    have a := hq j
    have b := h0 i
    push_cast at a b ⊢
    linarith
  · simp only [exSteady]
    have a := hq i
    push_cast at a ⊢
    linarith

example : let s := (runOps (messageProcessor noPlugins) exSteady (MPState.init noPlugins []) [.msg c!"a:1|c", .msg c!"b:1|c", .msg c!"t:5|ms"]).1
    let r := flush (messageProcessor noPlugins) exSteady 10000 90 s
    r.2.2 = none ∧ (named c!"statsd.receive.c.duration" r.2.1).map (·.value) = [.flt (.fin (1000 / 512))] := by decide +kernel

end
end Txstatsd
