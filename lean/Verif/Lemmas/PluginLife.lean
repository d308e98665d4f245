import Verif.Spec.PluginLife
import Verif.Lemmas.Watch
import Verif.Lemmas.Timed

set_option linter.unusedSectionVars false
set_option linter.unusedSimpArgs false
set_option linter.unusedVariables false

/-!
# Plugin metrics of any processor, watched through a schedule
-/

namespace Txstatsd
open Spec
section
variable [Rounding] {C T G PF PM : Type}

theorem plugin_builtin {I : Impl C T G PF PM} (hI : I.Local) (w : World) (s : PS C T G PF PM) {msg : Str} {m : Metric}
    (hp : parseMessage msg = some m) (ht : m.mtype ∈ [c!"c", c!"ms", c!"g", c!"m"]) :
    (process I w s msg).1.pluginMetrics = s.pluginMetrics := by
  rw [process_obs obs_pluginMetrics, hp]
  simp only
  unfold dispatch
  simp only [List.mem_cons, List.not_mem_nil, or_false] at ht
  split_ifs with h1 h2 h3 h4
  · exact (hI.counter w { s with ticks := s.ticks + 1 } m.key m.fields msg).pluginMetrics
  · simp only [processTimer]; split
    · rfl
    · exact (hI.timer w { s with ticks := s.ticks + 1 } m.key _).pluginMetrics
  · simp only [processGauge]; split
    · rfl
    · split
      · rfl
      · exact (hI.gauge { s with ticks := s.ticks + 1 } m.key _).pluginMetrics
  · simp only [processMeter, composeMeter]; split
    · rfl
    · split
      · rfl
      · split <;> rfl
  · simp_all

theorem plugin_unregistered {I : Impl C T G PF PM} (hI : I.Local) (w : World) (s : PS C T G PF PM) {msg : Str} {m : Metric}
    (hp : parseMessage msg = some m) (hf : s.plugins.find m.mtype = none) :
    (process I w s msg).1.pluginMetrics = s.pluginMetrics := by
  by_cases ht : m.mtype ∈ [c!"c", c!"ms", c!"g", c!"m"]
  · exact plugin_builtin hI w s hp ht
  · rw [process_obs obs_pluginMetrics, hp]
    simp only
    unfold dispatch
    simp only [List.mem_cons, List.not_mem_nil, or_false, not_or] at ht
    obtain ⟨h1, h2, h3, h4⟩ := ht
    simp only [h1, h2, h3, h4, if_false, hf]

theorem plugin_process (I : Impl C T G PF PM) (w : World) (s : PS C T G PF PM) {msg : Str} {m : Metric}
    (hp : parseMessage msg = some m) (ht : m.mtype ∉ [c!"c", c!"ms", c!"g", c!"m"]) {f : PF}
    (hf : s.plugins.find m.mtype = some f) :
    let pm := (s.pluginMetrics.find m.key).getD (I.ops.build w (s.ticks + 1) f (I.messagePrefix (I.ops.name f)) m.key)
    let r := I.ops.process w (s.ticks + 1) pm m.fields
    (process I w s msg).1.pluginMetrics.find m.key = some r.1 ∧
    (∀ k, k ≠ m.key → (process I w s msg).1.pluginMetrics.find k = s.pluginMetrics.find k) ∧
    s.ticks + 1 + r.2.1 ≤ (process I w s msg).1.ticks := by
  simp only [List.mem_cons, List.not_mem_nil, or_false, not_or] at ht
  obtain ⟨h1, h2, h3, h4⟩ := ht
  intro pm r
  have hd : dispatch I w { s with ticks := s.ticks + 1 } msg m = some (processPlugin I w { s with ticks := s.ticks + 1 } f m.key m.fields) := by
    unfold dispatch
    simp only [h1, h2, h3, h4, if_false, hf]
  refine ⟨?_, ?_, ?_⟩
  · rw [process_obs obs_pluginMetrics, hp]
    simp only [hd]
    simp only [processPlugin]
    cases hk : s.pluginMetrics.find m.key with
    | some q => simp only [hk, Dict.find_put_self, r, pm]; rfl
    | none => simp only [Dict.find_put_self, r, pm, hk]; rfl
  · intro k hk'
    rw [process_obs obs_pluginMetrics, hp]
    simp only [hd]
    simp only [processPlugin]
    cases hk : s.pluginMetrics.find m.key with
    | some q => simp only [hk, Dict.find_put_ne _ _ hk']
    | none => simp only [Dict.find_put_self, Dict.find_put_ne _ _ hk']
  · unfold process
    simp only [hp]
    unfold processMessage
    simp only [hd]
    unfold finish
    cases hk : s.pluginMetrics.find m.key with
    | some q =>
      simp only [r, pm, processPlugin, hk, Option.getD_some]
      split
      · simp only [account]; exact Nat.le_succ _
      · exact le_refl _
    | none =>
      simp only [r, pm, processPlugin, hk, Option.getD_none, Dict.find_put_self]
      split
      · simp only [account]; exact Nat.le_succ _
      · exact le_refl _

theorem process_registered {I : Impl C T G PF PM} (hI : I.Local) (w : World) (s : PS C T G PF PM) (msg : Str) :
    (process I w s msg).1.plugins = s.plugins := by
  rw [process_obs obs_plugins]
  cases parseMessage msg with
  | none => rfl
  | some m =>
    simp only
    cases hd : dispatch I w { s with ticks := s.ticks + 1 } msg m with
    | none => rfl
    | some r => exact (dispatch_recv hI w hd).2.2.1

theorem pluginMsgs_snoc (P : Dict PF) (key : Str) (ms : List Str) (m : Str) :
    pluginMsgs P key (ms ++ [m]) = pluginMsgs P key ms ++ pluginMsgs P key [m] := by
  simp [pluginMsgs]

/-- What a message does to the plugin metric of a name. -/
theorem plugin_arrive {I : Impl C T G PF PM} (hI : I.Local) (w : World) (s : PS C T G PF PM) (msg key : Str) :
    (pluginMsgs s.plugins key [msg] = [] ∧ (process I w s msg).1.pluginMetrics.find key = s.pluginMetrics.find key) ∨
    ∃ m f, pluginMsgs s.plugins key [msg] = [m] ∧ s.plugins.find m.mtype = some f ∧
      let pm := (s.pluginMetrics.find key).getD (I.ops.build w (s.ticks + 1) f (I.messagePrefix (I.ops.name f)) key)
      let r := I.ops.process w (s.ticks + 1) pm m.fields
      (process I w s msg).1.pluginMetrics.find key = some r.1 ∧ s.ticks + 1 + r.2.1 ≤ (process I w s msg).1.ticks := by
  cases hp : parseMessage msg with
  | none => exact .inl ⟨by simp [pluginMsgs, hp], by simp [process, hp]⟩
  | some m =>
    by_cases ht : m.mtype ∈ [c!"c", c!"ms", c!"g", c!"m"]
    · refine .inl ⟨?_, by rw [plugin_builtin hI w s hp ht]⟩
      simp only [pluginMsgs, List.filterMap_cons, hp, List.filterMap_nil]
      rw [if_neg (fun h => h.2.1 ht)]
    · cases hf : s.plugins.find m.mtype with
      | none =>
        refine .inl ⟨?_, by rw [plugin_unregistered hI w s hp hf]⟩
        simp only [pluginMsgs, List.filterMap_cons, hp, List.filterMap_nil]
        rw [if_neg (fun h => by have := h.2.2; rw [hf] at this; cases this)]
      | some f =>
        obtain ⟨h1, h2, h3⟩ := plugin_process I w s hp ht hf
        by_cases hk : m.key = key
        · subst hk
          refine .inr ⟨m, f, ?_, hf, h1, h3⟩
          simp only [pluginMsgs, List.filterMap_cons, hp, List.filterMap_nil]
          rw [if_pos ⟨by simp, ht, by rw [hf]; rfl⟩]
        · refine .inl ⟨?_, h2 key (Ne.symm hk)⟩
          simp only [pluginMsgs, List.filterMap_cons, hp, List.filterMap_nil]
          rw [if_neg (fun h => hk h.1)]

/-- The loop bodies of the other phases leave the plugin metrics alone. -/
structure Impl.Apart (I : Impl C T G PF PM) : Prop where
  counterVisit : ∀ a b s i, (I.counterVisit a b s i).1.pluginMetrics = s.pluginMetrics ∧ (I.counterVisit a b s i).1.plugins = s.plugins
  timerVisit : ∀ a b s i, (I.timerVisit a b s i).1.pluginMetrics = s.pluginMetrics ∧ (I.timerVisit a b s i).1.plugins = s.plugins
  gaugeVisit : ∀ a s i, (I.gaugeVisit a s i).1.pluginMetrics = s.pluginMetrics ∧ (I.gaugeVisit a s i).1.plugins = s.plugins

theorem apart_visit {I : Impl C T G PF PM} (hI : I.Apart) (w : World) (secs percent ts : ℤ) {k : Nat} (hk : k < 4)
    (s : PS C T G PF PM) (i : Nat) :
    (phaseVisit I w secs percent ts k s i).1.pluginMetrics = s.pluginMetrics ∧
    (phaseVisit I w secs percent ts k s i).1.plugins = s.plugins := by
  match k, hk with
  | 0, _ => exact hI.counterVisit _ _ _ _
  | 1, _ => exact hI.timerVisit _ _ _ _
  | 2, _ => exact hI.gaugeVisit _ _ _
  | 3, _ =>
    show (meterVisit ts s i).1.pluginMetrics = _ ∧ (meterVisit ts s i).1.plugins = _
    unfold meterVisit
    split <;> exact ⟨rfl, rfl⟩

theorem mp_apart (ops : PluginOps PF PM) : (messageProcessor ops).Apart where
  counterVisit := by intro a b s i; show (counterVisit a b s i).1.pluginMetrics = _ ∧ (counterVisit a b s i).1.plugins = _
                     unfold counterVisit; split <;> (try split) <;> exact ⟨rfl, rfl⟩
  timerVisit := by intro a b s i; show (timerVisit a b s i).1.pluginMetrics = _ ∧ (timerVisit a b s i).1.plugins = _
                   unfold timerVisit; split <;> (try split) <;> simp only <;> (try split) <;> simp
  gaugeVisit := by intro a s i; show (gaugeVisit a s i).1.pluginMetrics = _ ∧ (gaugeVisit a s i).1.plugins = _
                   unfold gaugeVisit; split <;> exact ⟨rfl, rfl⟩

theorem cp_apart (ops : PluginOps PF PM) (pre int : Str) : (configurable ops pre int).Apart where
  counterVisit := by intro a b s i; show (counterVisitC a b s i).1.pluginMetrics = _ ∧ (counterVisitC a b s i).1.plugins = _
                     unfold counterVisitC; split <;> exact ⟨rfl, rfl⟩
  timerVisit := by intro a b s i; show (timerVisitC a b s i).1.pluginMetrics = _ ∧ (timerVisitC a b s i).1.plugins = _
                   unfold timerVisitC; split <;> exact ⟨rfl, rfl⟩
  gaugeVisit := by intro a s i; show (gaugeVisitC a s i).1.pluginMetrics = _ ∧ (gaugeVisitC a s i).1.plugins = _
                   unfold gaugeVisitC; split <;> exact ⟨rfl, rfl⟩

/-- What a plugin visit does. -/
theorem plugin_visit (I : Impl C T G PF PM) (w : World) (secs ts : ℤ) {s : PS C T G PF PM} (hs : Dict.Wf s.pluginMetrics) {i : Nat}
    (hi : i < s.pluginMetrics.length) :
    ∃ k pm, s.pluginMetrics.find k = some pm ∧
      let f := I.ops.flush w s.ticks pm secs ts
      let r := pluginVisit I w secs ts s i
      r.1.pluginMetrics.find k = some f.1 ∧ (∀ k', k' ≠ k → r.1.pluginMetrics.find k' = s.pluginMetrics.find k') ∧
      r.1.ticks = s.ticks + f.2.1 ∧ visited r.2 = madeBy f.2.2 ∧ r.1.plugins = s.plugins := by
  rcases he : s.pluginMetrics[i]'hi with ⟨k, pm⟩
  have hg : s.pluginMetrics[i]? = some (k, pm) := by rw [List.getElem?_eq_getElem hi, he]
  refine ⟨k, pm, Dict.find_of_mem hs (List.mem_of_getElem? hg), ?_⟩
  intro f r
  have hr1 : r.1 = { s with ticks := s.ticks + f.2.1, pluginMetrics := s.pluginMetrics.put k f.1 } := by
    simp only [r, pluginVisit, hg]; rfl
  have hr2 : r.2 = f.2.2.map some := by simp only [r, pluginVisit, hg]; rfl
  refine ⟨by rw [hr1]; exact Dict.find_put_self _ _ _, fun k' hk' => by rw [hr1]; exact Dict.find_put_ne _ _ hk', by rw [hr1], ?_, by rw [hr1]⟩
  rw [hr2]
  cases f.2.2 <;> rfl

/-- Every stored plugin metric is the outcome of a life with exactly the messages of its name. -/
def Lives (ops : PluginOps PF PM) (w : World) (P : Dict PF) (pre : Str → Str) (s : PS C T G PF PM) (ms : List Str) : Prop :=
  s.plugins = P ∧ ∀ k, (s.pluginMetrics.find k = none ∧ pluginMsgs P k ms = []) ∨
    ∃ m t gs, s.pluginMetrics.find k = some m ∧ t ≤ s.ticks ∧ PluginLife ops w P pre k t (pluginMsgs P k ms) gs m

theorem lives_init (ops : PluginOps PF PM) (w : World) (pre : Str → Str) {s : PS C T G PF PM} (h : s.pluginMetrics = []) :
    Lives ops w s.plugins pre s [] :=
  ⟨rfl, fun k => .inl ⟨by rw [h]; rfl, rfl⟩⟩

theorem lives_same {ops : PluginOps PF PM} {w : World} {P : Dict PF} {pre : Str → Str} {s s' : PS C T G PF PM} {ms : List Str}
    (h1 : s'.plugins = s.plugins) (h2 : s'.pluginMetrics = s.pluginMetrics) (h3 : s.ticks ≤ s'.ticks) (h : Lives ops w P pre s ms) :
    Lives ops w P pre s' ms := by
  refine ⟨h1.trans h.1, fun k => ?_⟩
  rw [h2]
  rcases h.2 k with h | ⟨m, t, gs, a, b, c⟩
  · exact .inl h
  · exact .inr ⟨m, t, gs, a, le_trans b h3, c⟩

theorem lives_arrive {I : Impl C T G PF PM} (hI : I.Local) (hT : I.Timed) {w : World} {P : Dict PF} {s : PS C T G PF PM}
    {ms : List Str} (h : Lives I.ops w P I.messagePrefix s ms) (msg : Str) :
    Lives I.ops w P I.messagePrefix (process I w s msg).1 (ms ++ [msg]) := by
  refine ⟨(process_registered hI w s msg).trans h.1, fun k => ?_⟩
  have ht := process_ticks hT w s msg
  rw [pluginMsgs_snoc]
  rcases plugin_arrive hI w s msg k with ⟨e1, e2⟩ | ⟨m, f, e1, e2, e3, e4⟩
  · rw [h.1] at e1
    rw [e1, e2, List.append_nil]
    rcases h.2 k with h | ⟨m, t, gs, a, b, c⟩
    · exact .inl h
    · exact .inr ⟨m, t, gs, a, le_trans b ht, c⟩
  · rw [h.1] at e1 e2
    rw [e1]
    rcases h.2 k with ⟨a, b⟩ | ⟨m', t, gs, a, b, c⟩
    · simp only [a, Option.getD_none] at e3 e4
      rw [b]
      exact .inr ⟨_, _, [], e3, le_refl _, .born e2 e4⟩
    · simp only [a, Option.getD_some] at e3 e4
      exact .inr ⟨_, _, gs, e3, le_refl _, .message m c (by omega) e4⟩

theorem lives_visit {I : Impl C T G PF PM} (hA : I.Apart) (hT : I.Timed) {w : World} {P : Dict PF} {s : PS C T G PF PM}
    (hs : Shared s) {ms : List Str} (h : Lives I.ops w P I.messagePrefix s ms) (secs percent ts : ℤ) (k : Nat) {i : Nat}
    (hi : i < phaseLen I s k) :
    Lives I.ops w P I.messagePrefix (phaseVisit I w secs percent ts k s i).1 ms := by
  have ht : s.ticks ≤ _ := (phaseVisit_calm hT w secs percent ts k s i).ticks
  by_cases hk : k < 4
  · obtain ⟨h1, h2⟩ := apart_visit hA w secs percent ts hk s i
    exact lives_same h2 h1 ht h
  · obtain ⟨j, rfl⟩ : ∃ j, k = j + 4 := ⟨k - 4, by omega⟩
    have hi : i < s.pluginMetrics.length := hi
    obtain ⟨key, pm, e1, e2, e3, e4, e5, e6⟩ := plugin_visit I w secs ts hs.pluginMetrics hi
    show Lives I.ops w P I.messagePrefix (pluginVisit I w secs ts s i).1 ms
    refine ⟨e6.trans h.1, fun k => ?_⟩
    by_cases hk : k = key
    · subst hk
      rcases h.2 k with ⟨a, _⟩ | ⟨m, t, gs, a, b, c⟩
      · rw [a] at e1; cases e1
      · rw [a] at e1
        simp only [Option.some.injEq] at e1
        subst e1
        exact .inr ⟨_, _, _, e2, le_refl _, .flush secs ts c b (le_of_eq e4.symm)⟩
    · rw [e3 k hk]
      rcases h.2 k with h | ⟨m, t, gs, a, b, c⟩
      · exact .inl h
      · exact .inr ⟨m, t, gs, a, by rw [e4]; omega, c⟩

theorem madeBy_ok {r : Except PyErr (List Datapoint)} {d : Datapoint} (h : d ∈ madeBy r) : r = .ok (madeBy r) := by
  cases r with
  | ok l => rfl
  | error e => simp [madeBy] at h

theorem life_came {ops : PluginOps PF PM} {w : World} {P : Dict PF} {pre : Str → Str} {key : Str} {t : Nat} {xs : List Metric}
    {gs : List (List Datapoint)} {m : PM} (h : PluginLife ops w P pre key t xs gs m) : Came ops pre key m := by
  induction h with
  | born _ _ => exact .processed _ _ _ (.built _ _ _)
  | message _ _ _ _ ih => exact .processed _ _ _ ih
  | flush _ _ _ _ _ ih => exact .flushed _ _ _ _ ih

theorem life_nonempty {ops : PluginOps PF PM} {w : World} {P : Dict PF} {pre : Str → Str} {key : Str} {t : Nat} {xs : List Metric}
    {gs : List (List Datapoint)} {m : PM} (h : PluginLife ops w P pre key t xs gs m) : xs ≠ [] := by
  induction h with
  | born _ _ => simp
  | message _ _ _ _ ih => simp
  | flush _ _ _ _ _ ih => exact ih

theorem lives_none {ops : PluginOps PF PM} {w : World} {P : Dict PF} {pre : Str → Str} {s : PS C T G PF PM} {ms : List Str}
    (h : Lives ops w P pre s ms) {key : Str} (hn : pluginMsgs P key ms = []) : s.pluginMetrics.find key = none := by
  rcases h.2 key with ⟨h, _⟩ | ⟨m, t, gs, _, _, h⟩
  · exact h
  · exact absurd hn (life_nonempty h)

theorem lives_find {ops : PluginOps PF PM} {w : World} {P : Dict PF} {pre : Str → Str} {s : PS C T G PF PM} {ms : List Str}
    (h : Lives ops w P pre s ms) {key : Str} {m : PM} (hm : s.pluginMetrics.find key = some m) :
    ∃ t gs, t ≤ s.ticks ∧ PluginLife ops w P pre key t (pluginMsgs P key ms) gs m := by
  rcases h.2 key with ⟨h, _⟩ | ⟨m', t, gs, h1, h2, h3⟩
  · rw [hm] at h; cases h
  · rw [hm] at h1
    simp only [Option.some.injEq] at h1
    subst h1
    exact ⟨t, gs, h2, h3⟩

/-- The points of a visit to the plugin metrics. -/
theorem lives_points {I : Impl C T G PF PM} {w : World} {P : Dict PF} {s : PS C T G PF PM} (hs : Shared s) {ms : List Str}
    (h : Lives I.ops w P I.messagePrefix s ms) {secs ts : ℤ} {i : Nat} {d : Datapoint}
    (hd : d ∈ visited (pluginVisit I w secs ts s i).2) :
    ∃ key m t gs, s.pluginMetrics.find key = some m ∧ t ≤ s.ticks ∧
      PluginLife I.ops w P I.messagePrefix key t (pluginMsgs P key ms) gs m ∧ d ∈ madeBy (I.ops.flush w s.ticks m secs ts).2.2 := by
  unfold pluginVisit at hd
  cases hi : s.pluginMetrics[i]? with
  | none => simp [hi, visited] at hd
  | some p =>
    obtain ⟨k, m⟩ := p
    simp only [hi] at hd
    have hf := Dict.find_of_mem hs.pluginMetrics (List.mem_of_getElem? hi)
    obtain ⟨t, gs, h1, h2⟩ := lives_find h hf
    refine ⟨k, m, t, gs, hf, h1, h2, ?_⟩
    cases hr : (I.ops.flush w s.ticks m secs ts).2.2 with
    | error e => simp [hr, Except.map, visited] at hd
    | ok l => simpa [hr, Except.map, visited, madeBy] using hd

/-- A plugin metric watched through a schedule of any processor. `Ext` is what else is known of the processor. -/
theorem plugin_watch {I : Impl C T G PF PM} (hI : I.Local) (hT : I.Timed) (hA : I.Apart) (w : World) (P : Dict PF) (key : Str)
    (keep : Datapoint → Bool) (ok : ℤ → ℤ → Prop)
    (hpts : ∀ k m, Reachable I.ops w P I.messagePrefix k m → ∀ n secs ts, ∀ d ∈ madeBy (I.ops.flush w n m secs ts).2.2,
      keep d = decide (k = key))
    (hint : ∀ d, InternalName I d.name → keep d = false)
    (Ext : PS C T G PF PM → List Str → Prop) (hyp : List Str → Prop)
    (hhyp : ∀ ms m, hyp (ms ++ [m]) → hyp ms)
    (hsh : ∀ {s ms}, Ext s ms → Shared s)
    (esame : ∀ {s s' ms}, SameStores s s' → Ext s ms → Ext s' ms)
    (earr : ∀ {s ms} m, Ext s ms → Ext (process I w s m).1 (ms ++ [m]))
    (evis : ∀ {s ms} k cursor ts secs percent, Ext s ms → cursor < phaseLen I s k →
      Ext (phaseVisit I w secs percent ts k s cursor).1 ms)
    (eother : ∀ {s ms} k cursor ts secs percent, Ext s ms → hyp ms → k < 4 →
      (visited (phaseVisit I w secs percent ts k s cursor).2).filter keep = []) :
    Watch I w ok keep (fun s ms l => Ext s ms ∧ Lives I.ops w P I.messagePrefix s ms ∧ (hyp ms →
      (s.pluginMetrics.find key = none ∧ pluginMsgs P key ms = [] ∧ l = []) ∨
      ∃ m t gs, s.pluginMetrics.find key = some m ∧ t ≤ s.ticks ∧
        PluginLife I.ops w P I.messagePrefix key t (pluginMsgs P key ms) gs m ∧ l.Perm gs.flatten)) where
  perm := by
    rintro s ms l l' hp ⟨h1, h2, h3⟩
    refine ⟨h1, h2, fun hh => ?_⟩
    rcases h3 hh with ⟨a, b, rfl⟩ | ⟨m, t, gs, a, b, c, d⟩
    · exact .inl ⟨a, b, List.nil_perm.1 hp⟩
    · exact .inr ⟨m, t, gs, a, b, c, hp.symm.trans d⟩
  same := by
    rintro s s' ms l hs ⟨h1, h2, h3⟩
    refine ⟨esame hs h1, lives_same hs.plugins hs.pluginMetrics hs.ticks h2, fun hh => ?_⟩
    rw [hs.pluginMetrics]
    rcases h3 hh with h | ⟨m, t, gs, a, b, c, d⟩
    · exact .inl h
    · exact .inr ⟨m, t, gs, a, le_trans b hs.ticks, c, d⟩
  arrive := by
    rintro s ms l msg ⟨h1, h2, h3⟩
    refine ⟨earr msg h1, lives_arrive hI hT h2 msg, fun hh => ?_⟩
    have h4 := h3 (hhyp _ _ hh)
    have ht := process_ticks hT w s msg
    rw [pluginMsgs_snoc]
    rcases plugin_arrive hI w s msg key with ⟨e1, e2⟩ | ⟨m, f, e1, e2, e3, e4⟩
    · rw [h2.1] at e1
      rw [e1, e2, List.append_nil]
      rcases h4 with h | ⟨m, t, gs, a, b, c, d⟩
      · exact .inl h
      · exact .inr ⟨m, t, gs, a, le_trans b ht, c, d⟩
    · rw [h2.1] at e1 e2
      rw [e1]
      rcases h4 with ⟨a, b, rfl⟩ | ⟨m', t, gs, a, b, c, d⟩
      · simp only [a, Option.getD_none] at e3 e4
        rw [b]
        exact .inr ⟨_, _, [], e3, le_refl _, .born e2 e4, .refl _⟩
      · simp only [a, Option.getD_some] at e3 e4
        exact .inr ⟨_, _, gs, e3, le_refl _, .message m c (by omega) e4, d⟩
  internal := hint
  visit := by
    rintro s ms l k cursor ts interval percent ⟨h1, h2, h3⟩ ho hcur r
    refine ⟨evis k cursor ts _ percent h1 hcur, lives_visit hA hT (hsh h1) h2 _ percent ts k hcur, fun hh => ?_⟩
    have h4 := h3 hh
    have ht : s.ticks ≤ r.1.ticks := (phaseVisit_calm hT w _ percent ts k s cursor).ticks
    by_cases hk : k < 4
    · have hap := (apart_visit hA w (Int.fdiv interval 1000) percent ts hk s cursor).1
      rw [eother k cursor ts _ percent h1 hh hk, List.append_nil, hap]
      rcases h4 with h | ⟨m, t, gs, a, b, c, d⟩
      · exact .inl h
      · exact .inr ⟨m, t, gs, a, le_trans b ht, c, d⟩
    · obtain ⟨j, rfl⟩ : ∃ j, k = j + 4 := ⟨k - 4, by omega⟩
      have hr : r = pluginVisit I w (Int.fdiv interval 1000) ts s cursor := rfl
      have hi : cursor < s.pluginMetrics.length := hcur
      obtain ⟨k', pm, e1, e2, e3, e4, e5, e6⟩ := plugin_visit I w (Int.fdiv interval 1000) ts (hsh h1).pluginMetrics hi
      rw [← hr] at e2 e3 e4 e5 e6
      have hreach : Reachable I.ops w P I.messagePrefix k' pm := by
        rcases h2.2 k' with ⟨a, _⟩ | ⟨m, t, gs, a, b, c⟩
        · rw [a] at e1; cases e1
        · rw [a] at e1
          simp only [Option.some.injEq] at e1
          subst e1
          exact ⟨_, _, _, c⟩
      by_cases hkk : k' = key
      · subst hkk
        rcases h4 with ⟨a, _⟩ | ⟨m, t, gs, a, b, c, d⟩
        · rw [a] at e1; cases e1
        · rw [a] at e1
          simp only [Option.some.injEq] at e1
          subst e1
          refine .inr ⟨_, _, _, e2, le_refl _, .flush (Int.fdiv interval 1000) ts c b (le_of_eq e4.symm), ?_⟩
          have hfil : (visited r.2).filter keep = madeBy (I.ops.flush w s.ticks m (Int.fdiv interval 1000) ts).2.2 := by
            rw [e5, List.filter_eq_self]
            intro x hx
            rw [hpts _ _ hreach _ _ _ x hx]; simp
          rw [hfil, List.flatten_append]
          simpa using d.append_right _
      · have hfil : (visited r.2).filter keep = [] := by
          rw [e5, List.filter_eq_nil_iff]
          intro x hx
          rw [hpts _ _ hreach _ _ _ x hx]; simp [hkk]
        rw [hfil, List.append_nil, e3 key (Ne.symm hkk)]
        rcases h4 with h | ⟨m, t, gs, a, b, c, d⟩
        · exact .inl h
        · exact .inr ⟨m, t, gs, a, le_trans b ht, c, d⟩

end
end Txstatsd
