import Verif.Spec.Relay
import Verif.Lemmas.App
import Verif.Lemmas.Metrics
import Verif.Props.App

/-!
# Lemmas on services with routing rules
-/

set_option linter.unusedSectionVars false
set_option linter.unusedSimpArgs false
set_option linter.unusedVariables false

namespace Txstatsd
open Spec

section
variable {R : Type}

/-! ## The routed metrics -/

theorem routed_shape {rx : Regexes R} {m : Metric} (rs : List (Rule R)) (ms : List Metric) (hs : ∀ r ∈ rs, Sound rx r)
    (hl : LegalRewrites rx rs) (ht : KnownTypes rs)
    (h : ∀ y ∈ ms, (y.fields = m.fields ∧ ∀ c ∈ y.key, Legal c) ∧ (y.mtype = m.mtype ∨ y.mtype ∈ [c!"c", c!"ms", c!"g", c!"m"])) :
    ∀ y ∈ routed rx rs ms,
      (y.fields = m.fields ∧ ∀ c ∈ y.key, Legal c) ∧ (y.mtype = m.mtype ∨ y.mtype ∈ [c!"c", c!"ms", c!"g", c!"m"]) := by
  induction rs generalizing ms with
  | nil => exact h
  | cons r rs ih =>
    rw [routed_cons]
    have hl' : LegalRewrites rx [r] := fun r' h' => by
      simp only [List.mem_singleton] at h'; subst h'; exact hl _ (by simp)
    have hkeep := rewriteBy_keep (hs r (by simp)) hl' (fun y hy => (h y hy).1)
    refine ih _ (fun r' h' => hs r' (by simp [h'])) (fun r' h' => hl r' (by simp [h'])) (fun r' h' => ht r' (by simp [h'])) ?_
    intro y hy
    refine ⟨hkeep y hy, ?_⟩
    obtain ⟨z, hz, hy⟩ := List.mem_flatMap.1 hy
    have hzt := (h z hz).2
    split at hy
    · cases htr : r.target with
      | drop => rw [htr] at hy; simp [outputs] at hy
      | rewrite rexp repl dup =>
        rw [htr] at hy
        simp only [outputs] at hy
        split at hy
        · simp only [List.mem_cons, List.not_mem_nil, or_false] at hy
          rcases hy with rfl | rfl <;> exact hzt
        · simp only [List.mem_cons, List.not_mem_nil, or_false] at hy
          subst hy; exact hzt
      | setType t d =>
        have h1 := ht r (by simp)
        rw [htr] at hy h1
        simp only [outputs] at hy
        split at hy
        · simp only [List.mem_cons, List.not_mem_nil, or_false] at hy
          rcases hy with rfl | rfl
          · exact hzt
          · exact Or.inr h1
        · simp only [List.mem_cons, List.not_mem_nil, or_false] at hy
          subst hy; exact Or.inr h1
      | redirect _ => rw [htr] at hy; simp only [outputs, List.mem_singleton] at hy; subst hy; exact hzt
      | inert => rw [htr] at hy; simp only [outputs, List.mem_singleton] at hy; subst hy; exact hzt
    · simp only [List.mem_singleton] at hy; subst hy; exact hzt

theorem key_legal {msg : Str} {m : Metric} (hm : parseMessage msg = some m) : ∀ c ∈ m.key, Legal c := by
  obtain ⟨raw, _, hkey⟩ := (parseMessage_spec msg m).1 hm
  intro c hc
  rw [hkey, ← normalizeKey_eq] at hc
  exact legal_of_mem_normalizeKey hc

/-- A routed metric, in its text, keeps value and rate of the message. -/
theorem parse_asTyped {msg : Str} {m y : Metric} (hm : parseMessage msg = some m) (hf : y.fields = m.fields)
    (hk : ∀ c ∈ y.key, Legal c) (ht : y.mtype = m.mtype ∨ y.mtype ∈ [c!"c", c!"ms", c!"g", c!"m"]) :
    parseMessage (asTyped y) = some { y with fields := y.fields.set 1 y.mtype } ∧
      (y.mtype = m.mtype → y.fields.set 1 y.mtype = y.fields) ∧
      ∃ f0 rest, y.fields = f0 :: m.mtype :: rest ∧ y.fields.set 1 y.mtype = f0 :: y.mtype :: rest := by
  obtain ⟨raw, ⟨text, hst, hc, hfs, hcase⟩, hkey⟩ := (parseMessage_spec msg m).1 hm
  have hshape : ∃ f0 rest, m.fields = f0 :: m.mtype :: rest := by
    rcases hcase with ⟨f0, e, _⟩ | ⟨f0, f2, e, _⟩
    · exact ⟨f0, [], e⟩
    · exact ⟨f0, [f2], e⟩
  obtain ⟨f0, rest, hfe⟩ := hshape
  have hset : y.fields.set 1 y.mtype = f0 :: y.mtype :: rest := by rw [hf, hfe]; rfl
  have hsame : y.mtype = m.mtype → y.fields.set 1 y.mtype = y.fields := fun e => by rw [hset, hf, hfe, e]
  refine ⟨?_, hsame, f0, rest, by rw [hf, hfe], hset⟩
  by_cases he : y.mtype = m.mtype
  · unfold asTyped
    rw [hsame he, parse_textOf hm (m' := { y with fields := y.fields }) hk hf]
    cases y; cases m; simp_all
  · have hb : y.mtype ∈ [c!"c", c!"ms", c!"g", c!"m"] := ht.resolve_left he
    have hbar : '|' ∉ y.mtype := by
      simp only [List.mem_cons, List.not_mem_nil, or_false] at hb
      rcases hb with e | e | e | e <;> rw [e] <;> decide
    have hlast : ∀ c, y.mtype.getLast? = some c → ¬ White c := by
      simp only [List.mem_cons, List.not_mem_nil, or_false] at hb
      rcases hb with e | e | e | e <;> (rw [e]; intro c hc; simp at hc; subst hc; decide)
    have hne : y.mtype ≠ [] := by
      simp only [List.mem_cons, List.not_mem_nil, or_false] at hb
      rcases hb with e | e | e | e <;> rw [e] <;> simp
    rcases hcase with ⟨g0, e, et⟩ | ⟨g0, g2, e, et⟩
    · rw [e] at hfe
      simp only [List.cons.injEq, true_and] at hfe
      obtain ⟨rfl, rfl⟩ := hfe
      have h0 : '|' ∉ g0 := hfs g0 (by rw [e]; simp)
      rw [hset]
      have := parse_two hk h0 hbar hlast hne
      have ee : asTyped y = y.key ++ c!":" ++ (g0 ++ c!"|" ++ y.mtype) := by
        unfold asTyped; rw [hset]; simp [textOf, List.intercalate, List.intersperse]
      rw [ee, this]
    · rw [e] at hfe
      simp only [List.cons.injEq, true_and] at hfe
      obtain ⟨rfl, rfl⟩ := hfe
      have h0 : '|' ∉ g0 := hfs g0 (by rw [e]; simp)
      have h2 : '|' ∉ g2 := hfs g2 (by rw [e]; simp)
      have hl : ∀ c, text.getLast? = some c → ¬ White c := by
        obtain ⟨a, b, _, _, _, _, hl⟩ := hst; exact hl
      rw [hset]
      have ee : asTyped y = y.key ++ ':' :: (g0 ++ '|' :: (y.mtype ++ '|' :: g2)) := by
        unfold asTyped; rw [hset]; simp [textOf, List.intercalate, List.intersperse]
      rw [ee, parseMessage_spec]
      refine ⟨y.key, ⟨_, stripped_self ?_ ?_, fun h => ne_colon_of_legal (hk _ h) rfl, ?_, Or.inr ⟨g0, g2, rfl, rfl⟩⟩, ?_⟩
      · intro c hc'
        cases hkk : y.key with
        | nil => rw [hkk] at hc'; simp at hc'; rw [← hc']; decide
        | cons d ds => rw [hkk] at hc'; simp at hc'; subst hc'; exact not_white_of_legal (hk d (by rw [hkk]; simp))
      · intro c hc'
        apply hl c
        rw [← hc', et]
        simp [List.getLast?_append, List.getLast?_cons]
      · intro f hf'
        simp only [List.mem_cons, List.not_mem_nil, or_false] at hf'
        rcases hf' with rfl | rfl | rfl
        · exact h0
        · exact hbar
        · exact h2
      · rw [← normalizeKey_eq, normalizeKey_legal hk]

end

section
variable [Rounding] {C T G PF PM R : Type}

/-- Counter handling uses neither the text nor the second field. -/
def TypeFree (I : Impl C T G PF PM) : Prop :=
  ∀ w s key f0 a b rest msg msg',
    (I.processCounter w s key (f0 :: a :: rest) msg).1 = (I.processCounter w s key (f0 :: b :: rest) msg').1 ∧
    (I.processCounter w s key (f0 :: a :: rest) msg).2.exc = (I.processCounter w s key (f0 :: b :: rest) msg').2.exc

theorem typeFree_messageProcessor (ops : PluginOps PF PM) : TypeFree (messageProcessor ops) := by
  intro w s key f0 a b rest msg msg'
  show (processCounter s key _ msg).1 = (processCounter s key _ msg').1 ∧
    (processCounter s key _ msg).2.exc = (processCounter s key _ msg').2.exc
  unfold processCounter
  simp only [List.headD_cons, List.length_cons]
  split
  · exact ⟨rfl, rfl⟩
  · split
    · have : (f0 :: a :: rest).getD 2 [] = (f0 :: b :: rest).getD 2 [] := rfl
      rw [this]
      split
      · exact ⟨rfl, rfl⟩
      · split <;> exact ⟨rfl, rfl⟩
    · exact ⟨rfl, rfl⟩

theorem typeFree_configurable (ops : PluginOps PF PM) (pre int : Str) : TypeFree (configurable ops pre int) := by
  intro w s key f0 a b rest msg msg'
  show (processCounterC _ s key _ msg).1 = (processCounterC _ s key _ msg').1 ∧
    (processCounterC _ s key _ msg).2.exc = (processCounterC _ s key _ msg').2.exc
  unfold processCounterC
  simp only [List.headD_cons]
  split <;> exact ⟨rfl, rfl⟩

theorem dispatch_typed {I : Impl C T G PF PM} (hI : TypeFree I) (w : World) (s : PS C T G PF PM) (msg msg' : Str) (y : Metric)
    (t f0 : Str) (rest : List Str) (hf : y.fields = f0 :: t :: rest)
    (ht : y.mtype = t ∨ y.mtype ∈ [c!"c", c!"ms", c!"g", c!"m"]) :
    (dispatch I w s msg y).map (fun r => (r.1, r.2.exc)) =
      (dispatch I w s msg' { y with fields := f0 :: y.mtype :: rest }).map (fun r => (r.1, r.2.exc)) := by
  unfold dispatch
  simp only [hf, List.headD_cons]
  by_cases h1 : y.mtype = c!"c"
  · simp only [h1, if_true]
    have := hI w s y.key f0 t c!"c" rest msg msg'
    simp [this.1, this.2]
  · by_cases h2 : y.mtype = c!"ms"
    · simp only [h2]
      rw [if_neg (by decide), if_pos trivial, if_neg (by decide), if_pos trivial]
      simp only [processTimer, Option.map_some]
      split <;> rfl
    · by_cases h3 : y.mtype = c!"g"
      · simp only [h3]
        rw [if_neg (by decide), if_neg (by decide), if_pos trivial, if_neg (by decide), if_neg (by decide), if_pos trivial]
        simp only [processGauge, Option.map_some]
        split
        · rfl
        · split <;> rfl
      · by_cases h4 : y.mtype = c!"m"
        · simp only [h4]
          rw [if_neg (by decide), if_neg (by decide), if_neg (by decide), if_pos trivial, if_neg (by decide), if_neg (by decide),
            if_neg (by decide), if_pos trivial]
          simp only [processMeter, Option.map_some]
          split
          · rfl
          · split <;> rfl
        · have : y.mtype = t := ht.resolve_right (by simp [h1, h2, h3, h4])
          rw [if_neg h1, if_neg h2, if_neg h3, if_neg h4, if_neg h1, if_neg h2, if_neg h3, if_neg h4, this]

/-- Processing a routed metric is processing its text. -/
theorem process_asTyped {I : Impl C T G PF PM} (hI : TypeFree I) (w : World) (s : PS C T G PF PM) {msg : Str} {m y : Metric}
    (hm : parseMessage msg = some m) (hf : y.fields = m.fields) (hk : ∀ c ∈ y.key, Legal c)
    (ht : y.mtype = m.mtype ∨ y.mtype ∈ [c!"c", c!"ms", c!"g", c!"m"]) (msg' : Str) :
    (process I w s (asTyped y)).1 = (processMessage I w s msg' y).1 ∧
      (process I w s (asTyped y)).2.exc = (processMessage I w s msg' y).2.exc := by
  obtain ⟨hp, _, f0, rest, hf0, hset⟩ := parse_asTyped hm hf hk ht
  unfold process
  rw [hp, hset]
  have h := dispatch_typed hI w { s with ticks := s.ticks + 1 } msg' (asTyped y) y m.mtype f0 rest hf0 ht
  simp only [processMessage]
  cases h1 : dispatch I w { s with ticks := s.ticks + 1 } msg' y with
  | none =>
    cases h2 : dispatch I w { s with ticks := s.ticks + 1 } (asTyped y) { y with fields := f0 :: y.mtype :: rest } with
    | none => exact ⟨rfl, rfl⟩
    | some r => rw [h1, h2] at h; cases h
  | some r =>
    cases h2 : dispatch I w { s with ticks := s.ticks + 1 } (asTyped y) { y with fields := f0 :: y.mtype :: rest } with
    | none => rw [h1, h2] at h; cases h
    | some r' =>
      rw [h1, h2] at h
      simp only [Option.map_some, Option.some.injEq, Prod.mk.injEq] at h
      simp only [finish, h.2]
      split
      · exact ⟨by rw [h.1], h.2.symm⟩
      · exact ⟨h.1.symm, h.2.symm⟩

/-- The final loop delivers the metrics up to the first that raises. -/
theorem deliver_prefix {S : Type} (proc : S → Str → Metric → S × Outcome) (ms : List Metric) (s : S) :
    ∃ pre post, ms = pre ++ post ∧ (deliver proc s ms).1 = pre.foldl (fun s m => (proc s (textOf m) m).1) s ∧
      (post = [] ∨ ∃ s' x, pre.getLast? = some x ∧ (proc s' (textOf x) x).2.exc ≠ none) := by
  induction ms generalizing s with
  | nil => exact ⟨[], [], rfl, rfl, Or.inl rfl⟩
  | cons m ms ih =>
    simp only [deliver, rebuild_eq]
    cases hx : (proc s (textOf m) m).2.exc with
    | some e => exact ⟨[m], ms, rfl, rfl, Or.inr ⟨s, m, rfl, by rw [hx]; simp⟩⟩
    | none =>
      obtain ⟨pre, post, h1, h2, h3⟩ := ih (proc s (textOf m) m).1
      refine ⟨m :: pre, post, by rw [h1]; rfl, h2, h3.imp_right ?_⟩
      rintro ⟨s', x, hl, he⟩
      refine ⟨s', x, ?_, he⟩
      cases pre with
      | nil => simp at hl
      | cons a l => simpa [List.getLast?_cons_cons] using hl

/-- The messages a text is delivered as: those the rules make of it, up to the first that raises. -/
def Delivered (I : Impl C T G PF PM) (w : World) (rx : Regexes R) (rules : List (Rule R)) (t : Str) (ts : List Str) : Prop :=
  ts <+: routedTexts rx rules [t] ∧
    (ts = routedTexts rx rules [t] ∨ ∃ s x, ts.getLast? = some x ∧ (process I w s x).2.exc ≠ none)

theorem routeText_delivered {I : Impl C T G PF PM} (hI : TypeFree I) (w : World) {rx : Regexes R} {rules : List (Rule R)}
    (hs : ∀ r ∈ rules, Sound rx r) (hl : LegalRewrites rx rules) (ht : KnownTypes rules) (s : PS C T G PF PM) (t : Str) :
    ∃ ts, (routeText rx rules (processMessage I w) s t).2.1 = processAll I w s ts ∧ Delivered I w rx rules t ts := by
  cases hm : parseMessage t with
  | none => exact ⟨[], by simp [routeText, hm, processAll], by simp [Delivered, routedTexts, hm]⟩
  | some m =>
    have hshape := routed_shape (rx := rx) (m := m) rules [m] hs hl ht (by
      intro y hy
      simp only [List.mem_singleton] at hy
      subst hy
      exact ⟨⟨rfl, key_legal hm⟩, Or.inl rfl⟩)
    obtain ⟨pre, post, h1, h2, h3⟩ := deliver_prefix (processMessage I w) (routed rx rules [m]) s
    have hpre : ∀ y ∈ pre, y ∈ routed rx rules [m] := fun y hy => by rw [h1]; simp [hy]
    have hrt : routedTexts rx rules [t] = (routed rx rules [m]).map asTyped := by simp [routedTexts, hm]
    refine ⟨pre.map asTyped, ?_, ?_, ?_⟩
    · simp only [routeText, hm, routeMessage, applyRules_spec hs, h2, processAll, List.foldl_map]
      clear h1 h2 h3
      induction pre generalizing s with
      | nil => rfl
      | cons y pre ih =>
        obtain ⟨⟨hf, hk⟩, hty⟩ := hshape y (hpre y (by simp))
        simp only [List.foldl_cons]
        rw [(process_asTyped hI w s hm hf hk hty (textOf y)).1]
        exact ih _ fun z hz => hpre z (by simp [hz])
    · rw [hrt, h1, List.map_append]; exact List.prefix_append _ _
    · rcases h3 with rfl | ⟨s', x, hlast, he⟩
      · left; rw [hrt, h1, List.append_nil]
      · right
        have hx : x ∈ routed rx rules [m] := hpre x (List.mem_of_getLast? hlast)
        obtain ⟨⟨hf, hk⟩, hty⟩ := hshape x hx
        refine ⟨s', asTyped x, by simp [List.getLast?_map, hlast], ?_⟩
        rw [(process_asTyped hI w s' hm hf hk hty (textOf x)).2]
        exact he

theorem routeText_sent {S : Type} (proc : S → Str → Metric → S × Outcome) {rx : Regexes R} {rules : List (Rule R)}
    (hs : ∀ r ∈ rules, Sound rx r) (s : S) (t : Str) :
    (routeText rx rules proc s t).1 = sentTexts rx rules [t] := by
  cases hm : parseMessage t with
  | none => simp [routeText, hm, sentTexts]
  | some m => simp [routeText, hm, sentTexts, routeMessage, applyRules_spec hs]

/-! ## Schedules -/

theorem run_arrives (I : Impl C T G PF PM) (w : World) (ts : List Str) (v : Server C T G PF PM) :
    v.run I w (ts.map Event.arrive) = { v with ps := processAll I w v.ps ts } := by
  induction ts generalizing v with
  | nil => rfl
  | cons t ts ih =>
    rw [List.map_cons, Txstatsd.run_cons, ih]
    rfl

theorem arrivals_append' (a b : List Event) : arrivals (a ++ b) = arrivals a ++ arrivals b := by
  unfold arrivals; exact List.filterMap_append

theorem arrivals_arrive (ts : List Str) : arrivals (ts.map Event.arrive) = ts := by
  induction ts with
  | nil => rfl
  | cons t ts ih => simp only [arrivals, List.map_cons, List.filterMap_cons] at ih ⊢; rw [ih]

theorem run_append' (I : Impl C T G PF PM) (w : World) (a b : List Event) (v : Server C T G PF PM) :
    v.run I w (a ++ b) = (v.run I w a).run I w b := by
  unfold Server.run; exact List.foldl_append

theorem app_routed {I : Impl C T G PF PM} (cf : AppConf R) (w : World) {Q : Str → List Str → Prop} {F : Str → List (Sink × Str)}
    (H : ∀ s t, ∃ ts, (routeText cf.rx cf.rules (processMessage I w) s t).2.1 = processAll I w s ts ∧ Q t ts)
    (HF : ∀ s t, (routeText cf.rx cf.rules (processMessage I w) s t).1 = F t)
    (es : List AppEvent) (v : App (PS C T G PF PM)) :
    ∃ (es' : List Event) (done : List (Str × List Str)), (v.run I.proc cf w es).server = v.server.run I w es' ∧
      arrivals es' = done.flatMap Prod.snd ∧
      (done.map Prod.fst ++ (v.run I.proc cf w es).scheduled).Perm (v.scheduled ++ takenIn cf.monitor.message es) ∧
      (∀ p ∈ done, Q p.1 p.2) ∧ (v.run I.proc cf w es).sent = v.sent ++ done.flatMap (fun p => F p.1) ∧
      (∀ i p, Event.spawn i p ∈ es' → i = cf.flushInterval ∧ p = 90) := by
  induction es generalizing v with
  | nil => exact ⟨[], [], rfl, rfl, by simp [takenIn, App.run_nil], by simp, by simp [App.run_nil], by simp⟩
  | cons e es ih =>
    obtain ⟨es', done, h1, h2, h3, h4, h5, h6⟩ := ih (v.step I.proc cf w e)
    rw [App.run_cons, takenIn_cons]
    have hproc : ∀ (v : App (PS C T G PF PM)) (t : Str), ∃ ts, Q t ts ∧
        (v.process I.proc cf w t).server = v.server.run I w (ts.map .arrive) ∧
        (v.process I.proc cf w t).scheduled = v.scheduled ∧ (v.process I.proc cf w t).sent = v.sent ++ F t := by
      intro v t
      obtain ⟨ts, e1, e2⟩ := H v.ps t
      refine ⟨ts, e2, ?_, rfl, ?_⟩
      · rw [run_arrives]
        unfold App.process App.server
        simp only [Impl.proc]
        rw [e1]
      · unfold App.process
        simp only [Impl.proc]
        rw [HF]
    have hspawn : ∀ ts : List Str, ∀ i p, Event.spawn i p ∈ ts.map Event.arrive ++ es' → i = cf.flushInterval ∧ p = 90 := by
      intro ts i p h
      rcases List.mem_append.1 h with h | h
      · obtain ⟨_, _, h⟩ := List.mem_map.1 h; cases h
      · exact h6 i p h
    cases e with
    | receive d =>
      refine ⟨es', done, ?_, h2, ?_, h4, ?_, h6⟩
      · rw [h1]
        congr 1
        simp only [App.step, Monitor.datagramReceived]
        split <;> rfl
      · refine h3.trans ?_
        rw [← List.append_assoc]
        refine List.Perm.append_right _ ?_
        simp only [App.step, Monitor.datagramReceived, takenIn]
        by_cases hm : cf.monitor.message = some d <;> simp [hm]
      · rw [h5]
        congr 1
        simp only [App.step, Monitor.datagramReceived]
        split <;> rfl
    | turn i =>
      cases hs : v.scheduled[i]? with
      | none =>
        have he : v.step I.proc cf w (.turn i) = v := by simp only [App.step, hs]
        rw [he] at h1 h3 h5 ⊢
        exact ⟨es', done, h1, h2, by simpa [takenIn] using h3, h4, h5, h6⟩
      | some d =>
        have he : v.step I.proc cf w (.turn i) = ({ v with scheduled := v.scheduled.eraseIdx i } : App _).process I.proc cf w d := by
          simp only [App.step, hs]
        obtain ⟨ts, q, p1, p2, p3⟩ := hproc ({ v with scheduled := v.scheduled.eraseIdx i } : App _) d
        refine ⟨ts.map .arrive ++ es', (d, ts) :: done, ?_, ?_, ?_, ?_, ?_, hspawn ts⟩
        · rw [h1, run_append', he, p1]; rfl
        · rw [arrivals_append', arrivals_arrive, h2]; rfl
        · have hp : (d :: v.scheduled.eraseIdx i).Perm v.scheduled := by
            obtain ⟨hlt, hd⟩ := List.getElem?_eq_some_iff.1 hs
            rw [← hd]
            exact (List.getElem_cons_eraseIdx_perm hlt)
          rw [he, p2] at h3
          rw [he]
          simp only [List.map_cons, List.cons_append, takenIn, List.filterMap_cons, List.filterMap_nil, List.nil_append] at h3 ⊢
          exact (h3.cons d).trans (by rw [← List.cons_append]; exact hp.append_right _)
        · intro p hp
          rcases List.mem_cons.1 hp with rfl | hp
          · exact q
          · exact h4 p hp
        · rw [h5, he, p3]; simp
    | internal t =>
      obtain ⟨ts, q, p1, p2, p3⟩ := hproc v t
      have he : v.step I.proc cf w (.internal t) = v.process I.proc cf w t := rfl
      rw [he] at h1 h3 h5 ⊢
      refine ⟨ts.map .arrive ++ es', (t, ts) :: done, ?_, ?_, ?_, ?_, ?_, hspawn ts⟩
      · rw [h1, run_append', p1]
      · rw [arrivals_append', arrivals_arrive, h2]; rfl
      · rw [p2] at h3
        simp only [List.map_cons, List.cons_append, takenIn, List.filterMap_cons, List.filterMap_nil, List.nil_append] at h3 ⊢
        exact (h3.cons t).trans List.perm_middle.symm
      · intro p hp
        rcases List.mem_cons.1 hp with rfl | hp
        · exact q
        · exact h4 p hp
      · rw [h5, p3]; simp
    | tick =>
      refine ⟨.spawn cf.flushInterval 90 :: es', done, ?_, ?_, ?_, h4, h5, ?_⟩
      · rw [h1, Txstatsd.run_cons]; rfl
      · simpa [arrivals] using h2
      · have he : (v.step I.proc cf w .tick).scheduled = v.scheduled := rfl
        rw [he] at h3
        simpa [takenIn] using h3
      · intro j p hj
        rcases List.mem_cons.1 hj with h | h
        · cases h; exact ⟨rfl, rfl⟩
        · exact h6 j p h
    | advance i =>
      have he : (v.step I.proc cf w (.advance i)).scheduled = v.scheduled ∧ (v.step I.proc cf w (.advance i)).sent = v.sent := by
        simp only [App.step]
        cases v.gens[i]? <;> exact ⟨rfl, rfl⟩
      refine ⟨.advance i :: es', done, ?_, ?_, ?_, h4, ?_, ?_⟩
      · rw [h1, Txstatsd.run_cons]
        congr 1
        simp only [App.step, App.server, Server.step]
        cases v.gens[i]? with
        | none => rfl
        | some g => rfl
      · simpa [arrivals] using h2
      · rw [he.1] at h3
        simpa [takenIn] using h3
      · rw [h5, he.2]
      · intro j p hj
        rcases List.mem_cons.1 hj with h | h
        · cases h
        · exact h6 j p h

/-! ## Amounts -/

theorem finite_of_mem {key : Str} {texts : List Str} {x : List (PyFloat × PyFloat)} (hx : ∀ p ∈ x, ∃ q : ℚ × ℚ, p = (.fin q.1, .fin q.2)) :
    ∃ qs : List (ℚ × ℚ), x = qs.map fun p => (.fin p.1, .fin p.2) := by
  induction x with
  | nil => exact ⟨[], rfl⟩
  | cons p l ih =>
    obtain ⟨q, rfl⟩ := hx p (by simp)
    obtain ⟨qs, rfl⟩ := ih fun p hp => hx p (by simp [hp])
    exact ⟨q :: qs, rfl⟩

theorem amount_perm {a b : List (ℚ × ℚ)} (h : (a.map fun p => ((.fin p.1, .fin p.2) : PyFloat × PyFloat)).Perm
    (b.map fun p => (.fin p.1, .fin p.2))) : amount a = amount b := by
  have hv := (h.map fun p : PyFloat × PyFloat => (Num.flt p.1).rat / (Num.flt p.2).rat).sum_eq
  simp only [List.map_map] at hv
  exact hv

theorem amount_append (a b : List (ℚ × ℚ)) : amount (a ++ b) = amount a + amount b := by simp [amount]

/-- Finite increments can be distributed over the parts of a permutation. -/
theorem finite_split {key : Str} {a b l : List Str} (h : (a ++ b).Perm l) {qs : List (ℚ × ℚ)} (hq : FiniteIncrements key l qs) :
    ∃ qa qb, FiniteIncrements key a qa ∧ FiniteIncrements key b qb ∧ amount qa + amount qb = amount qs := by
  obtain ⟨x, hx⟩ := increments_exist key a
  obtain ⟨y, hy⟩ := increments_exist key b
  obtain ⟨z, hz, hp⟩ := increments_perm h (increments_append hx hy)
  have hzq := increments_unique hz hq
  have hfin : ∀ p ∈ x ++ y, ∃ q : ℚ × ℚ, p = (.fin q.1, .fin q.2) := by
    intro p hpm
    have : p ∈ z := hp.subset hpm
    rw [hzq] at this
    obtain ⟨q, _, rfl⟩ := List.mem_map.1 this
    exact ⟨q, rfl⟩
  obtain ⟨qa, rfl⟩ := finite_of_mem (key := key) (texts := a) (x := x) fun p hp => hfin p (by simp [hp])
  obtain ⟨qb, rfl⟩ := finite_of_mem (key := key) (texts := b) (x := y) fun p hp => hfin p (by simp [hp])
  refine ⟨qa, qb, hx, hy, ?_⟩
  rw [← amount_append]
  apply amount_perm
  rw [hzq] at hp
  simpa using hp

theorem finite_unique {key : Str} {l : List Str} {a b : List (ℚ × ℚ)} (ha : FiniteIncrements key l a) (hb : FiniteIncrements key l b) :
    amount a = amount b := amount_perm (by rw [increments_unique ha hb])

/-- Adding texts that are no increments changes nothing. -/
theorem increments_skip {key : Str} {a b : List Str} (hb : ∀ t ∈ b, ∀ v r, ¬ Increment t key v r) {x : List (PyFloat × PyFloat)}
    (ha : Increments key a x) : Increments key (a ++ b) x := by
  have : Increments key b [] := by
    induction b with
    | nil => exact .nil
    | cons t b ih => exact .skip (hb t (by simp)) (ih fun t' h => hb t' (by simp [h]))
  simpa using increments_append ha this

theorem increments_none {key : Str} {b : List Str} (hb : ∀ t ∈ b, ∀ v r, ¬ Increment t key v r) : Increments key b [] := by
  simpa using increments_skip hb (.nil : Increments key [] [])

/-- The balance of a service with rules, given that what is not delivered does not count. -/
theorem relay_balance [Exact] (ops : PluginOps PF PM) (hq : Quiet ops c!"stats_counts.") (plugins : List PF) (cf : AppConf R)
    (hs : ∀ r ∈ cf.rules, Sound cf.rx r) (hl : LegalRewrites cf.rx cf.rules) (ht : KnownTypes cf.rules)
    (hi : 1000 ≤ cf.flushInterval) (w : World) (es : List AppEvent) (key : Str)
    (hd : ∀ t ∈ takenIn cf.monitor.message es, ∀ ts, Delivered (messageProcessor ops) w cf.rx cf.rules t ts → ∀ x, Increments key ts x →
      Increments key (routedTexts cf.rx cf.rules [t]) x) :
    let v := App.run (messageProcessor ops).proc cf w { ps := MPState.init ops plugins } es
    ∃ done : List Str, (done ++ v.scheduled).Perm (takenIn cf.monitor.message es) ∧ v.sent = sentTexts cf.rx cf.rules done ∧
      ∀ qs, FiniteIncrements key (routedTexts cf.rx cf.rules done) qs → countedAt key v = amount qs := by
  intro v
  obtain ⟨es', done, h1, h2, h3, h4, h5, h6⟩ := app_routed (I := messageProcessor ops) cf w
    (Q := Delivered (messageProcessor ops) w cf.rx cf.rules) (F := fun t => sentTexts cf.rx cf.rules [t])
    (fun s t => routeText_delivered (typeFree_messageProcessor ops) w hs hl ht s t)
    (fun s t => routeText_sent _ hs s t) es { ps := MPState.init ops plugins }
  refine ⟨done.map Prod.fst, by simpa using h3, ?_, ?_⟩
  · refine h5.trans ?_
    simp only [sentTexts, List.nil_append, List.flatMap_map, List.flatMap_cons, List.flatMap_nil, List.append_nil]
  · intro qs hqs
    have harr : Increments key (arrivals es') (qs.map fun p => (.fin p.1, .fin p.2)) := by
      obtain ⟨x, hx⟩ := increments_exist key (arrivals es')
      have hsub : ∀ p ∈ done, p.1 ∈ takenIn cf.monitor.message es := fun p hp =>
        h3.subset (by simpa using .inl ⟨p.2, hp⟩)
      have key' : ∀ (done : List (Str × List Str)), (∀ p ∈ done, p.1 ∈ takenIn cf.monitor.message es) →
          (∀ p ∈ done, Delivered (messageProcessor ops) w cf.rx cf.rules p.1 p.2) →
          ∀ x, Increments key (done.flatMap Prod.snd) x → Increments key (routedTexts cf.rx cf.rules (done.map Prod.fst)) x := by
        intro done
        induction done with
        | nil => intro _ _ x hx; exact hx
        | cons p done ih =>
          intro hs h x hx
          obtain ⟨a, ha⟩ := increments_exist key p.2
          obtain ⟨b, hb⟩ := increments_exist key (done.flatMap Prod.snd)
          have : x = a ++ b := increments_unique hx (increments_append ha hb)
          subst this
          have e : routedTexts cf.rx cf.rules ((p :: done).map Prod.fst) =
              routedTexts cf.rx cf.rules [p.1] ++ routedTexts cf.rx cf.rules (done.map Prod.fst) := by
            simp [routedTexts]
          rw [e]
          exact increments_append (hd _ (hs p (by simp)) _ (h p (by simp)) a ha)
            (ih (fun p hp => hs p (by simp [hp])) (fun p hp => h p (by simp [hp])) b hb)
      rw [h2] at hx
      have := increments_unique (key' done hsub h4 x hx) hqs
      rw [this, ← h2] at hx
      exact hx
    have hb := C22_exact_balance ops hq plugins w es' (fun i p h => (h6 i p h).1 ▸ hi) key qs harr
    have e1 : v.ps = ((startUp (MPState.init ops plugins)).run (messageProcessor ops) w es').ps := congrArg Server.ps h1
    have e2 : v.gens = ((startUp (MPState.init ops plugins)).run (messageProcessor ops) w es').gens := congrArg Server.gens h1
    have e3 : v.out = ((startUp (MPState.init ops plugins)).run (messageProcessor ops) w es').out := congrArg Server.out h1
    unfold countedAt
    rw [e1, e2, e3]
    exact hb


/-! ## What is not delivered -/

/-- A message with a good value and rate raises in the default processor only if a plugin does. -/
theorem good_not_raising (ops : PluginOps PF PM) (w : World)
    (s : MPState PF PM) {x : Str} {f0 : Str} {rest : List Str} {v r : PyFloat} {mt mk : Str}
    (hn : mt ∉ [c!"c", c!"ms", c!"g", c!"m"] → ∀ w n m, (ops.process w n m (f0 :: mt :: rest)).2.2 = none)
    (hx : parseMessage x = some ⟨mt, mk, f0 :: mt :: rest⟩) (hv : parseFloat f0 = some v) (hr : Rate rest r) (h0 : r ≠ .fin 0) :
    (process (messageProcessor ops) w s x).2.exc = none := by
  unfold process
  rw [hx]
  simp only [processMessage]
  have hfin : ∀ (r : MPState PF PM × Outcome) (st : ℚ), r.2.exc = none → (finish w mt st r).2.exc = none := by
    intro r st h; unfold finish; rw [h]; exact h
  have hgauge : (splitOn ':' f0).length = 1 → parseFloat ((splitOn ':' f0).headD []) = some v := by
    intro hlen
    have : splitOn ':' f0 = [f0] := by
      have hj := join_splitOn ':' f0
      match hsp : splitOn ':' f0, hlen with
      | [a], _ => rw [hsp] at hj; simp [joinWith] at hj; rw [hj]
    rw [this]; exact hv
  cases hd : dispatch (messageProcessor ops) w { s with ticks := s.ticks + 1 } x ⟨mt, mk, f0 :: mt :: rest⟩ with
  | none => rfl
  | some q =>
    apply hfin
    unfold dispatch at hd
    simp only [List.headD_cons] at hd
    split at hd
    · simp only [Option.some.injEq] at hd
      subst hd
      show (processCounter _ mk (f0 :: mt :: rest) x).2.exc = none
      have hcc : ∀ (s : MPState PF PM) (val : PyFloat), (composeCounter s mk val r).2 = none := by
        intro s val
        unfold composeCounter
        obtain ⟨y, hy⟩ := div_ok (a := rnd 1) h0
        simp only [hy]
      unfold processCounter
      simp only [List.headD_cons, hv]
      rcases hr with ⟨rfl, rfl⟩ | ⟨digits, tail, rfl, h1, h2, h3, h4⟩
      · simp [hcc]
      · have hrm : rateMatch ('@' :: (digits ++ tail)) = some digits := rateMatch_some.2 ⟨tail, rfl, h1, h2, h3⟩
        simp [hrm, h4, hcc]
    · split at hd
      · simp only [Option.some.injEq] at hd; subst hd; simp [processTimer, hv]
      · split at hd
        · simp only [Option.some.injEq] at hd; subst hd
          unfold processGauge
          by_cases hlen : (splitOn ':' f0).length = 1
          · simp only [hlen, ne_eq, not_true_eq_false, if_false, hgauge hlen]
          · simp [hlen]
        · split at hd
          · simp only [Option.some.injEq] at hd; subst hd
            unfold processMeter
            by_cases hlen : (splitOn ':' f0).length = 1
            · simp only [hlen, ne_eq, not_true_eq_false, if_false, hgauge hlen]
            · simp [hlen]
          · split at hd
            · simp only [Option.some.injEq] at hd; subst hd
              unfold processPlugin
              cases hf : s.pluginMetrics.find mk with
              | some pm => simp only [hf]; exact hn (by simp [*]) _ _ _
              | none =>
                simp only [hf, Dict.find_put_self]
                exact hn (by simp [*]) _ _ _
            · cases hd

/-- If plugins do no harm to the text, a message of the rules that is not delivered is no increment. -/
theorem delivered_full (ops : PluginOps PF PM) (w : World)
    {rx : Regexes R} {rules : List (Rule R)} (hs : ∀ r ∈ rules, Sound rx r) (hl : LegalRewrites rx rules) (ht : KnownTypes rules)
    {t : Str} {ts : List Str} {key : Str} (hn : Harmless ops rx rules key t) (h : Delivered (messageProcessor ops) w rx rules t ts)
    {x : List (PyFloat × PyFloat)} (hx : Increments key ts x) : Increments key (routedTexts rx rules [t]) x := by
  obtain ⟨⟨post, hpost⟩, rfl | ⟨s, u, hlast, he⟩⟩ := h
  · exact hx
  · rw [← hpost]
    refine increments_skip ?_ hx
    intro p hp v r hinc
    apply he
    cases hm : parseMessage t with
    | none => simp [routedTexts, hm] at hpost; rw [hpost.2] at hp; cases hp
    | some m =>
      have hrt : routedTexts rx rules [t] = (routed rx rules [m]).map asTyped := by simp [routedTexts, hm]
      have hshape := routed_shape (rx := rx) (m := m) rules [m] hs hl ht (by
        intro y hy
        simp only [List.mem_singleton] at hy
        subst hy
        exact ⟨⟨rfl, key_legal hm⟩, Or.inl rfl⟩)
      have hmem : ∀ q, q ∈ ts ++ post → ∃ y ∈ routed rx rules [m], asTyped y = q := by
        intro q hq
        rw [hpost, hrt] at hq
        exact List.mem_map.1 hq
      obtain ⟨y, hy, rfl⟩ := hmem p (by simp [hp])
      obtain ⟨z, hz, rfl⟩ := hmem u (List.mem_append_left _ (List.mem_of_getLast? hlast))
      obtain ⟨⟨hfy, hky⟩, hty⟩ := hshape y hy
      obtain ⟨⟨hfz, hkz⟩, htz⟩ := hshape z hz
      obtain ⟨py, _, f0, rest, ey, sy⟩ := parse_asTyped hm hfy hky hty
      obtain ⟨pz, _, g0, rest', ez, sz⟩ := parse_asTyped hm hfz hkz htz
      have : f0 = g0 ∧ rest = rest' := by
        have : f0 :: m.mtype :: rest = g0 :: m.mtype :: rest' := by rw [← ey, ← ez, hfy, hfz]
        simpa using this
      obtain ⟨rfl, rfl⟩ := this
      obtain ⟨a0, extra, hpa, hv, hr, h0⟩ := increment_iff.1 hinc
      rw [py, sy] at hpa
      simp only [Option.some.injEq, Metric.mk.injEq, List.cons.injEq] at hpa
      obtain ⟨_, _, rfl, _, rfl⟩ := hpa
      rw [sz] at pz
      refine good_not_raising ops w s ?_ pz hv hr h0
      intro hb w' n' m'
      rcases htz with htz | htz
      · rcases hn m hm (by rw [← htz]; exact hb) with h | h
        · have := h w' n' m'
          rw [← hfz, ez, ← htz] at this
          exact this
        · exact absurd hinc (h _ (by rw [← hpost]; simp [hp]) _ _)
      · exact absurd htz hb

theorem routed_types {rx : Regexes R} {m : Metric} (rs : List (Rule R)) (ms : List Metric) (P : Str → Prop)
    (hr : ∀ r ∈ rs, ∀ t d, r.target = .setType t d → P t) (h : ∀ y ∈ ms, P y.mtype) : ∀ y ∈ routed rx rs ms, P y.mtype := by
  induction rs generalizing ms with
  | nil => exact h
  | cons r rs ih =>
    rw [routed_cons]
    refine ih _ (fun r' h' => hr r' (by simp [h'])) ?_
    intro y hy
    obtain ⟨z, hz, hy⟩ := List.mem_flatMap.1 hy
    have hzt := h z hz
    split at hy
    · cases htr : r.target with
      | drop => rw [htr] at hy; simp [outputs] at hy
      | rewrite rexp repl dup =>
        rw [htr] at hy
        simp only [outputs] at hy
        split at hy
        · simp only [List.mem_cons, List.not_mem_nil, or_false] at hy
          rcases hy with rfl | rfl <;> exact hzt
        · simp only [List.mem_cons, List.not_mem_nil, or_false] at hy
          subst hy; exact hzt
      | setType t d =>
        have := hr r (by simp) t d htr
        rw [htr] at hy
        simp only [outputs] at hy
        cases d <;> simp at hy <;> aesop
      | redirect k => rw [htr] at hy; simp [outputs] at hy; subst hy; exact hzt
      | inert => rw [htr] at hy; simp [outputs] at hy; try (subst hy; exact hzt)
    · simp only [List.mem_singleton] at hy; subst hy; exact hzt

/-- Under rules that make no counters, no plugin does harm. -/
theorem harmless_of_types (ops : PluginOps PF PM) {rx : Regexes R} {rules : List (Rule R)} (hs : ∀ r ∈ rules, Sound rx r)
    (hl : LegalRewrites rx rules) (ht : KnownTypes rules) (hc : ∀ r ∈ rules, ∀ t d, r.target = .setType t d → t ≠ c!"c")
    (key t : Str) : Harmless ops rx rules key t := by
  intro x hx hb
  refine .inr fun u hu v r hi => ?_
  have hrt : routedTexts rx rules [t] = (routed rx rules [x]).map asTyped := by simp [routedTexts, hx]
  rw [hrt] at hu
  obtain ⟨y, hy, rfl⟩ := List.mem_map.1 hu
  have hshape := routed_shape (rx := rx) (m := x) rules [x] hs hl ht (by
    intro y hy
    simp only [List.mem_singleton] at hy
    subst hy
    exact ⟨⟨rfl, key_legal hx⟩, Or.inl rfl⟩)
  obtain ⟨⟨hfy, hky⟩, hty⟩ := hshape y hy
  obtain ⟨py, _, f0, rest, ey, sy⟩ := parse_asTyped hx hfy hky hty
  obtain ⟨a0, extra, hpa, _⟩ := increment_iff.1 hi
  rw [py, sy] at hpa
  simp only [Option.some.injEq, Metric.mk.injEq, List.cons.injEq] at hpa
  exact routed_types (m := x) (rx := rx) rules [x] (fun s => s ≠ c!"c") hc (by
    intro z hz; simp only [List.mem_singleton] at hz; subst hz
    intro e; exact hb (by rw [e]; simp)) y hy hpa.1

/-- A text that the rules make at most one message of is delivered. -/
theorem delivered_single {I : Impl C T G PF PM} {w : World} {rx : Regexes R} {rules : List (Rule R)} {t : Str} {ts : List Str}
    (h : Delivered I w rx rules t ts) (hone : (routedTexts rx rules [t]).length ≤ 1) {key : Str} {x : List (PyFloat × PyFloat)}
    (hx : Increments key ts x) : Increments key (routedTexts rx rules [t]) x := by
  obtain ⟨hp, rfl | ⟨s, u, hlast, _⟩⟩ := h
  · exact hx
  · have : ts = routedTexts rx rules [t] := by
      apply hp.eq_of_length_le
      cases ts with
      | nil => simp at hlast
      | cons a l => simp only [List.length_cons]; omega
    rw [← this]; exact hx

theorem holds_fields (c : Cond) (m m' : Metric) (h1 : m.mtype = m'.mtype) (h2 : m.key = m'.key) : Holds c m ↔ Holds c m' := by
  induction c with
  | any => exact Iff.rfl
  | not c ih => exact not_congr ih
  | metricType ts => simp only [Holds, h1]
  | pathLike p => simp only [Holds, h2]

theorem increment_parse {t u : Str} (h : parseMessage t = parseMessage u) (key : Str) (v r : PyFloat) :
    Increment t key v r ↔ Increment u key v r := by
  rw [increment_iff, increment_iff, h]

theorem parse_asTyped_self {t : Str} {m : Metric} (hm : parseMessage t = some m) : parseMessage (asTyped m) = some m := by
  obtain ⟨h1, h2, _⟩ := parse_asTyped hm rfl (key_legal hm) (Or.inl rfl)
  rw [h2 rfl] at h1
  exact h1

theorem parse_textOf_self {t : Str} {m : Metric} (hm : parseMessage t = some m) : parseMessage (textOf m) = some m :=
  parse_textOf hm (key_legal hm) rfl

/-- Texts made of texts, each of the same increments as its origin or of none. -/
theorem flat_increments {key : Str} (f : Str → List Str) (p : Prop) [Decidable p]
    (hnone : ∀ t, (∀ v r, ¬ Increment t key v r) → ∀ u ∈ f t, ∀ v r, ¬ Increment u key v r)
    (hyes : p → ∀ t v r, Increment t key v r → ∃ u, f t = [u] ∧ Increment u key v r)
    (hno : ¬ p → ∀ t v r, Increment t key v r → ∀ u ∈ f t, ∀ v r, ¬ Increment u key v r)
    {ts : List Str} {qs : List (ℚ × ℚ)} (h : FiniteIncrements key ts qs) :
    FiniteIncrements key (ts.flatMap f) (if p then qs else []) := by
  unfold FiniteIncrements at *
  generalize hx : (qs.map fun q => ((.fin q.1, .fin q.2) : PyFloat × PyFloat)) = x at h
  have goal : Increments key (ts.flatMap f) (if p then x else []) := by
    clear hx
    induction h with
    | nil => simp only [ite_self]; exact .nil
    | @hit msg msgs v r incs hi _ ih =>
      rw [List.flatMap_cons]
      by_cases hp : p
      · obtain ⟨u, hu, hi'⟩ := hyes hp msg v r hi
        rw [if_pos hp] at ih ⊢
        rw [hu]
        exact .hit hi' ih
      · rw [if_neg hp] at ih ⊢
        exact increments_append (increments_none (hno hp msg v r hi)) ih
    | @skip msg msgs incs hi _ ih =>
      rw [List.flatMap_cons]
      exact increments_append (increments_none (hnone msg hi)) ih
  by_cases hp : p
  · rw [if_pos hp] at goal ⊢; rw [hx]; exact goal
  · rw [if_neg hp] at goal ⊢; exact goal

theorem norules_increments {rx : Regexes R} {key : Str} {ts : List Str} {qs : List (ℚ × ℚ)} (h : FiniteIncrements key ts qs) :
    FiniteIncrements key (routedTexts rx [] ts) qs := by
  classical
  have := flat_increments (key := key)
    (f := fun t => match parseMessage t with | none => [] | some m => (routed rx [] [m]).map asTyped) True ?_ ?_ ?_ h
  · rw [if_pos trivial] at this; exact this
  · intro t hn u hu v r hi
    cases hm : parseMessage t with
    | none => simp [hm] at hu
    | some m =>
      simp only [hm, routed, List.foldl_nil, List.map_cons, List.map_nil, List.mem_singleton] at hu
      subst hu
      exact hn v r ((increment_parse (by rw [hm, parse_asTyped_self hm]) key v r).2 hi)
  · intro _ t v r hi
    cases hm : parseMessage t with
    | none => obtain ⟨_, _, h, _⟩ := increment_iff.1 hi; rw [hm] at h; cases h
    | some m =>
      refine ⟨asTyped m, by simp [hm, routed], ?_⟩
      exact (increment_parse (by rw [hm, parse_asTyped_self hm]) key v r).1 hi
  · intro h; exact absurd trivial h

theorem same_increments {rx : Regexes R} {rules : List (Rule R)} {key : Str} {ts : List Str} {qs : List (ℚ × ℚ)}
    (hrt : ∀ t m, parseMessage t = some m → routed rx rules [m] = [m]) (h : FiniteIncrements key ts qs) :
    FiniteIncrements key (routedTexts rx rules ts) qs := by
  have := norules_increments (rx := rx) h
  have e : routedTexts rx rules ts = routedTexts rx [] ts := by
    unfold routedTexts
    apply List.flatMap_congr
    intro t _
    cases hm : parseMessage t with
    | none => rfl
    | some m => simp only [hrt t m hm]; rfl
  rw [e]; exact this

open Classical in
theorem sent_increments {rx : Regexes R} {rules : List (Rule R)} {c : Cond} {k : Sink} {key : Str} {ts : List Str}
    {qs : List (ℚ × ℚ)}
    (hrt : ∀ t m, parseMessage t = some m →
      (Holds c m → sentAway rx rules [m] = [(k, textOf m)]) ∧ (¬ Holds c m → sentAway rx rules [m] = []))
    (h : FiniteIncrements key ts qs) :
    FiniteIncrements key (sentTo k (sentTexts rx rules ts)) (if Holds c ⟨c!"c", key, []⟩ then qs else []) := by
  have e : sentTo k (sentTexts rx rules ts) = ts.flatMap fun t => match parseMessage t with
      | none => []
      | some m => if Holds c m then [textOf m] else [] := by
    unfold sentTo sentTexts
    rw [List.filter_flatMap, List.map_flatMap]
    apply List.flatMap_congr
    intro t _
    cases hm : parseMessage t with
    | none => rfl
    | some m =>
      by_cases hh : Holds c m
      · simp [(hrt t m hm).1 hh, hh]
      · simp [(hrt t m hm).2 hh, hh]
  rw [e]
  refine flat_increments _ _ ?_ ?_ ?_ h
  · intro t hn u hu v r hi
    cases hm : parseMessage t with
    | none => simp [hm] at hu
    | some m =>
      simp only [hm] at hu
      split_ifs at hu
      · simp only [List.mem_singleton] at hu
        subst hu
        exact hn v r ((increment_parse (by rw [hm, parse_textOf_self hm]) key v r).2 hi)
      · cases hu
  · intro hc t v r hi
    obtain ⟨f0, ex, hm, _⟩ := increment_iff.1 hi
    refine ⟨textOf ⟨c!"c", key, f0 :: c!"c" :: ex⟩, ?_, ?_⟩
    · simp only [hm]
      rw [if_pos ((holds_fields c ⟨c!"c", key, []⟩ ⟨c!"c", key, f0 :: c!"c" :: ex⟩ rfl rfl).1 hc)]
    · exact (increment_parse (by rw [hm, parse_textOf_self hm]) key v r).1 hi
  · intro hc t v r hi u hu
    obtain ⟨f0, ex, hm, _⟩ := increment_iff.1 hi
    simp only [hm] at hu
    rw [if_neg (fun h => hc ((holds_fields c ⟨c!"c", key, f0 :: c!"c" :: ex⟩ ⟨c!"c", key, []⟩ rfl rfl).1 h))] at hu
    cases hu

open Classical in
theorem shared_increments {rx : Regexes R} {rules : List (Rule R)} {c : Cond} {k : Sink} {key : Str} {ts : List Str}
    {qs : List (ℚ × ℚ)}
    (hrt : ∀ t m, parseMessage t = some m →
      (Holds c m → routed rx rules [m] = [] ∧ sentAway rx rules [m] = [(k, textOf m)]) ∧
      (¬ Holds c m → routed rx rules [m] = [m] ∧ sentAway rx rules [m] = []))
    (h : FiniteIncrements key ts qs) :
    FiniteIncrements key (sentTo k (sentTexts rx rules ts)) (if Holds c ⟨c!"c", key, []⟩ then qs else []) ∧
      FiniteIncrements key (routedTexts rx rules ts) (if Holds c ⟨c!"c", key, []⟩ then [] else qs) := by
  refine ⟨sent_increments (fun t m hm => ⟨fun h => ((hrt t m hm).1 h).2, fun h => ((hrt t m hm).2 h).2⟩) h, ?_⟩
  have : FiniteIncrements key (routedTexts rx rules ts) (if ¬ Holds c ⟨c!"c", key, []⟩ then qs else []) := by
    refine flat_increments _ _ ?_ ?_ ?_ h
    · intro t hn u hu v r hi
      cases hm : parseMessage t with
      | none => simp [hm] at hu
      | some m =>
        simp only [hm] at hu
        by_cases hh : Holds c m
        · rw [((hrt t m hm).1 hh).1] at hu; cases hu
        · rw [((hrt t m hm).2 hh).1] at hu
          simp only [List.map_cons, List.map_nil, List.mem_singleton] at hu
          subst hu
          exact hn v r ((increment_parse (by rw [hm, parse_asTyped_self hm]) key v r).2 hi)
    · intro hc t v r hi
      obtain ⟨f0, ex, hm, _⟩ := increment_iff.1 hi
      have hh : ¬ Holds c ⟨c!"c", key, f0 :: c!"c" :: ex⟩ := fun h => hc ((holds_fields c ⟨c!"c", key, f0 :: c!"c" :: ex⟩ ⟨c!"c", key, []⟩ rfl rfl).1 h)
      refine ⟨asTyped ⟨c!"c", key, f0 :: c!"c" :: ex⟩, ?_, ?_⟩
      · simp only [hm, ((hrt t _ hm).2 hh).1, List.map_cons, List.map_nil]
      · exact (increment_parse (by rw [hm, parse_asTyped_self hm]) key v r).1 hi
    · intro hc t v r hi u hu
      obtain ⟨f0, ex, hm, _⟩ := increment_iff.1 hi
      have hh : Holds c ⟨c!"c", key, f0 :: c!"c" :: ex⟩ := (holds_fields c ⟨c!"c", key, []⟩ ⟨c!"c", key, f0 :: c!"c" :: ex⟩ rfl rfl).1 (not_not.1 hc)
      simp only [hm, ((hrt t _ hm).1 hh).1] at hu
      cases hu
  rwa [ite_not] at this

end
end Txstatsd
