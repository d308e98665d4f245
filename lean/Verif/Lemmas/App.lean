import Verif.Spec.App
import Verif.Spec.Router
import Verif.Lemmas.RouterServer
import Verif.Lemmas.Schedule

/-!
# Lemmas on the assembled service
-/

set_option linter.unusedSectionVars false
set_option linter.unusedSimpArgs false
set_option linter.unusedVariables false

namespace Txstatsd
open Spec
variable [Rounding] {S S' PF PM R : Type}

theorem App.run_nil (P : Proc S) (cf : AppConf R) (w : World) (v : App S) : v.run P cf w [] = v := rfl

theorem App.run_cons (P : Proc S) (cf : AppConf R) (w : World) (v : App S) (e : AppEvent) (es : List AppEvent) :
    v.run P cf w (e :: es) = (v.step P cf w e).run P cf w es := rfl

/-! ## Another processor with the same behaviour -/

/-- The service with another processor. -/
def App.withPs (f : S → S') (v : App S) : App S' :=
  { ps := f v.ps, scheduled := v.scheduled, gens := v.gens, out := v.out, sent := v.sent, answered := v.answered, bad := v.bad }

theorem deliver_map (f : S → S') {proc : S → Str → Metric → S × Outcome} {proc' : S' → Str → Metric → S' × Outcome}
    (h : ∀ s t m, proc' (f s) t m = (f (proc s t m).1, (proc s t m).2)) (ms : List Metric) (s : S) :
    deliver proc' (f s) ms = (f (deliver proc s ms).1, (deliver proc s ms).2) := by
  induction ms generalizing s with
  | nil => rfl
  | cons m ms ih =>
    simp only [deliver]
    rw [h]
    cases hx : (proc s (rebuildMessage m.mtype m.key m.fields) m).2.exc with
    | some e => simp [hx]
    | none => simp [hx, ih]

theorem routeText_map (f : S → S') {proc : S → Str → Metric → S × Outcome} {proc' : S' → Str → Metric → S' × Outcome}
    (h : ∀ s t m, proc' (f s) t m = (f (proc s t m).1, (proc s t m).2)) (rx : Regexes R) (rules : List (Rule R))
    (s : S) (text : Str) :
    routeText rx rules proc' (f s) text =
      ((routeText rx rules proc s text).1, f (routeText rx rules proc s text).2.1, (routeText rx rules proc s text).2.2) := by
  unfold routeText
  cases parseMessage text with
  | none => rfl
  | some m =>
    simp only [routeMessage]
    cases applyRules rx rules [m] [] with
    | mk log r =>
      cases r with
      | error e => rfl
      | ok ms => simp only [deliver_map f h]

theorem App.run_map (f : S → S') {P : Proc S} {P' : Proc S'}
    (hp : ∀ w s t m, P'.processMessage w (f s) t m = (f (P.processMessage w s t m).1, (P.processMessage w s t m).2))
    (hm : ∀ w s g, P'.micro w (f s) g = (f (P.micro w s g).1, (P.micro w s g).2))
    (cf : AppConf R) (w : World) (es : List AppEvent) (v : App S) :
    (v.withPs f).run P' cf w es = (v.run P cf w es).withPs f := by
  induction es generalizing v with
  | nil => rfl
  | cons e es ih =>
    rw [App.run_cons, App.run_cons, ← ih]
    congr 1
    have hproc : ∀ (v : App S) (t : Str), (v.withPs f).process P' cf w t = (v.process P cf w t).withPs f := by
      intro v t
      unfold App.process
      have := routeText_map f (proc := P.processMessage w) (proc' := P'.processMessage w) (hp w) cf.rx cf.rules v.ps t
      simp only [App.withPs, this]
    cases e with
    | receive d =>
      simp only [App.step, Monitor.datagramReceived]
      split <;> rfl
    | turn i =>
      simp only [App.step, App.withPs]
      cases h : v.scheduled[i]? with
      | none => rfl
      | some d => exact hproc { v with scheduled := v.scheduled.eraseIdx i } d
    | internal t => exact hproc v t
    | tick => rfl
    | advance i =>
      simp only [App.step, App.withPs]
      cases h : v.gens[i]? with
      | none => rfl
      | some g => simp only [hm]

theorem logging_process_ps (str : Num → Str) (ops : PluginOps PF PM) (pre int : Str) (w : World) (l : Logging PF PM) (t : Str)
    (m : Metric) :
    (configurable ops pre int).proc.processMessage w l.ps t m =
      (((loggingProc str ops pre int).processMessage w l t m).1.ps, ((loggingProc str ops pre int).processMessage w l t m).2) := rfl

theorem logging_micro_ps (str : Num → Str) (ops : PluginOps PF PM) (pre int : Str) (w : World) (l : Logging PF PM) (g : Gen) :
    (configurable ops pre int).proc.micro w l.ps g =
      (((loggingProc str ops pre int).micro w l g).1.ps, ((loggingProc str ops pre int).micro w l g).2) := by
  show Txstatsd.micro (configurable ops pre int) w l.ps g = _
  simp only [loggingProc, Logging.micro]
  rcases Txstatsd.micro (configurable ops pre int) w l.ps g with ⟨s, g', _ | d⟩ <;> rfl

theorem behaviour_logging (str : Num → Str) (ops : PluginOps PF PM) (plugins : List PF) (cf : AppConf R) (w : World)
    (es : List AppEvent) (pre int : Str) :
    behaviour str ops plugins cf w es (.logging pre int) = behaviour str ops plugins cf w es (.configurable pre int) := by
  have h := App.run_map (Logging.ps (PF := PF) (PM := PM)) (P := loggingProc str ops pre int)
    (P' := (configurable ops pre int).proc) (logging_process_ps str ops pre int) (logging_micro_ps str ops pre int)
    cf w es { ps := { ps := CPState.init ops plugins } }
  simp only [behaviour]
  have h' : App.run (configurable ops pre int).proc cf w { ps := CPState.init ops plugins } es = _ := h
  rw [h']
  rfl

/-! ## Without rules the service is the server of the schedules -/

theorem routeText_no_rules {C T G : Type} {I : Impl C T G PF PM} (hI : TextFree I) (w : World) (s : PS C T G PF PM)
    (rx : Regexes R) (message : Str) :
    (routeText rx [] (processMessage I w) s message).1 = [] ∧
    (routeText rx [] (processMessage I w) s message).2.1 = (process I w s message).1 := by
  unfold routeText process
  cases hp : parseMessage message with
  | none => exact ⟨rfl, rfl⟩
  | some m =>
    have ht := processMessage_text hI w s (rebuildMessage m.mtype m.key m.fields) message m
    simp only [routeMessage, applyRules, deliver]
    refine ⟨trivial, ?_⟩
    split <;> exact ht.1

/-- The service as a server of the schedules. -/
def App.server {C T G : Type} (v : App (PS C T G PF PM)) : Server C T G PF PM := { ps := v.ps, gens := v.gens, out := v.out }

theorem takenIn_cons (mon : Option Str) (e : AppEvent) (es : List AppEvent) :
    takenIn mon (e :: es) = takenIn mon [e] ++ takenIn mon es := by
  unfold takenIn
  rw [← List.filterMap_append]; rfl

theorem app_server {C T G : Type} {I : Impl C T G PF PM} (hI : TextFree I) (cf : AppConf R) (hr : cf.rules = []) (w : World)
    (es : List AppEvent) (v : App (PS C T G PF PM)) :
    ∃ es' : List Event, (v.run I.proc cf w es).server = v.server.run I w es' ∧
      (arrivals es' ++ (v.run I.proc cf w es).scheduled).Perm (v.scheduled ++ takenIn cf.monitor.message es) ∧
      (∀ i p, Event.spawn i p ∈ es' → i = cf.flushInterval ∧ p = 90) := by
  induction es generalizing v with
  | nil => exact ⟨[], rfl, by simp [arrivals, takenIn, App.run_nil], by simp⟩
  | cons e es ih =>
    obtain ⟨es', h1, h2, h3⟩ := ih (v.step I.proc cf w e)
    rw [App.run_cons, takenIn_cons]
    have hproc : ∀ (v : App (PS C T G PF PM)) (t : Str), (v.process I.proc cf w t).server = v.server.step I w (.arrive t) ∧
        (v.process I.proc cf w t).scheduled = v.scheduled := by
      intro v t
      refine ⟨?_, rfl⟩
      unfold App.process App.server
      rw [hr]
      simp only [Server.step]
      have := (routeText_no_rules hI w v.ps cf.rx t).2
      simp only [Impl.proc]
      rw [this]
    cases e with
    | receive d =>
      refine ⟨es', ?_, ?_, h3⟩
      · rw [h1]
        congr 1
        simp only [App.step, Monitor.datagramReceived]
        split <;> rfl
      · refine h2.trans ?_
        rw [← List.append_assoc]
        refine List.Perm.append_right _ ?_
        simp only [App.step, Monitor.datagramReceived, takenIn]
        by_cases hm : cf.monitor.message = some d <;> simp [hm]
    | turn i =>
      cases hs : v.scheduled[i]? with
      | none =>
        have he : v.step I.proc cf w (.turn i) = v := by simp only [App.step, hs]
        rw [he] at h1 h2 ⊢
        exact ⟨es', h1, by simpa [takenIn] using h2, h3⟩
      | some d =>
        have he : v.step I.proc cf w (.turn i) = ({ v with scheduled := v.scheduled.eraseIdx i } : App _).process I.proc cf w d := by
          simp only [App.step, hs]
        obtain ⟨p1, p2⟩ := hproc ({ v with scheduled := v.scheduled.eraseIdx i } : App _) d
        refine ⟨.arrive d :: es', ?_, ?_, ?_⟩
        · rw [h1, Txstatsd.run_cons, he, p1]; rfl
        · have hp : (d :: v.scheduled.eraseIdx i).Perm v.scheduled := by
            obtain ⟨hlt, hd⟩ := List.getElem?_eq_some_iff.1 hs
            rw [← hd]
            exact (List.getElem_cons_eraseIdx_perm hlt)
          rw [he, p2] at h2
          rw [he]
          simp only [arrivals, List.filterMap_cons, List.cons_append, takenIn, List.filterMap_nil, List.nil_append] at h2 ⊢
          exact (h2.cons d).trans (by rw [← List.cons_append]; exact hp.append_right _)
        · intro j p hj
          rcases List.mem_cons.1 hj with h | h
          · cases h
          · exact h3 j p h
    | internal t =>
      obtain ⟨p1, p2⟩ := hproc v t
      have he : v.step I.proc cf w (.internal t) = v.process I.proc cf w t := rfl
      rw [he] at h1 h2 ⊢
      refine ⟨.arrive t :: es', ?_, ?_, ?_⟩
      · rw [h1, Txstatsd.run_cons, p1]
      · rw [p2] at h2
        simp only [arrivals, List.filterMap_cons, List.cons_append, takenIn, List.filterMap_nil, List.nil_append] at h2 ⊢
        exact (h2.cons t).trans List.perm_middle.symm
      · intro j p hj
        rcases List.mem_cons.1 hj with h | h
        · cases h
        · exact h3 j p h
    | tick =>
      refine ⟨.spawn cf.flushInterval 90 :: es', ?_, ?_, ?_⟩
      · rw [h1, Txstatsd.run_cons]; rfl
      · have he : (v.step I.proc cf w .tick).scheduled = v.scheduled := rfl
        rw [he] at h2
        simpa [arrivals, takenIn] using h2
      · intro j p hj
        rcases List.mem_cons.1 hj with h | h
        · cases h; exact ⟨rfl, rfl⟩
        · exact h3 j p h
    | advance i =>
      refine ⟨.advance i :: es', ?_, ?_, ?_⟩
      · rw [h1, Txstatsd.run_cons]
        congr 1
        simp only [App.step, App.server, Server.step]
        cases v.gens[i]? with
        | none => rfl
        | some g => rfl
      · have he : (v.step I.proc cf w (.advance i)).scheduled = v.scheduled := by
          simp only [App.step]
          cases v.gens[i]? <;> rfl
        rw [he] at h2
        simpa [arrivals, takenIn] using h2
      · intro j p hj
        rcases List.mem_cons.1 hj with h | h
        · cases h
        · exact h3 j p h

/-! ## Increments and permutations -/

theorem increments_perm {key : Str} {a b : List Str} (h : a.Perm b) {x : List (PyFloat × PyFloat)} (hx : Increments key a x) :
    ∃ y, Increments key b y ∧ x.Perm y := by
  induction h generalizing x with
  | nil => exact ⟨x, hx, .refl _⟩
  | @cons m l l' _ ih =>
    cases hx with
    | hit hi hr => obtain ⟨y, hy, hp⟩ := ih hr; exact ⟨_, .hit hi hy, hp.cons _⟩
    | skip hi hr => obtain ⟨y, hy, hp⟩ := ih hr; exact ⟨_, .skip hi hy, hp⟩
  | swap m n l =>
    cases hx with
    | hit hi hr =>
      cases hr with
      | hit hj hr => exact ⟨_, .hit hj (.hit hi hr), List.Perm.swap _ _ _⟩
      | skip hj hr => exact ⟨_, .skip hj (.hit hi hr), .refl _⟩
    | skip hi hr =>
      cases hr with
      | hit hj hr => exact ⟨_, .hit hj (.skip hi hr), .refl _⟩
      | skip hj hr => exact ⟨_, .skip hj (.skip hi hr), .refl _⟩
  | trans _ _ ih1 ih2 =>
    obtain ⟨y, hy, hp⟩ := ih1 hx
    obtain ⟨z, hz, hq⟩ := ih2 hy
    exact ⟨z, hz, hp.trans hq⟩

/-! ## Several messages in a datagram -/

omit [Rounding] in
theorem stripped_two {m1 text rest : Str} (h : Stripped m1 text) (hne : text ≠ []) (hrest : '|' ∈ rest) :
    ∃ b p q, (∀ c ∈ b, White c) ∧ '|' ∉ p ∧
      Stripped (m1 ++ '\n' :: rest) (text ++ (b ++ '\n' :: (p ++ '|' :: q))) := by
  obtain ⟨a, b, rfl, ha, hb, hh, hl⟩ := h
  obtain ⟨x, y, hx, hxw, hyw, hxh, hxl⟩ := strip_spec ('x' :: rest)
  obtain ⟨p, q, hpq, hp⟩ : ∃ p q, split1 '|' rest = some (p, q) ∧ '|' ∉ p := by
    cases h : split1 '|' rest with
    | none => exact absurd hrest (split1_none.1 h)
    | some r => exact ⟨r.1, r.2, rfl, (split1_some h).2⟩
  have hsp := (split1_some hpq).1
  have hx0 : x = [] := by
    cases x with
    | nil => rfl
    | cons c x =>
      simp only [List.cons_append, List.cons.injEq] at hx
      have := hxw c (by simp)
      rw [← hx.1] at this
      exact absurd this (by decide)
  subst hx0
  rw [List.nil_append] at hx
  -- the stripped rest
  obtain ⟨t, ht⟩ : ∃ t, strip ('x' :: rest) = 'x' :: t := by
    cases hs : strip ('x' :: rest) with
    | nil =>
      rw [hs, List.nil_append] at hx
      have := hyw 'x' (by rw [← hx]; simp)
      exact absurd this (by decide)
    | cons c t =>
      rw [hs, List.cons_append, List.cons.injEq] at hx
      exact ⟨t, by rw [hx.1]⟩
  rw [ht, List.cons_append, List.cons.injEq] at hx
  have hr : rest = t ++ y := hx.2
  have hbt : '|' ∈ t := by
    rw [hr, List.mem_append] at hrest
    rcases hrest with h | h
    · exact h
    · exact absurd (hyw _ h) (by decide)
  have htl : ∀ c, t.getLast? = some c → ¬ White c := by
    intro c hc
    refine hxl c ?_
    rw [ht, List.getLast?_cons, hc]; rfl
  obtain ⟨p', q', hpq', hp'⟩ : ∃ p q, t = p ++ '|' :: q ∧ '|' ∉ p := by
    cases h : split1 '|' t with
    | none => exact absurd hbt (split1_none.1 h)
    | some r => exact ⟨r.1, r.2, (split1_some h).1, (split1_some h).2⟩
  refine ⟨b, p', q', hb, hp', a, y, ?_, ha, hyw, ?_, ?_⟩
  · rw [hr, hpq']; simp
  · intro c hc
    cases text with
    | nil => exact absurd rfl hne
    | cons d text => exact hh c (by simpa using hc)
  · intro c hc
    have : (text ++ (b ++ '\n' :: (p' ++ '|' :: q'))) = (text ++ (b ++ ['\n'])) ++ t := by rw [hpq']; simp
    rw [this, List.getLast?_append] at hc
    cases htg : t.getLast? with
    | none => rw [List.getLast?_eq_none_iff] at htg; rw [htg] at hbt; cases hbt
    | some d =>
      rw [htg] at hc
      simp only [Option.some_or, Option.some.injEq] at hc
      subst hc
      exact htl _ htg

omit [Rounding] in
theorem parse_two_lines {m1 t1 raw : Str} {fields : List Str} (h : Message m1 t1 raw fields) {rest : Str} (hrest : '|' ∈ rest) :
    parseMessage (m1 ++ '\n' :: rest) = none ∨
      ∃ m, parseMessage (m1 ++ '\n' :: rest) = some m ∧ '\n' ∈ m.mtype := by
  obtain ⟨text, hst, hraw, hf, hcase⟩ := h
  have hne : text ≠ [] := by rcases hcase with ⟨_, _, rfl⟩ | ⟨_, _, _, rfl⟩ <;> simp
  obtain ⟨b, p, q, hb, hp, hs⟩ := stripped_two hst hne hrest
  have hbar : '|' ∉ b := fun h => absurd (hb _ h) (by decide)
  have hcol : (m1 ++ '\n' :: rest).contains ':' = true := by
    obtain ⟨a, b', rfl, _⟩ := hst
    rcases hcase with ⟨_, _, rfl⟩ | ⟨_, _, _, rfl⟩ <;> simp
  unfold parseMessage
  rw [hcol, strip_of_stripped hs]
  rcases hcase with ⟨f0, rfl, rfl⟩ | ⟨f0, f2, rfl, rfl⟩
  · have e : raw ++ ':' :: (f0 ++ '|' :: t1) ++ (b ++ '\n' :: (p ++ '|' :: q)) =
        raw ++ ':' :: (f0 ++ '|' :: ((t1 ++ b ++ '\n' :: p) ++ '|' :: q)) := by simp
    have hn : '|' ∉ t1 ++ b ++ '\n' :: p := by
      simp only [List.mem_append, List.mem_cons, not_or]
      exact ⟨⟨hf t1 (by simp), hbar⟩, by decide, hp⟩
    rw [e, split1_eq hraw]
    simp only [Bool.not_true, Bool.false_eq_true, if_false, splitOn_append (hf f0 (by simp)), splitOn_append hn]
    simp only [List.contains_append, List.contains_cons, beq_self_eq_true, Bool.true_or, Bool.or_true, Bool.not_true,
      Bool.false_eq_true, if_false]
    split
    · exact Or.inl rfl
    · exact Or.inr ⟨_, rfl, by simp⟩
  · have e : raw ++ ':' :: (f0 ++ '|' :: (t1 ++ '|' :: f2)) ++ (b ++ '\n' :: (p ++ '|' :: q)) =
        raw ++ ':' :: (f0 ++ '|' :: (t1 ++ '|' :: ((f2 ++ b ++ '\n' :: p) ++ '|' :: q))) := by simp
    have hn : '|' ∉ f2 ++ b ++ '\n' :: p := by
      simp only [List.mem_append, List.mem_cons, not_or]
      exact ⟨⟨hf f2 (by simp), hbar⟩, by decide, hp⟩
    rw [e, split1_eq hraw]
    have hlen := List.length_pos_iff.2 (splitOn_ne_nil '|' q)
    simp only [Bool.not_true, Bool.false_eq_true, if_false, splitOn_append (hf f0 (by simp)), splitOn_append (hf t1 (by simp)),
      splitOn_append hn]
    left
    split
    · rfl
    · rw [if_pos]
      simp only [List.length_cons, Bool.or_eq_true, decide_eq_true_eq]
      omega

/-- A well-formed message followed by a line with a bar is a bad message as a whole. -/
theorem process_two {C T G : Type} (I : Impl C T G PF PM) (w : World) (s : PS C T G PF PM) {m1 t1 raw : Str} {fields : List Str}
    (h : Message m1 t1 raw fields) {rest : Str} (hrest : '|' ∈ rest) (hp : ∀ t ∈ s.plugins.keys, '\n' ∉ t) :
    (process I w s (m1 ++ '\n' :: rest)).2 = { bad := [m1 ++ '\n' :: rest] } ∧
      ∃ n, (process I w s (m1 ++ '\n' :: rest)).1 = { s with ticks := s.ticks + n } := by
  unfold process
  rcases parse_two_lines h hrest with h | ⟨m, h, hm⟩
  · rw [h]; exact ⟨rfl, 0, rfl⟩
  · rw [h]
    simp only [processMessage]
    have hd : dispatch I w { s with ticks := s.ticks + 1 } (m1 ++ '\n' :: rest) m = none := by
      unfold dispatch
      have hne : ∀ t : Str, '\n' ∉ t → m.mtype ≠ t := fun t ht e => ht (e ▸ hm)
      rw [if_neg (hne _ (by decide)), if_neg (hne _ (by decide)), if_neg (hne _ (by decide)), if_neg (hne _ (by decide))]
      cases hf : s.plugins.find m.mtype with
      | none => simp [hf]
      | some f =>
        exfalso
        exact hp m.mtype (Dict.mem_keys_of_mem (Dict.mem_of_find hf)) hm
    rw [hd]
    exact ⟨rfl, 1, rfl⟩

/-! ## Report names -/

omit [Rounding] in
theorem upperChar_eq (c : Char) : upperChar c = c.toUpper := by
  unfold upperChar Char.toUpper
  simp only [Char.le_def]
  split
  · next h =>
    obtain ⟨n, rfl⟩ : ∃ n : Fin 26, c = Char.ofNat (97 + n) := by
      have h1 : 97 ≤ c.toNat := h.1
      have h2 : c.toNat ≤ 122 := h.2
      refine ⟨⟨c.toNat - 97, by omega⟩, ?_⟩
      have : 97 + (c.toNat - 97) = c.toNat := by omega
      simp only [this, Char.ofNat_toNat]
    revert n
    decide
  · rfl

omit [Rounding] in
theorem listed_iff (text n : Str) : n ∈ reportNames text ↔ Listed text n := by
  unfold reportNames Listed
  rw [List.mem_map]
  constructor
  · rintro ⟨p, hp, rfl⟩
    exact ⟨splitOn ',' text, splitOn_ne_nil _ _, by rw [← joinWith_eq, join_splitOn], splitOn_parts _ _, p, hp, strip_spec p⟩
  · rintro ⟨pieces, hne, rfl, hc, p, hp, h⟩
    refine ⟨p, ?_, strip_of_stripped h⟩
    rw [← joinWith_eq, splitOn_join hne hc]
    exact hp

omit [Rounding] in
theorem mem_statsOf (f : ReportFn) (n : Str) :
    f ∈ statsOf (n.map upperChar) ↔ ∃ g, groupOf f = some g ∧ SameName n g := by
  have hu : n.map upperChar = n.map Char.toUpper := by
    apply List.map_congr_left; intro c _; exact upperChar_eq c
  rw [hu]
  unfold statsOf SameName
  generalize n.map Char.toUpper = u
  constructor
  · intro h
    split_ifs at h with h1 h2 h3 h4 h5
    · simp only [List.mem_singleton] at h; subst h; exact ⟨_, rfl, h1.trans (by decide)⟩
    · simp only [List.mem_singleton] at h; subst h; exact ⟨_, rfl, h2.trans (by decide)⟩
    · simp only [List.mem_singleton] at h; subst h; exact ⟨_, rfl, h3.trans (by decide)⟩
    · simp only [List.mem_singleton] at h; subst h; exact ⟨_, rfl, h4.trans (by decide)⟩
    · simp only [List.mem_cons, List.not_mem_nil, or_false] at h
      rcases h with rfl | rfl | rfl | rfl <;> exact ⟨_, rfl, h5.trans (by decide)⟩
    · cases h
  · rintro ⟨g, hg, hu⟩
    subst hu
    cases f <;> simp only [groupOf, Option.some.injEq, reduceCtorEq] at hg <;> subst hg <;> decide

/-! ## The reserved option -/

omit [Rounding] in
mutual
theorem mem_accumulate (p : Str × Str) : ∀ cls : PyClass, p ∈ cls.accumulate ↔ Declares cls p
  | .mk isGlue bases params => by
    rw [PyClass.accumulate, List.mem_append, mem_accumulate_go p bases]
    constructor
    · rintro (⟨b, hb, h⟩ | h)
      · exact .base hb h
      · cases isGlue
        · exact .own (by simpa using h)
        · simp at h
    · intro h
      cases h with
      | own h => exact Or.inr (by simpa using h)
      | base hb h => exact Or.inl ⟨_, hb, h⟩
theorem mem_accumulate_go (p : Str × Str) : ∀ bases : List PyClass,
    p ∈ PyClass.accumulate.go bases ↔ ∃ b ∈ bases, Declares b p
  | [] => by simp [PyClass.accumulate.go]
  | b :: bs => by
    rw [PyClass.accumulate.go, List.mem_append, mem_accumulate p b, mem_accumulate_go p bs]
    simp
end

end Txstatsd
