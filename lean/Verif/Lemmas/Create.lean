import Verif.Spec.Create
import Verif.Lemmas.Options
import Verif.Lemmas.Dict
import Verif.Lemmas.Sli

set_option linter.unusedSectionVars false
set_option linter.unusedSimpArgs false
set_option linter.unusedVariables false

/-!
# Lemmas for C169: the options are well typed
-/

namespace Txstatsd
open Spec

/-- The values that an option of this kind can be given. -/
inductive OfKind : OptKind → OptVal → Prop
  | text (s : Str) : OfKind .text (.text s)
  | int (z : ℤ) : OfKind .int (.int z)
  | texts (l : List Str) : OfKind .texts (.texts l)
  | ports (l : List ℤ) (h : ∀ z ∈ l, 0 ≤ z ∧ z ≤ 65535) : OfKind .ports (.ports l)

/-- Every declared option has its first value or one of its kind; sections of plugins are lists of items. -/
def KindInv (v : Dict OptVal) : Prop :=
  (∀ d ∈ statsdDecls, ∃ x, v.find d.long = some x ∧ (statsdOpts.values.find d.long = some x ∨ OfKind d.kind x)) ∧
  ∀ n x, c!"plugin_" <+: n → v.find n = some x → ∃ l, x = .items l

theorem statsdDecls_noPlugin : ∀ d ∈ statsdDecls, ¬ c!"plugin_" <+: d.long := by
  have : ∀ d ∈ statsdDecls, (c!"plugin_").isPrefixOf d.long = false := by decide +kernel
  intro d hd hp
  have h1 := this d hd
  rw [List.isPrefixOf_iff_prefix.2 hp] at h1
  cases h1

theorem kindInv_put {v : Dict OptVal} {d : OptDecl} {x : OptVal} (h : KindInv v) (hd : d ∈ statsdDecls) (hx : OfKind d.kind x)
    (hu : ∀ d' ∈ statsdDecls, d'.long = d.long → d'.kind = d.kind) : KindInv (v.put d.long x) := by
  refine ⟨fun d' hd' => ?_, fun n y hn hf => ?_⟩
  · by_cases he : d'.long = d.long
    · exact ⟨x, by rw [he, Dict.find_put_self], .inr (by rw [hu d' hd' he]; exact hx)⟩
    · rw [Dict.find_put_ne _ _ he]
      exact h.1 d' hd'
  · rw [Dict.find_put_ne _ _ (by rintro rfl; exact statsdDecls_noPlugin d hd hn)] at hf
    exact h.2 n y hn hf

theorem statsdDecls_unique : ∀ d ∈ statsdDecls, ∀ d' ∈ statsdDecls, d'.long = d.long → d'.kind = d.kind := by decide +kernel

theorem kindInv_dispatch {v v' : Dict OptVal} {d : OptDecl} {arg : Str} (h : KindInv v) (hd : d ∈ statsdDecls)
    (hs : dispatchOpt d v arg = .ok v') : KindInv v' := by
  unfold dispatchOpt at hs
  have hu := statsdDecls_unique d hd
  split at hs
  · next hk => cases hs; exact kindInv_put h hd (by rw [hk]; exact .text _) hu
  · next hk =>
    split at hs
    · cases hs
    · cases hs; exact kindInv_put h hd (by rw [hk]; exact .int _) hu
  · next hk => cases hs; exact kindInv_put h hd (by rw [hk]; exact .texts _) hu
  · next hk =>
    split at hs
    · cases hs
    · next z hz =>
      cases hs
      refine kindInv_put h hd ?_ hu
      rw [hk]
      refine .ports _ fun y hy => ?_
      rcases List.mem_append.1 hy with hy | hy
      · obtain ⟨x, hx, hor⟩ := h.1 d hd
        rw [hx] at hy
        rcases hor with hi | hi
        · have : ∀ d ∈ statsdDecls, ∀ x, statsdOpts.values.find d.long = some x → portsOf (some x) = [] := by
            have hb : ∀ d ∈ statsdDecls, portsOf (statsdOpts.values.find d.long) = [] := by decide +kernel
            intro d hd x hx
            rw [← hx]
            exact hb d hd
          rw [this d hd x hi] at hy
          cases hy
        · rw [hk] at hi
          cases hi with
          | ports l hl => exact hl y hy
      · obtain rfl : y = z := by simpa using hy
        unfold portCoerce at hz
        split at hz
        · cases hz
        · split at hz
          · next hr => cases hz; exact hr
          · cases hz

theorem kindInv_coerce {st st' : Opts} {n x : Str} (h : KindInv st.values) (hs : coerceOption statsdDecls st n x = .ok st') :
    KindInv st'.values := by
  unfold coerceOption at hs
  split at hs
  · cases hs; exact h
  · split at hs
    · cases hs; exact h
    · next d hd =>
      split at hs
      · cases hs
      · next v hv => cases hs; exact kindInv_dispatch h (List.mem_of_find?_eq_some hd) hv

theorem kindInv_items : ∀ {l : List (Str × Str)} {st st' : Opts}, KindInv st.values → coerceItems statsdDecls st l = .ok st' →
    KindInv st'.values
  | [], _, _, h, hs => by cases hs; exact h
  | (n, x) :: l, st, st', h, hs => by
    rw [coerceItems] at hs
    split at hs
    · cases hs
    · next s1 h1 => exact kindInv_items (kindInv_coerce h h1) hs

theorem kindInv_section {st st' : Opts} {sec : Str × List (Str × Str)} (h : KindInv st.values)
    (hs : configureSection statsdDecls st sec = .ok st') : KindInv st'.values := by
  unfold configureSection at hs
  have hp : c!"plugin_" <+: sec.1 → KindInv (st.values.put sec.1 (.items sec.2)) := fun hp => by
    refine ⟨fun d hd => ?_, fun n y hn hf => ?_⟩
    · rw [Dict.find_put_ne _ _ (by intro he; exact statsdDecls_noPlugin d hd (he ▸ hp))]
      exact h.1 d hd
    · by_cases he : n = sec.1
      · subst he
        rw [Dict.find_put_self] at hf
        exact ⟨_, (Option.some.inj hf).symm⟩
      · rw [Dict.find_put_ne _ _ he] at hf
        exact h.2 n y hn hf
  by_cases hp' : c!"plugin_" <+: sec.1 <;> by_cases hc : c!"carbon-cache" <+: sec.1
    <;> simp only [hp', hc, if_true, if_false] at hs
  · exact kindInv_items (st := { st with values := st.values.put sec.1 (.items sec.2) }) (hp hp') hs
  · cases hs; exact hp hp'
  · exact kindInv_items h hs
  · cases hs; exact h

theorem kindInv_sections : ∀ {cfg : Config} {st st' : Opts}, KindInv st.values → configureSections statsdDecls st cfg = .ok st' →
    KindInv st'.values
  | [], _, _, h, hs => by cases hs; exact h
  | sec :: cfg, st, st', h, hs => by
    rw [configureSections] at hs
    split at hs
    · cases hs
    · next s1 h1 => exact kindInv_sections (kindInv_section h h1) hs

theorem kindInv_file {main : Str} {cfg : Config} {st st' : Opts} (h : KindInv st.values)
    (hs : configureFile statsdDecls main st cfg = .ok st') : KindInv st'.values := by
  unfold configureFile at hs
  split at hs
  · cases hs
  · split at hs
    · cases hs
    · next s1 h1 => exact kindInv_sections (kindInv_items h h1) hs

theorem kindInv_all : ∀ {os : List CmdOpt} {v v' : Dict OptVal}, KindInv v → dispatchAll statsdDecls v os = .ok v' → KindInv v'
  | [], _, _, h, hs => by cases hs; exact h
  | o :: os, v, v', h, hs => by
    rw [dispatchAll] at hs
    split at hs
    · cases hs
    · next d hd =>
      split at hs
      · cases hs
      · next v1 h1 => exact kindInv_all (kindInv_dispatch h (List.mem_of_find?_eq_some hd) h1) hs

theorem kindInv_init : KindInv statsdOpts.values := by
  refine ⟨fun d hd => ?_, fun n x hn hf => ?_⟩
  · have : ∀ d ∈ statsdDecls, (statsdOpts.values.find d.long).isSome = true := by decide +kernel
    obtain ⟨x, hx⟩ := Option.isSome_iff_exists.1 (this d hd)
    exact ⟨x, hx, .inl hx⟩
  · exfalso
    have hk : ∀ k ∈ statsdOpts.values.keys, (c!"plugin_").isPrefixOf k = false := by decide +kernel
    have hm : n ∈ statsdOpts.values.keys := by
      by_contra hc
      rw [(Dict.find_eq_none _ _).2 hc] at hf
      cases hf
    have h1 := hk n hm
    rw [List.isPrefixOf_iff_prefix.2 hn] at h1
    cases h1

theorem kindInv_start {files : Str → Option Str} {argv : List Str} {o : Opts} (h : startOptions files argv = .ok o) : KindInv o.values := by
  unfold startOptions at h
  split at h
  · cases h
  · next st hst =>
    have h0 : KindInv st.values := by
      unfold parseArgv at hst
      split at hst
      · cases hst
      · split at hst
        · cases hst
        · next s1 h1 =>
          split at hst
          · cases hst
            exact kindInv_all kindInv_init (parseCmd_values h1)
          · cases hst
    unfold postOptions at h
    split at h
    · split at h
      · exact kindInv_file h0 h
      · split at h
        · cases h
        · exact kindInv_file h0 h
    · cases h; exact h0

theorem wellTyped_of {o : Opts} (h : KindInv o.values) : WellTyped o := by
  have key : ∀ d ∈ statsdDecls, ∃ x, o.values.find d.long = some x ∧ (statsdOpts.values.find d.long = some x ∨ OfKind d.kind x) := h.1
  have num : ∀ (n sh : Str) (z0 : ℤ), (⟨n, sh, .int⟩ : OptDecl) ∈ statsdDecls → statsdOpts.values.find n = some (.int z0) →
      ∃ z, o.values.find n = some (.int z) := fun n sh z0 hm h0 => by
    obtain ⟨x, hx, hor⟩ := key _ hm
    rcases hor with hi | hi
    · rw [h0] at hi; cases hi; exact ⟨_, hx⟩
    · cases hi; exact ⟨_, hx⟩
  have onum : ∀ (n sh : Str), (⟨n, sh, .int⟩ : OptDecl) ∈ statsdDecls → statsdOpts.values.find n = some .none →
      o.values.find n = some .none ∨ ∃ z, o.values.find n = some (.int z) := fun n sh hm h0 => by
    obtain ⟨x, hx, hor⟩ := key _ hm
    rcases hor with hi | hi
    · rw [h0] at hi; cases hi; exact .inl hx
    · cases hi; exact .inr ⟨_, hx⟩
  have txt : ∀ (n sh s0 : Str), (⟨n, sh, .text⟩ : OptDecl) ∈ statsdDecls → statsdOpts.values.find n = some (.text s0) →
      ∃ s, o.values.find n = some (.text s) := fun n sh s0 hm h0 => by
    obtain ⟨x, hx, hor⟩ := key _ hm
    rcases hor with hi | hi
    · rw [h0] at hi; cases hi; exact ⟨_, hx⟩
    · cases hi; exact ⟨_, hx⟩
  have otxt : ∀ (n sh : Str), (⟨n, sh, .text⟩ : OptDecl) ∈ statsdDecls → statsdOpts.values.find n = some .none →
      o.values.find n = some .none ∨ ∃ s, o.values.find n = some (.text s) := fun n sh hm h0 => by
    obtain ⟨x, hx, hor⟩ := key _ hm
    rcases hor with hi | hi
    · rw [h0] at hi; cases hi; exact .inl hx
    · cases hi; exact .inr ⟨_, hx⟩
  have txts : ∀ (n sh : Str), (⟨n, sh, .texts⟩ : OptDecl) ∈ statsdDecls → statsdOpts.values.find n = some (.texts []) →
      ∃ l, o.values.find n = some (.texts l) := fun n sh hm h0 => by
    obtain ⟨x, hx, hor⟩ := key _ hm
    rcases hor with hi | hi
    · rw [h0] at hi; cases hi; exact ⟨_, hx⟩
    · cases hi; exact ⟨_, hx⟩
  refine ⟨?_, ?_, ?_, ?_, ?_, ?_, h.2⟩
  · intro n hn
    simp only [List.mem_cons, List.not_mem_nil, or_false] at hn
    rcases hn with rfl | rfl | rfl | rfl | rfl | rfl
    · exact num _ c!"l" 8125 (by decide +kernel) (by decide +kernel)
    · exact num _ c!"i" 60000 (by decide +kernel) (by decide +kernel)
    · exact num _ c!"s" 1 (by decide +kernel) (by decide +kernel)
    · exact num _ c!"d" 0 (by decide +kernel) (by decide +kernel)
    · exact num _ c!"Q" 20000 (by decide +kernel) (by decide +kernel)
    · exact num _ c!"M" 1000 (by decide +kernel) (by decide +kernel)
  · intro n hn
    simp only [List.mem_cons, List.not_mem_nil, or_false] at hn
    rcases hn with rfl | rfl
    · exact onum _ c!"t" (by decide +kernel) (by decide +kernel)
    · exact onum _ c!"P" (by decide +kernel) (by decide +kernel)
  · intro n hn
    simp only [List.mem_cons, List.not_mem_nil, or_false] at hn
    rcases hn with rfl | rfl | rfl
    · exact txt _ c!"m" c!"txstatsd ping" (by decide +kernel) (by decide +kernel)
    · exact txt _ c!"o" c!"txstatsd pong" (by decide +kernel) (by decide +kernel)
    · exact txt _ c!"g" [] (by decide +kernel) (by decide +kernel)
  · intro n hn
    simp only [List.mem_cons, List.not_mem_nil, or_false] at hn
    rcases hn with rfl | rfl | rfl | rfl
    · exact otxt _ c!"x" (by decide +kernel) (by decide +kernel)
    · exact otxt _ c!"N" (by decide +kernel) (by decide +kernel)
    · exact otxt _ c!"r" (by decide +kernel) (by decide +kernel)
    · exact otxt _ c!"c" (by decide +kernel) (by decide +kernel)
  · intro n hn
    simp only [List.mem_cons, List.not_mem_nil, or_false] at hn
    rcases hn with rfl | rfl
    · exact txts _ c!"h" (by decide +kernel) (by decide +kernel)
    · exact txts _ c!"n" (by decide +kernel) (by decide +kernel)
  · obtain ⟨x, hx, hor⟩ := key ⟨c!"carbon-cache-port", c!"p", .ports⟩ (by decide +kernel)
    rcases hor with hi | hi
    · rw [show statsdOpts.values.find c!"carbon-cache-port" = some (.ports []) by decide +kernel] at hi
      cases hi; exact ⟨_, hx, by simp⟩
    · cases hi with
      | ports l hl => exact ⟨l, hx, hl⟩

/-! ## The service of well-typed options -/

/-- The number an option holds. -/
def intV (o : Opts) (n : Str) : ℤ := match o.values.find n with | some (.int z) => z | _ => 0

/-- The number an option holds, if any. -/
def ointV (o : Opts) (n : Str) : Option ℤ := match o.values.find n with | some (.int z) => some z | _ => none

/-- The text an option holds, if any. -/
def otextV (o : Opts) (n : Str) : Option Str := match o.values.find n with | some (.text s) => some s | _ => none

/-- The value of an option. -/
def valV (o : Opts) (n : Str) : OptVal := (o.values.find n).getD .none

theorem intOf_typed {o : Opts} {n : Str} (h : ∃ z, o.values.find n = some (.int z)) : o.intOf n = .ok (intV o n) := by
  obtain ⟨z, hz⟩ := h
  simp [Opts.intOf, Opts.get, intV, hz]

theorem intOrNone_typed {o : Opts} {n : Str} (h : o.values.find n = some .none ∨ ∃ z, o.values.find n = some (.int z)) :
    o.intOrNone n = .ok (ointV o n) := by
  rcases h with hz | ⟨z, hz⟩ <;> simp [Opts.intOrNone, Opts.get, ointV, hz]

theorem textOrNone_typed {o : Opts} {n : Str} (h : o.values.find n = some .none ∨ ∃ s, o.values.find n = some (.text s)) :
    o.textOrNone n = .ok (otextV o n) := by
  rcases h with hz | ⟨z, hz⟩ <;> simp [Opts.textOrNone, Opts.get, otextV, hz]

theorem get_typed {o : Opts} {n : Str} {x : OptVal} (h : o.values.find n = some x) : o.get n = .ok (valV o n) := by
  simp [Opts.get, valV, h]

/-- The processor of well-typed options. -/
def kindV (node : Str) (o : Opts) : ProcKind :=
  if intV o c!"statsd-compliance" ≠ 0 then (if intV o c!"dump-mode" ≠ 0 then .logging [] [] else .default)
  else
    let pre := (otextV o c!"prefix").getD c!"statsd"
    let internal := pre ++ c!"." ++ instanceName node (valV o c!"instance-name") ++ c!"."
    if intV o c!"dump-mode" ≠ 0 then .logging pre internal else .configurable pre internal

theorem choose_typed {o : Opts} (h : WellTyped o) (node : Str) (hasInfo : Bool) : chooseProcessor node hasInfo o =
    if intV o c!"dump-mode" ≠ 0 ∧ hasInfo = true then .error .assertionError else .ok (kindV node o) := by
  obtain ⟨zc, hc⟩ := h.numbers c!"statsd-compliance" (by simp)
  obtain ⟨zd, hd⟩ := h.numbers c!"dump-mode" (by simp)
  have hi := h.optionalTexts c!"instance-name" (by simp)
  have hp := h.optionalTexts c!"prefix" (by simp)
  unfold chooseProcessor kindV
  rw [get_typed (n := c!"prefix") (x := valV o c!"prefix") (by rcases hp with h | ⟨s, h⟩ <;> simp [valV, h]),
    get_typed (n := c!"instance-name") (x := valV o c!"instance-name") (by rcases hi with h | ⟨s, h⟩ <;> simp [valV, h]),
    get_typed hd, get_typed hc]
  simp only [bind, Except.bind, intV, hc, hd, valV, Option.getD_some, OptVal.truthy]
  have e : prefixOf ((o.values.find c!"prefix").getD .none) = (otextV o c!"prefix").getD c!"statsd" := by
    rcases hp with h | ⟨s, h⟩ <;> simp [otextV, h, prefixOf]
  rw [e]
  by_cases h1 : zd = 0 <;> by_cases h2 : zc = 0 <;> cases hasInfo <;> simp [h1, h2]

/-- The parts that the options ask for. -/
def partsV {R : Type} (node : Str) (o : Opts) (rules : List (Rule R)) : List Part :=
  (rules.flatMap fun r => r.target.parts) ++
    [.reporting (instanceName node (valV o c!"instance-name")) (scheduledReports (intV o c!"flush-interval") (otextV o c!"report")).1] ++
    List.replicate (scheduledReports (intV o c!"flush-interval") (otextV o c!"report")).2 .inspector ++
    [.carbon (destinations (textsOf (o.values.find c!"carbon-cache-host")) (portsOf (o.values.find c!"carbon-cache-port"))
      (textsOf (o.values.find c!"carbon-cache-name"))), .flushing (intV o c!"flush-interval"), .udp (intV o c!"listen-port")] ++
    (ointV o c!"listen-tcp-port").toList.map .tcp ++ [httpPart (ointV o c!"http-port")]

variable [Rounding]

theorem create_typed {R : Type} {o : Opts} (h : WellTyped o) (rx : Regexes R) (node : Str) (hasInfo : Bool) (fs : List Factory) :
    createService rx node hasInfo fs o =
      match configurePlugins o fs with
      | .error e => .error e
      | .ok plugins =>
        if intV o c!"dump-mode" ≠ 0 ∧ hasInfo = true then .error .assertionError
        else match buildRules rx true ((otextV o c!"routing").getD []) with
          | .error e => .error e
          | .ok rules => .ok ⟨kindV node o, plugins, rules, ⟨otextV o c!"monitor-message", (otextV o c!"monitor-response").getD []⟩,
              intV o c!"flush-interval", partsV node o rules⟩ := by
  have hi := h.optionalTexts c!"instance-name" (by simp)
  obtain ⟨lh, hh⟩ := h.lists c!"carbon-cache-host" (by simp)
  obtain ⟨ln, hn⟩ := h.lists c!"carbon-cache-name" (by simp)
  obtain ⟨lp, hp, -⟩ := h.ports
  unfold createService
  rw [intOf_typed (h.numbers c!"max-queue-size" (by simp)), intOf_typed (h.numbers c!"max-datapoints-per-message" (by simp)),
    get_typed (n := c!"instance-name") (x := valV o c!"instance-name") (by rcases hi with h | ⟨s, h⟩ <;> simp [valV, h]),
    choose_typed h, textOrNone_typed (.inr (h.texts c!"routing" (by simp))), get_typed hh, get_typed hn, get_typed hp,
    intOf_typed (h.numbers c!"flush-interval" (by simp)), textOrNone_typed (h.optionalTexts c!"report" (by simp)),
    textOrNone_typed (.inr (h.texts c!"monitor-message" (by simp))), textOrNone_typed (.inr (h.texts c!"monitor-response" (by simp))),
    intOf_typed (h.numbers c!"listen-port" (by simp)), intOrNone_typed (h.optionalNumbers c!"listen-tcp-port" (by simp)),
    intOrNone_typed (h.optionalNumbers c!"http-port" (by simp))]
  simp only [bind, Except.bind, pure, Except.pure]
  cases configurePlugins o fs with
  | error e => rfl
  | ok plugins =>
    by_cases hd : intV o c!"dump-mode" ≠ 0 ∧ hasInfo = true
    · simp only [if_pos hd]
    · simp only [if_neg hd]
      cases buildRules rx true ((otextV o c!"routing").getD []) with
      | error e => rfl
      | ok rules => simp only [partsV, valV, hh, hn, hp, Option.getD_some]


theorem configureRule_accepts (cfg : SliConfig) (line : Str) : (configureRule cfg line).2 = none ↔ ∃ head label kind params,
    RuleLine line head label kind params ∧ ∀ e, ¬ Senseless kind (splitOn ' ' params.tail) e := by
  cases hm : matchRule line with
  | none =>
    simp only [configureRule, hm]
    constructor
    · intro h; cases h
    · rintro ⟨a, b, c, d, hl, -⟩
      rw [(matchRule_iff ..).2 hl] at hm
      cases hm
  | some p =>
    obtain ⟨a, b, c, d⟩ := p
    have hl := (matchRule_iff ..).1 hm
    simp only [configureRule, hm]
    cases hb : buildCond c (splitOn ' ' d.tail) with
    | ok x =>
      simp only [true_iff]
      refine ⟨a, b, c, d, hl, fun e he => ?_⟩
      rw [buildCond_senseless he] at hb
      cases hb
    | error e =>
      refine ⟨fun h => (by cases h), ?_⟩
      rintro ⟨a', b', c', d', hl', hs⟩
      have h2 := (matchRule_iff ..).2 hl'
      rw [h2] at hm
      cases hm
      exact absurd (senseless_of_buildCond hb) (hs e)

theorem configureRules_accepts : ∀ (cfg : SliConfig) (lines : List Str), (configureRules cfg lines).2 = none ↔
    ∀ line ∈ lines, ∃ head label kind params, RuleLine line head label kind params ∧ ∀ e, ¬ Senseless kind (splitOn ' ' params.tail) e
  | cfg, [] => by simp [configureRules]
  | cfg, l :: ls => by
    have h1 := configureRule_accepts cfg l
    rw [configureRules]
    cases hc : configureRule cfg l with
    | mk c e =>
      rw [hc] at h1
      cases e with
      | some e =>
        simp only at h1 ⊢
        constructor
        · intro h; cases h
        · intro h
          exact absurd (h1.2 (h l (by simp))) (by simp)
      | none =>
        simp only [List.mem_cons, forall_eq_or_imp]
        rw [configureRules_accepts c ls]
        exact ⟨fun h => ⟨h1.1 rfl, h⟩, fun h => h.2⟩

/-- `dict(items)` has the last item of each name. -/
theorem dictOf_find {V : Type} (l : List (Str × V)) (d : Dict V) (n : Str) (x : V) :
    (updateWith d l).find n = some x ↔ (∃ a b, l = a ++ (n, x) :: b ∧ ∀ p ∈ b, p.1 ≠ n) ∨ (∀ p ∈ l, p.1 ≠ n) ∧ d.find n = some x := by
  unfold updateWith
  induction l generalizing d with
  | nil => simp
  | cons p l ih =>
    rw [List.foldl_cons, ih]
    constructor
    · rintro (⟨a, b, rfl, hb⟩ | ⟨hl, hd⟩)
      · exact .inl ⟨p :: a, b, rfl, hb⟩
      · by_cases he : n = p.1
        · subst he
          rw [Dict.find_put_self] at hd
          cases hd
          exact .inl ⟨[], l, rfl, hl⟩
        · rw [Dict.find_put_ne _ _ he] at hd
          exact .inr ⟨by simpa using ⟨fun h => he h.symm, fun a b h => hl (a, b) h⟩, hd⟩
    · rintro (⟨a, b, hab, hb⟩ | ⟨hl, hd⟩)
      · cases a with
        | nil =>
          obtain ⟨rfl, rfl⟩ : p = (n, x) ∧ l = b := by simpa using hab
          exact .inr ⟨hb, by simp⟩
        | cons q a =>
          obtain ⟨rfl, rfl⟩ : p = q ∧ l = a ++ (n, x) :: b := by simpa using hab
          exact .inl ⟨a, b, rfl, hb⟩
      · refine .inr ⟨fun q hq => hl q (by simp [hq]), ?_⟩
        rw [Dict.find_put_ne _ _ (fun h => hl p (by simp) h.symm)]
        exact hd

theorem sliRules_some {o : Opts} (text : Str) : sliRules o = some text ↔ GivenRules o text := by
  unfold sliRules GivenRules
  cases hf : o.values.find c!"plugin_sli" with
  | none => simp
  | some v =>
    cases v with
    | items l => simp [dictOf_find]
    | _ => simp

theorem configure_accepts {o : Opts} (cfg : SliConfig) : (∃ f, Factory.configure o (.sli cfg) = .ok f) ↔
    ∀ text, GivenRules o text → SliText text := by
  unfold Factory.configure configureSli
  cases hs : sliRules o with
  | none =>
    simp only
    refine ⟨fun _ text ht => ?_, fun _ => ⟨_, rfl⟩⟩
    rw [(sliRules_some text).2 ht] at hs
    cases hs
  | some text =>
    have h1 := configureRules_accepts cfg (splitOn '\n' (strip text))
    have h2 : (∀ t, GivenRules o t → SliText t) ↔ SliText text := by
      constructor
      · intro h; exact h text ((sliRules_some text).1 hs)
      · intro h t ht
        rw [(sliRules_some t).2 ht] at hs
        cases hs
        exact h
    rw [h2]
    unfold SliText
    rw [← h1]
    simp only
    cases hc : configureRules cfg (splitOn '\n' (strip text)) with
    | mk c e => cases e <;> simp

theorem plugins_accept {o : Opts} : ∀ (fs : List Factory), (∃ ps, configurePlugins o fs = .ok ps) ↔
    ∀ cfg, Factory.sli cfg ∈ fs → ∀ text, GivenRules o text → SliText text
  | [] => by simp [configurePlugins]
  | f :: fs => by
    have ih := plugins_accept (o := o) fs
    have h1 : (∃ ps, configurePlugins o (f :: fs) = .ok ps) ↔ (∃ g, f.configure o = .ok g) ∧ ∃ ps, configurePlugins o fs = .ok ps := by
      rw [configurePlugins]
      cases f.configure o with
      | error e => simp
      | ok g => cases configurePlugins o fs <;> simp
    rw [h1, ih]
    cases f with
    | distinct => simp [Factory.configure]
    | sli c =>
      rw [configure_accepts]
      constructor
      · rintro ⟨a, b⟩ cfg hm
        rcases List.mem_cons.1 hm with he | he
        · exact a
        · exact b cfg he
      · intro h
        exact ⟨h c (by simp), fun cfg hm => h cfg (by simp [hm])⟩

end Txstatsd
