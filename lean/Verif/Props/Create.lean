import Verif.Lemmas.Create
import Verif.Props.Ini
import Verif.Props.Router
import Verif.Props.App

set_option linter.unusedSectionVars false
set_option linter.unusedSimpArgs false
set_option linter.unusedVariables false

/-!
# C169: from the command line to the running service
-/

namespace Txstatsd
open Spec

/-- C169: whatever the arguments and the files are, options that are accepted hold what the declarations say. -/
theorem C169_options (files : Str → Option Str) (argv : List Str) (o : Opts) (h : startOptions files argv = .ok o) : WellTyped o :=
  wellTyped_of (kindInv_start h)

example : WellTyped statsdOpts := C169_options (fun _ => none) [] _ (by decide +kernel)

section
variable [Rounding] {R : Type}

theorem routing_iff (rx : Regexes R) (text : Str) (rules : List (Rule R)) : buildRules rx true text = .ok rules ↔ RoutingText rx text rules := by
  constructor
  · intro h
    obtain ⟨lines, h1, h2, rfl⟩ := C54_lines text
    exact ⟨lines, h1, h2, rfl, (C54_rules rx true lines h1 h2 rules).1 h⟩
  · rintro ⟨lines, h1, h2, rfl, h3⟩
    exact (C54_rules rx true lines h1 h2 rules).2 h3

theorem otextV_of {o : Opts} {n s : Str} (h : o.values.find n = some (.text s)) : otextV o n = some s := by simp [otextV, h]

theorem intV_of {o : Opts} {n : Str} {z : ℤ} (h : o.values.find n = some (.int z)) : intV o n = z := by simp [intV, h]

/-- C169: a service is created exactly when its texts are accepted: the rules of the SLI plugin, if that is there, and the routing rules;
and no dump mode was asked for after an earlier one. Nothing else about accepted options can fail. -/
theorem C169_creates (files : Str → Option Str) (argv : List Str) (o : Opts) (h : startOptions files argv = .ok o) (rx : Regexes R)
    (node : Str) (hasInfo : Bool) (fs : List Factory) :
    (∃ c, createService rx node hasInfo fs o = .ok c) ↔
      (∀ cfg, Factory.sli cfg ∈ fs → ∀ text, GivenRules o text → SliText text) ∧
      ¬ (hasInfo = true ∧ o.values.find c!"dump-mode" ≠ some (.int 0)) ∧
      ∀ routing, o.values.find c!"routing" = some (.text routing) → ∃ rules, RoutingText rx routing rules := by
  have ht := C169_options files argv o h
  obtain ⟨zd, hd⟩ := ht.numbers c!"dump-mode" (by simp)
  obtain ⟨r, hr⟩ := ht.texts c!"routing" (by simp)
  have h1 : (∀ routing, o.values.find c!"routing" = some (.text routing) → ∃ rules, RoutingText rx routing rules) ↔
      ∃ rules, buildRules rx true r = .ok rules := by
    constructor
    · intro hh
      obtain ⟨rules, h2⟩ := hh r hr
      exact ⟨rules, (routing_iff rx r rules).2 h2⟩
    · rintro ⟨rules, h2⟩ routing h3
      rw [hr] at h3
      cases h3
      exact ⟨rules, (routing_iff rx _ rules).1 h2⟩
  rw [h1, ← plugins_accept, create_typed ht, otextV_of hr, intV_of hd, hd]
  have h2 : (zd ≠ 0 ∧ hasInfo = true) ↔ (hasInfo = true ∧ some (OptVal.int zd) ≠ some (.int 0)) := by
    simp [and_comm]
  rw [← h2]
  cases configurePlugins o fs with
  | error e => simp
  | ok ps =>
    by_cases hc : zd ≠ 0 ∧ hasInfo = true
    · simp [hc.1, hc.2]
    · simp only [if_neg hc, Option.getD_some]
      cases hb : buildRules rx true r with
      | error e => simp [hb]
      | ok rules =>
        simp only [Except.ok.injEq, exists_eq', true_and, and_true]
        simpa using hc

/-- What `createService` returns for accepted options. -/
theorem created_eq {files : Str → Option Str} {argv : List Str} {o : Opts} (h : startOptions files argv = .ok o) {rx : Regexes R}
    {node : Str} {hasInfo : Bool} {fs : List Factory} {c : Created R} (hc : createService rx node hasInfo fs o = .ok c) :
    c.kind = kindV node o ∧ c.parts = partsV node o c.rules ∧ c.flushInterval = intV o c!"flush-interval" ∧
    c.monitor = ⟨otextV o c!"monitor-message", (otextV o c!"monitor-response").getD []⟩ ∧
    buildRules rx true ((otextV o c!"routing").getD []) = .ok c.rules ∧ configurePlugins o fs = .ok c.plugins := by
  rw [create_typed (C169_options files argv o h)] at hc
  split at hc
  · cases hc
  · next ps hps =>
    split at hc
    · cases hc
    · split at hc
      · cases hc
      · next rules hr =>
        cases hc
        exact ⟨rfl, rfl, rfl, rfl, hr, hps⟩

/-- C169: the service has the parts that the options ask for. It listens for datagrams on the port `listen-port`, for connections on
`listen-tcp-port` if that is given, for requests on `http-port` if that is given, and on no other; it flushes every `flush-interval`; it
redirects where the rules say. -/
theorem C169_parts (files : Str → Option Str) (argv : List Str) (o : Opts) (h : startOptions files argv = .ok o) (rx : Regexes R)
    (node : Str) (hasInfo : Bool) (fs : List Factory) (c : Created R) (hc : createService rx node hasInfo fs o = .ok c) :
    (∀ p, Part.udp p ∈ c.parts ↔ o.values.find c!"listen-port" = some (.int p)) ∧
    (∀ p, Part.tcp p ∈ c.parts ↔ o.values.find c!"listen-tcp-port" = some (.int p)) ∧
    (∀ p, Part.http p ∈ c.parts ↔ o.values.find c!"http-port" = some (.int p)) ∧
    (∀ i, Part.flushing i ∈ c.parts ↔ o.values.find c!"flush-interval" = some (.int i)) ∧
    (∀ (tcp : Bool) host port, (if tcp then Part.tcpRedirect host port else .udpRedirect host port) ∈ c.parts ↔
      ∃ r ∈ c.rules, r.target = .redirect ⟨tcp, host, port⟩) ∧
    (∀ ds, Part.carbon ds ∈ c.parts ↔ ds = destinations (textsOf (o.values.find c!"carbon-cache-host"))
      (portsOf (o.values.find c!"carbon-cache-port")) (textsOf (o.values.find c!"carbon-cache-name"))) := by
  have ht := C169_options files argv o h
  obtain ⟨-, hp, -⟩ := created_eq h hc
  obtain ⟨zl, hl⟩ := ht.numbers c!"listen-port" (by simp)
  obtain ⟨zi, hi⟩ := ht.numbers c!"flush-interval" (by simp)
  have htcp := ht.optionalNumbers c!"listen-tcp-port" (by simp)
  have hhttp := ht.optionalNumbers c!"http-port" (by simp)
  have hnone : ∀ (x : Part), (∀ (tcp : Bool) host port, x ≠ if tcp then Part.tcpRedirect host port else .udpRedirect host port) →
      x ∉ c.rules.flatMap fun r => r.target.parts := by
    intro x hx hm
    obtain ⟨r, hr, hxr⟩ := List.mem_flatMap.1 hm
    cases ht : r.target with
    | redirect k =>
      obtain ⟨b, host, port⟩ := k
      rw [ht] at hxr
      cases b <;> simp only [Target.parts, List.mem_singleton] at hxr
      · exact hx false host port hxr
      · exact hx true host port hxr
    | _ => rw [ht] at hxr; simp [Target.parts] at hxr
  rw [hp]
  refine ⟨fun p => ?_, fun p => ?_, fun p => ?_, fun i => ?_, fun tcp host port => ?_, fun ds => ?_⟩
  · have := hnone (.udp p) (by intro t _ _; cases t <;> simp)
    rcases hhttp with hh | ⟨q, hh⟩ <;>
    simp [partsV, this, List.mem_replicate, httpPart, ointV, hh, intV_of hl, hl, eq_comm]
  · have := hnone (.tcp p) (by intro t _ _; cases t <;> simp)
    rcases hhttp with hh | ⟨q, hh⟩ <;> rcases htcp with hh' | ⟨q', hh'⟩ <;>
    simp [partsV, this, List.mem_replicate, httpPart, ointV, hh, hh', eq_comm]
  · have := hnone (.http p) (by intro t _ _; cases t <;> simp)
    rcases hhttp with hh | ⟨q, hh⟩ <;>
    simp [partsV, this, List.mem_replicate, httpPart, ointV, hh, eq_comm]
  · have := hnone (.flushing i) (by intro t _ _; cases t <;> simp)
    rcases hhttp with hh | ⟨q, hh⟩ <;>
    simp [partsV, this, List.mem_replicate, httpPart, ointV, hh, intV_of hi, hi, eq_comm]
  · have h1 : (if tcp then Part.tcpRedirect host port else .udpRedirect host port) ∈ partsV node o c.rules ↔
        (if tcp then Part.tcpRedirect host port else .udpRedirect host port) ∈ c.rules.flatMap fun r => r.target.parts := by
      rcases hhttp with hh | ⟨q, hh⟩ <;> cases tcp <;>
      simp [partsV, List.mem_replicate, httpPart, ointV, hh]
    rw [h1, List.mem_flatMap]
    refine exists_congr fun r => and_congr_right fun _ => ?_
    cases ht : r.target with
    | redirect k =>
      obtain ⟨b, host', port'⟩ := k
      cases b <;> cases tcp <;> simp [Target.parts, eq_comm]
    | _ => simp [Target.parts]
  · have := hnone (.carbon ds) (by intro t _ _; cases t <;> simp)
    rcases hhttp with hh | ⟨q, hh⟩ <;>
    simp [partsV, this, List.mem_replicate, httpPart, ointV, hh]

/-- C169: the parts are once each: one listener for datagrams, at most one for connections, one flushing service. -/
theorem C169_once (files : Str → Option Str) (argv : List Str) (o : Opts) (h : startOptions files argv = .ok o) (rx : Regexes R)
    (node : Str) (hasInfo : Bool) (fs : List Factory) (c : Created R) (hc : createService rx node hasInfo fs o = .ok c) :
    (c.parts.filter fun x => match x with | .udp _ => true | _ => false).length = 1 ∧
    (c.parts.filter fun x => match x with | .tcp _ => true | _ => false).length ≤ 1 ∧
    (c.parts.filter fun x => match x with | .flushing _ => true | _ => false).length = 1 ∧
    (c.parts.filter fun x => match x with | .carbon _ => true | _ => false).length = 1 ∧
    (c.parts.filter fun x => match x with | .reporting _ _ => true | _ => false).length = 1 := by
  obtain ⟨-, hp, -⟩ := created_eq h hc
  have hn : ∀ (f : Part → Bool), (∀ host port, f (.tcpRedirect host port) = false) → (∀ host port, f (.udpRedirect host port) = false) →
      (c.rules.flatMap fun r => r.target.parts).filter f = [] := by
    intro f h1 h2
    rw [List.filter_eq_nil_iff]
    intro x hx
    obtain ⟨r, -, hxr⟩ := List.mem_flatMap.1 hx
    cases ht : r.target with
    | redirect k =>
      obtain ⟨b, host', port'⟩ := k
      cases b <;> simp [ht, Target.parts] at hxr <;> subst hxr
      · simp [h2]
      · simp [h1]
    | _ => simp [ht, Target.parts] at hxr
  have hrep : ∀ (f : Part → Bool) (n : ℕ), f .inspector = false → (List.replicate n Part.inspector).filter f = [] := by
    intro f n hf
    rw [List.filter_eq_nil_iff]
    intro x hx
    rw [(List.mem_replicate.1 hx).2]
    simp [hf]
  rw [hp]
  unfold partsV
  refine ⟨?_, ?_, ?_, ?_, ?_⟩ <;> rw [List.filter_append, List.filter_append, List.filter_append, List.filter_append, List.filter_append,
    hn _ (fun _ _ => rfl) (fun _ _ => rfl), hrep _ _ rfl] <;>
    cases ointV o c!"listen-tcp-port" <;> cases ointV o c!"http-port" <;> simp [httpPart] <;> decide

/-- C169: the processor. With compliance it is the default one; without, it is the configurable one with the prefix and the name of
the instance; in dump mode it is a logging one. -/
theorem C169_kind (files : Str → Option Str) (argv : List Str) (o : Opts) (h : startOptions files argv = .ok o) (rx : Regexes R)
    (node : Str) (hasInfo : Bool) (fs : List Factory) (c : Created R) (hc : createService rx node hasInfo fs o = .ok c)
    (compliance dump : ℤ) (hco : o.values.find c!"statsd-compliance" = some (.int compliance))
    (hd : o.values.find c!"dump-mode" = some (.int dump)) (pre inst : Str) (hp : PrefixIs o pre) (hi : InstanceIs node o inst) :
    (compliance ≠ 0 → dump = 0 → c.kind = .default) ∧
    (compliance = 0 → dump = 0 → c.kind = .configurable pre (pre ++ c!"." ++ inst ++ c!".")) ∧
    (compliance ≠ 0 → dump ≠ 0 → c.kind = .logging [] []) ∧
    (compliance = 0 → dump ≠ 0 → c.kind = .logging pre (pre ++ c!"." ++ inst ++ c!".")) ∧
    ∃ reports, Part.reporting inst reports ∈ c.parts := by
  obtain ⟨hk, hpa, -⟩ := created_eq h hc
  have h1 : (otextV o c!"prefix").getD c!"statsd" = pre := by
    rcases hp with hp | ⟨hp, rfl⟩ <;> simp [otextV, hp]
  have h2 : instanceName node (valV o c!"instance-name") = inst := by
    rcases hi with ⟨hne, hi⟩ | ⟨hi | hi, rfl⟩
    · simp [valV, hi, instanceName, hne]
    · simp [valV, hi, instanceName]
    · simp [valV, hi, instanceName]
  rw [hk, hpa]
  simp only [kindV, intV_of hco, intV_of hd, h1, h2, partsV]
  refine ⟨fun a b => by simp [a, b], fun a b => by simp [a, b], fun a b => by simp [a, b], fun a b => by simp [a, b],
    (scheduledReports (intV o c!"flush-interval") (otextV o c!"report")).1, by simp⟩

/-- C169: the reports. Without the option `report` only carbon's own statistics are reported; an option that is given, also an empty one
as in the example file, brings the statistics of the reactor. -/
theorem C169_reports (files : Str → Option Str) (argv : List Str) (o : Opts) (h : startOptions files argv = .ok o) (rx : Regexes R)
    (node : Str) (hasInfo : Bool) (fs : List Factory) (c : Created R) (hc : createService rx node hasInfo fs o = .ok c)
    (interval : ℤ) (hi : o.values.find c!"flush-interval" = some (.int interval)) (inst : Str) (reports : List (ReportFn × ℤ))
    (hm : Part.reporting inst reports ∈ c.parts) :
    (o.values.find c!"report" = some .none → reports = [(.clientManager, interval / 1000)] ∧ Part.inspector ∉ c.parts) ∧
    (o.values.find c!"report" = some (.text []) → reports = [(.clientManager, interval / 1000), (.reactorStats, 60)] ∧
      Part.inspector ∉ c.parts) ∧
    ∀ text, o.values.find c!"report" = some (.text text) → (ReportFn.reactorStats, 60) ∈ reports := by
  obtain ⟨-, hpa, -⟩ := created_eq h hc
  have hno : ∀ x, (∀ (tcp : Bool) host port, x ≠ if tcp then Part.tcpRedirect host port else .udpRedirect host port) →
      x ∉ c.rules.flatMap fun r => r.target.parts := by
    intro x hx hmm
    obtain ⟨r, -, hxr⟩ := List.mem_flatMap.1 hmm
    cases ht : r.target with
    | redirect k =>
      obtain ⟨b, host, port⟩ := k
      rw [ht] at hxr
      cases b <;> simp only [Target.parts, List.mem_singleton] at hxr
      · exact hx false host port hxr
      · exact hx true host port hxr
    | _ => rw [ht] at hxr; simp [Target.parts] at hxr
  have hr : reports = (scheduledReports interval (otextV o c!"report")).1 := by
    rw [hpa] at hm
    have := hno (.reporting inst reports) (by intro t _ _; cases t <;> simp)
    cases h1 : ointV o c!"http-port" <;>
      simp [partsV, this, List.mem_replicate, httpPart, h1, intV_of hi] at hm <;> exact hm.2
  have hn : (scheduledReports interval (otextV o c!"report")).2 = 0 → Part.inspector ∉ c.parts := by
    intro h0 hmm
    rw [hpa] at hmm
    have := hno .inspector (by intro t _ _; cases t <;> simp)
    cases h1 : ointV o c!"http-port" <;>
      simp [partsV, this, List.mem_replicate, httpPart, h1, intV_of hi, h0] at hmm
  have hfl : flushPeriod interval = interval / 1000 := Int.fdiv_eq_ediv_of_nonneg _ (by norm_num)
  refine ⟨fun h1 => ?_, fun h1 => ?_, fun text h1 => ?_⟩
  · have h2 : otextV o c!"report" = none := by simp [otextV, h1]
    rw [h2] at hr hn
    exact ⟨by rw [hr, ← hfl]; rfl, hn rfl⟩
  · rw [otextV_of h1] at hr hn
    exact ⟨by rw [hr, ← hfl]; rfl, hn rfl⟩
  · rw [otextV_of h1] at hr
    rw [hr]
    simp [scheduledReports]

/-- C169: an option given by its long name on the command line has that value in the end, whatever the file says. -/
theorem C169_given (files : Str → Option Str) (before after : List Written) (w : Written)
    (hw : ∀ x ∈ before ++ w :: after, x.Legal statsdLongOpt statsdShortOpt) (d : OptDecl) (hd : d ∈ statsdDecls)
    (hl : w.meant.isLong = true) (hn : w.meant.name = d.long)
    (hlast : ∀ x ∈ after, x.meant.name ≠ d.long ∧ x.meant.name ≠ d.short) (v : OptVal) (hv : Coerced d.kind w.meant.arg v)
    (o : Opts) (h : startOptions files ((before ++ w :: after).flatMap Written.args) = .ok o) : o.values.find d.long = some v := by
  unfold startOptions at h
  split at h
  · cases h
  · next st hst =>
    have key : ∀ cfg st', configureFile statsdDecls c!"statsd" st cfg = .ok st' → st'.values.find d.long = some v := fun cfg st' hf =>
      C165_wins_partial _ before after w rfl hw d hd hl hn hlast v hv st st' cfg hst hf
    unfold postOptions at h
    split at h
    · split at h
      · exact key _ _ h
      · split at h
        · cases h
        · exact key _ _ h
    · cases h
      refine key [(c!"statsd", [])] _ ?_
      simp [configureFile, Dict.find, coerceItems, sortSections, configureSections, configureSection]

/-- C169: so the ports and the interval given on the command line are those of the service. -/
theorem C169_listens (files : Str → Option Str) (before after : List Written) (w : Written)
    (hw : ∀ x ∈ before ++ w :: after, x.Legal statsdLongOpt statsdShortOpt) (d : OptDecl) (hd : d ∈ statsdDecls)
    (hl : w.meant.isLong = true) (hn : w.meant.name = d.long)
    (hlast : ∀ x ∈ after, x.meant.name ≠ d.long ∧ x.meant.name ≠ d.short) (p : ℤ) (hv : Coerced d.kind w.meant.arg (.int p))
    (o : Opts) (h : startOptions files ((before ++ w :: after).flatMap Written.args) = .ok o) (rx : Regexes R)
    (node : Str) (hasInfo : Bool) (fs : List Factory) (c : Created R) (hc : createService rx node hasInfo fs o = .ok c) :
    (d.long = c!"listen-port" → ∀ q, Part.udp q ∈ c.parts ↔ q = p) ∧ (d.long = c!"listen-tcp-port" → ∀ q, Part.tcp q ∈ c.parts ↔ q = p) ∧
    (d.long = c!"http-port" → ∀ q, Part.http q ∈ c.parts ↔ q = p) ∧
    (d.long = c!"flush-interval" → ∀ q, Part.flushing q ∈ c.parts ↔ q = p) := by
  have hf := C169_given files before after w hw d hd hl hn hlast _ hv o h
  obtain ⟨h1, h2, h3, h4, -⟩ := C169_parts files _ o h rx node hasInfo fs c hc
  refine ⟨fun e q => ?_, fun e q => ?_, fun e q => ?_, fun e q => ?_⟩ <;> rw [e] at hf
  · rw [h1, hf]; simp [eq_comm]
  · rw [h2, hf]; simp [eq_comm]
  · rw [h3, hf]; simp [eq_comm]
  · rw [h4, hf]; simp [eq_comm]

/-- A port for connections, given after other options. -/
example (files : Str → Option Str) (o : Opts) (rx : Regexes R) (node : Str) (hasInfo : Bool) (fs : List Factory) (c : Created R)
    (h : startOptions files [c!"--http-port=80", c!"--listen-tcp-port", c!"8126"] = .ok o) (hc : createService rx node hasInfo fs o = .ok c) :
    ∀ q, Part.tcp q ∈ c.parts ↔ q = 8126 := by
  have a1 := C165_all ⟨c!"http-port", c!"P", .int⟩ (by decide +kernel)
  have a2 := C165_all ⟨c!"listen-tcp-port", c!"t", .int⟩ (by decide +kernel)
  refine (C169_listens files [.longEq c!"http-port" c!"80"] [] (.longNext c!"listen-tcp-port" c!"8126") ?_ ⟨c!"listen-tcp-port", c!"t", .int⟩
    (by decide +kernel) rfl rfl (by simp) 8126 ?_ o h rx node hasInfo fs c hc).2.1 rfl
  · intro x hx
    simp only [List.cons_append, List.nil_append, List.mem_cons, List.not_mem_nil, or_false] at hx
    rcases hx with rfl | rfl
    · exact a1.1
    · exact a2.1
  · exact .int (by decide +kernel)

/-- Such a service is created. -/
example (files : Str → Option Str) (rx : Regexes R) (node : Str) (hasInfo : Bool) :
    ∃ o c, startOptions files [c!"--http-port=80", c!"--listen-tcp-port", c!"8126"] = .ok o ∧ createService rx node hasInfo [] o = .ok c ∧
      Part.tcp 8126 ∈ c.parts ∧ Part.http 80 ∈ c.parts := by
  refine ⟨_, _, rfl, rfl, ?_, ?_⟩ <;> simp [httpPart] <;> decide

theorem configurePlugins_none {o : Opts} (h : o.values.find c!"plugin_sli" = none) : ∀ fs : List Factory, configurePlugins o fs = .ok fs
  | [] => rfl
  | f :: fs => by
    have hs : sliRules o = none := by simp [sliRules, h]
    have : f.configure o = .ok f := by cases f <;> simp [Factory.configure, configureSli, hs]
    simp [configurePlugins, this, configurePlugins_none h fs]

theorem configurePlugins_unset {o : Opts} (h : sliRules o = none) : ∀ fs : List Factory, configurePlugins o fs = .ok fs
  | [] => rfl
  | f :: fs => by
    have : f.configure o = .ok f := by cases f <;> simp [Factory.configure, configureSli, h]
    simp [configurePlugins, this, configurePlugins_unset h fs]

theorem configurePlugins_set {o : Opts} {text : Str} (h : sliRules o = some text) : ∀ (fs ps : List Factory), configurePlugins o fs = .ok ps →
    List.Forall₂ (fun f g => f = .distinct ∧ g = .distinct ∨
      ∃ cfg cfg', f = .sli cfg ∧ g = .sli cfg' ∧ configureRules cfg (splitOn '\n' (strip text)) = (cfg', none)) fs ps
  | [], ps, hp => by cases hp; exact .nil
  | f :: fs, ps, hp => by
    unfold configurePlugins at hp
    cases hf : f.configure o with
    | error e => rw [hf] at hp; cases hp
    | ok g =>
      rw [hf] at hp
      simp only at hp
      cases hr : configurePlugins o fs with
      | error e => rw [hr] at hp; cases hp
      | ok gs =>
        rw [hr] at hp
        cases hp
        refine .cons ?_ (configurePlugins_set h fs gs hr)
        cases f with
        | distinct => cases hf; exact .inl ⟨rfl, rfl⟩
        | sli cfg =>
          right
          simp only [Factory.configure, configureSli, h] at hf
          rcases hc : configureRules cfg (splitOn '\n' (strip text)) with ⟨cfg', e⟩
          rw [hc] at hf
          cases e with
          | some e => cases hf
          | none => cases hf; exact ⟨cfg, cfg', rfl, rfl, hc⟩

/-- C169: the options reach what uses them. The interval, the message and answer of the monitor and the rules of the router are those of the
options; the plugins are those found, and each SLI plugin has the rules of the section `plugin_sli` read into it, if there are any. -/
theorem C169_wiring (files : Str → Option Str) (argv : List Str) (o : Opts) (h : startOptions files argv = .ok o) (rx : Regexes R)
    (node : Str) (hasInfo : Bool) (fs : List Factory) (c : Created R) (hc : createService rx node hasInfo fs o = .ok c) :
    o.values.find c!"flush-interval" = some (.int (c.conf rx).flushInterval) ∧
    (∃ message, (c.conf rx).monitor.message = some message ∧ o.values.find c!"monitor-message" = some (.text message)) ∧
    o.values.find c!"monitor-response" = some (.text (c.conf rx).monitor.response) ∧
    (∃ text, o.values.find c!"routing" = some (.text text) ∧ RoutingText rx text (c.conf rx).rules) ∧
    ((∀ text, ¬ GivenRules o text) → c.plugins = fs) ∧
    ∀ text, GivenRules o text → List.Forall₂ (fun f g => f = .distinct ∧ g = .distinct ∨
      ∃ cfg cfg', f = .sli cfg ∧ g = .sli cfg' ∧ configureRules cfg (splitOn '\n' (strip text)) = (cfg', none)) fs c.plugins := by
  have ht := C169_options files argv o h
  obtain ⟨-, -, h3, h4, h5, h6⟩ := created_eq h hc
  obtain ⟨zi, hi⟩ := ht.numbers c!"flush-interval" (by simp)
  obtain ⟨m, hm⟩ := ht.texts c!"monitor-message" (by simp)
  obtain ⟨a, ha⟩ := ht.texts c!"monitor-response" (by simp)
  obtain ⟨r, hr⟩ := ht.texts c!"routing" (by simp)
  rw [otextV_of hm, otextV_of ha] at h4
  rw [intV_of hi] at h3
  rw [otextV_of hr] at h5
  refine ⟨?_, ⟨m, ?_, hm⟩, ?_, ⟨r, hr, (routing_iff rx r _).1 h5⟩, fun hn => ?_, fun text ht => ?_⟩
  · show _ = some (OptVal.int c.flushInterval)
    rw [h3, hi]
  · show c.monitor.message = _
    rw [h4]
  · show _ = some (OptVal.text c.monitor.response)
    rw [h4, ha]
    rfl
  · have hs : sliRules o = none := by
      cases hs : sliRules o with
      | none => rfl
      | some t => exact absurd ((sliRules_some t).1 hs) (hn t)
    rw [configurePlugins_unset hs] at h6
    exact (Except.ok.inj h6).symm
  · exact configurePlugins_set ((sliRules_some text).2 ht) fs _ h6

/-- Other texts for the monitor, and rules for the SLI plugin from a file. -/
example (rx : Regexes R) : ∃ o c, startOptions (fun _ => some c!"[statsd]\nmonitor-message: hello\n[plugin_sli]\nrules = a => red IF below 5 1\n")
      [c!"--config=f", c!"--monitor-response=there"] = .ok o ∧ GivenRules o c!"a => red IF below 5 1" ∧
      createService rx c!"host" false [.distinct, .sli []] o = .ok c := by
  refine ⟨_, _, rfl, ⟨_, rfl, [], [], rfl, by simp⟩, rfl⟩

/-- C169: without arguments, and with `statsd.tac`, the service is the one of the defaults. -/
theorem C169_default (files : Str → Option Str) (rx : Regexes R) (node : Str) (hasInfo : Bool) (fs : List Factory) :
    startOptions files [] = .ok statsdOpts ∧
    createService rx node hasInfo fs statsdOpts = .ok ⟨.default, fs, [], ⟨some c!"txstatsd ping", c!"txstatsd pong"⟩, 60000,
      [.reporting node [(.clientManager, 60)], .carbon [(c!"127.0.0.1", 2004, none)], .flushing 60000, .udp 8125, .empty]⟩ := by
  have hs : startOptions files [] = .ok statsdOpts := rfl
  refine ⟨hs, ?_⟩
  rw [create_typed (C169_options files [] _ hs), configurePlugins_none (by decide +kernel)]
  have e1 : intV statsdOpts c!"dump-mode" = 0 := by decide +kernel
  have e2 : (otextV statsdOpts c!"routing").getD [] = [] := by decide +kernel
  have e3 : kindV node statsdOpts = .default := rfl
  simp only [e1, ne_eq, not_true_eq_false, false_and, if_false, e2, e3]
  rfl

/-- The hypotheses of the theorems above are met by the service of the defaults. -/
example (files : Str → Option Str) (rx : Regexes R) (node : Str) (hasInfo : Bool) (fs : List Factory) :
    ∃ o c, startOptions files [] = .ok o ∧ createService rx node hasInfo fs o = .ok c ∧ (∀ p, Part.udp p ∈ c.parts ↔ p = 8125) ∧
      c.kind = .default ∧ (∃ reports, Part.reporting node reports ∈ c.parts) ∧
      (c.parts.filter fun x => match x with | .udp _ => true | _ => false).length = 1 ∧
      ∀ reports, Part.reporting node reports ∈ c.parts → reports = [(.clientManager, 60)] := by
  obtain ⟨h1, h2⟩ := C169_default files rx node hasInfo fs
  refine ⟨_, _, h1, h2, fun p => ?_, ?_, ?_, (C169_once files [] _ h1 rx node hasInfo fs _ h2).1, fun reports hm => ?_⟩
  · rw [(C169_parts files [] _ h1 rx node hasInfo fs _ h2).1 p, show statsdOpts.values.find c!"listen-port" = some (.int 8125) by decide +kernel]
    simp [eq_comm]
  · exact (C169_kind files [] _ h1 rx node hasInfo fs _ h2 1 0 (by decide +kernel) (by decide +kernel) c!"statsd" node
      (Or.inr ⟨by decide +kernel, rfl⟩) (Or.inr ⟨Or.inl (by decide +kernel), rfl⟩)).1 (by decide) rfl
  · exact (C169_kind files [] _ h1 rx node hasInfo fs _ h2 1 0 (by decide +kernel) (by decide +kernel) c!"statsd" node
      (Or.inr ⟨by decide +kernel, rfl⟩) (Or.inr ⟨Or.inl (by decide +kernel), rfl⟩)).2.2.2.2
  · exact ((C169_reports files [] _ h1 rx node hasInfo fs _ h2 60000 (by decide +kernel) node reports hm).1 (by decide +kernel)).1

/-- A rule that names no target is not accepted, so no service is created. -/
example (files : Str → Option Str) (rx : Regexes R) (node : Str) (o : Opts)
    (h : startOptions files [c!"--routing=any"] = .ok o) : ¬ ∃ c, createService rx node false [] o = .ok c := by
  have hr : o.values.find c!"routing" = some (.text c!"any") := by
    have := h.symm.trans (show startOptions files [c!"--routing=any"] = .ok ⟨statsdOpts.values.put c!"routing" (.text c!"any"), [c!"routing"]⟩ from rfl)
    cases this
    decide +kernel
  rw [C169_creates files _ o h rx node false []]
  rintro ⟨-, -, hh⟩
  obtain ⟨rules, h2⟩ := hh _ hr
  have := (routing_iff rx _ rules).2 h2
  rw [show buildRules rx true c!"any" = .error .valueError from rfl] at this
  cases this

/-- C169: with the file that comes with the program, read from any path, the service is the same except for the port of the carbon cache
and the statistics of the reactor, which the empty option `report` brings. -/
theorem C169_example (files : Str → Option Str) (path : Str) (hf : files path = some (joinWith c!"\n" sampleFile)) (rx : Regexes R)
    (node : Str) (hasInfo : Bool) (fs : List Factory) :
    ∃ o, startOptions files [c!"--config=" ++ path] = .ok o ∧
      createService rx node hasInfo fs o = .ok ⟨.default, fs, [], ⟨some c!"txstatsd ping", c!"txstatsd pong"⟩, 60000,
        [.reporting node [(.clientManager, 60), (.reactorStats, 60)], .carbon [(c!"localhost", 2003, none)], .flushing 60000, .udp 8125,
          .empty]⟩ ∧
      o.values.find c!"prefix" = some (.text []) ∧ o.values.find c!"plugin_sample" = some (.items [(c!"sample-key", c!"sample-value")]) := by
  have hw : ∀ x ∈ [Written.longEq c!"config" path], x.Legal statsdLongOpt statsdShortOpt := by
    intro x hx
    obtain rfl : x = Written.longEq c!"config" path := by simpa using hx
    exact (C165_all ⟨c!"config", c!"c", .text⟩ (by decide +kernel)).1
  have hread : readConfig (joinWith c!"\n" sampleFile) = .ok
      [(c!"statsd", [(c!"carbon-cache-host", c!"localhost"), (c!"carbon-cache-port", c!"2003"), (c!"listen-port", c!"8125"),
        (c!"flush-interval", c!"60000"), (c!"report", []), (c!"prefix", []), (c!"statsd-compliance", c!"1"),
        (c!"monitor-message", c!"txstatsd ping"), (c!"monitor-response", c!"txstatsd pong")]),
       (c!"plugin_sample", [(c!"sample-key", c!"sample-value")])] := by decide +kernel
  have hst : ∃ o, startOptions files [c!"--config=" ++ path] = .ok o ∧ o.values = [(c!"carbon-cache-host", .texts [c!"localhost"]),
      (c!"carbon-cache-port", .ports [2003]), (c!"carbon-cache-name", .texts []),
      (c!"listen-port", .int 8125), (c!"flush-interval", .int 60000), (c!"prefix", .text []), (c!"instance-name", .none),
      (c!"report", .text []), (c!"monitor-message", .text c!"txstatsd ping"), (c!"monitor-response", .text c!"txstatsd pong"),
      (c!"statsd-compliance", .int 1), (c!"dump-mode", .int 0), (c!"routing", .text []), (c!"listen-tcp-port", .none),
      (c!"max-queue-size", .int 20000), (c!"max-datapoints-per-message", .int 1000), (c!"http-port", .none),
      (c!"config", .text path), (c!"plugin_sample", .items [(c!"sample-key", c!"sample-value")])] := by
    have h0 : startOptions files ([Written.longEq c!"config" path].flatMap Written.args) =
        match parseCmd statsdDecls statsdOpts [⟨true, c!"config", path⟩] with
        | .error e => .error e
        | .ok st => postOptions files st := by
      unfold startOptions
      rw [C165_options _ hw]
      rfl
    have h1 : [Written.longEq c!"config" path].flatMap Written.args = [c!"--config=" ++ path] := by simp [Written.args]
    rw [h1] at h0
    rw [h0]
    have h2 : parseCmd statsdDecls statsdOpts [⟨true, c!"config", path⟩] =
        .ok ⟨statsdOpts.values.put c!"config" (.text path), [c!"config"]⟩ := rfl
    rw [h2]
    simp only
    unfold postOptions
    rw [Dict.find_put_self]
    simp only [hf, hread]
    exact ⟨_, rfl, rfl⟩
  obtain ⟨o, ho, hv⟩ := hst
  refine ⟨o, ho, ?_, by rw [hv]; rfl, by rw [hv]; rfl⟩
  rw [create_typed (C169_options files _ _ ho), configurePlugins_none (by rw [hv]; rfl)]
  have e1 : intV o c!"dump-mode" = 0 := by simp only [intV, hv]; rfl
  have e2 : (otextV o c!"routing").getD [] = [] := by simp only [otextV, hv]; rfl
  have e3 : kindV node o = .default := by simp only [kindV, intV, hv]; rfl
  simp only [e1, ne_eq, not_true_eq_false, false_and, if_false, e2, e3, intV, ointV, otextV, valV, partsV, hv]
  rfl

example (rx : Regexes R) : ∃ o c, startOptions (fun p => if p = c!"/etc/txstatsd.conf" then some (joinWith c!"\n" sampleFile) else none)
    [c!"--config=/etc/txstatsd.conf"] = .ok o ∧ createService rx c!"host" true [] o = .ok c ∧ Part.udp 8125 ∈ c.parts := by
  obtain ⟨o, h1, h2, -⟩ := C169_example (fun p => if p = c!"/etc/txstatsd.conf" then some (joinWith c!"\n" sampleFile) else none)
    c!"/etc/txstatsd.conf" (if_pos rfl) rx c!"host" true []
  exact ⟨o, _, h1, h2, by simp⟩

end

section
variable [Rounding] {R PF PM : Type}

/-- C169, end to end: whatever the command line and the configuration file, if the service is created with the default processor, without
rules and with an interval of a second or more, no increment is ever lost or counted twice. -/
theorem C169_no_loss [Exact] (files : Str → Option Str) (argv : List Str) (o : Opts) (h : startOptions files argv = .ok o) (rx : Regexes R)
    (node : Str) (hasInfo : Bool) (fs : List Factory) (c : Created R) (hc : createService rx node hasInfo fs o = .ok c)
    (interval : ℤ) (hi : o.values.find c!"flush-interval" = some (.int interval)) (hle : 1000 ≤ interval)
    (hr : o.values.find c!"routing" = some (.text [])) (message : Str) (hm : o.values.find c!"monitor-message" = some (.text message))
    (ops : PluginOps PF PM) (hq : Quiet ops c!"stats_counts.") (plugins : List PF)
    (w : World) (es : List AppEvent) (key : Str) (qs : List (ℚ × ℚ))
    (hinc : Increments key (takenIn (some message) es) (qs.map fun p => (.fin p.1, .fin p.2))) :
    let v := App.run (messageProcessor ops).proc (c.conf rx) w { ps := MPState.init ops plugins } es
    ∃ waiting : List (ℚ × ℚ), Increments key v.scheduled (waiting.map fun p => (.fin p.1, .fin p.2)) ∧
      ((named (c!"stats_counts." ++ key) v.out).map fun d => d.value.rat).sum +
      ((named (c!"stats_counts." ++ key) (underWay v.gens)).map fun d => d.value.rat).sum +
      ((v.ps.counters.find key).getD (.int 0)).rat + (waiting.map fun p => p.1 / p.2).sum =
        (qs.map fun p => p.1 / p.2).sum := by
  obtain ⟨-, -, h3, h4, h5, -⟩ := created_eq h hc
  rw [otextV_of hr] at h5
  have hrules : c.rules = [] := by
    have : buildRules rx true [] = .ok [] := rfl
    simp only [Option.getD_some, this] at h5
    exact (Except.ok.inj h5).symm
  refine C92_no_loss ops hq plugins (c.conf rx) hrules ?_ w es key qs ?_
  · show 1000 ≤ c.flushInterval
    rw [h3, intV_of hi]
    exact hle
  · show Increments key (takenIn c.monitor.message es) _
    rw [h4, otextV_of hm]
    exact hinc

end

attribute [local instance] ratRounding in
/-- The service of the defaults, with two increments received. -/
example := C169_no_loss (fun _ => none) [] statsdOpts rfl exRx c!"host" false [] _ (C169_default (fun _ => none) exRx c!"host" false []).2
  60000 (by decide +kernel) (by decide) (by decide +kernel) c!"txstatsd ping" (by decide +kernel) noPlugins
  (by intro key m _ w t i ts l h; cases h; simp) [] exWorld ([.receive c!"a:1|c", .receive c!"a:1|c", .turn 0, .turn 0, .tick]) c!"a"
  [(1, 1), (1, 1)] (.hit (increment_of (by decide +kernel)) (.hit (increment_of (by decide +kernel)) .nil))

end Txstatsd
