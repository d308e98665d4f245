import Verif.Lemmas.EndToEnd
import Verif.Props.Create
import Verif.Props.Balance
import Verif.Props.PluginLife

set_option linter.unusedSectionVars false
set_option linter.unusedSimpArgs false
set_option linter.unusedVariables false

/-!
# C172: from the command line to what carbon gets
-/

namespace Txstatsd
open Spec

section
variable [Rounding] [Power] {R : Type}

theorem created_default {files : Str → Option Str} {argv : List Str} {o : Opts} (h : startOptions files argv = .ok o) {rx : Regexes R}
    {node : Str} {hasInfo : Bool} {fs : List Factory} {c : Created R} (hc : createService rx node hasInfo fs o = .ok c)
    {compliance : ℤ} (hco : o.values.find c!"statsd-compliance" = some (.int compliance)) (hcn : compliance ≠ 0)
    (hd : o.values.find c!"dump-mode" = some (.int 0)) : c.kind = .default := by
  obtain ⟨hk, -⟩ := created_eq h hc
  rw [hk]
  simp [kindV, intV_of hco, intV_of hd, hcn]

theorem created_configurable {files : Str → Option Str} {argv : List Str} {o : Opts} (h : startOptions files argv = .ok o) {rx : Regexes R}
    {node : Str} {hasInfo : Bool} {fs : List Factory} {c : Created R} (hc : createService rx node hasInfo fs o = .ok c)
    (hco : o.values.find c!"statsd-compliance" = some (.int 0)) {pre inst : Str} (hp : PrefixIs o pre) (hi : InstanceIs node o inst) (str : Num → Str) (w : World) (es : List AppEvent) :
    behaviour str shippedOps c.plugins (c.conf rx) w es c.kind =
      behaviour str shippedOps c.plugins (c.conf rx) w es (.configurable pre (pre ++ c!"." ++ inst ++ c!".")) := by
  obtain ⟨zd, hd⟩ := (C169_options files argv o h).numbers c!"dump-mode" (by simp)
  obtain ⟨-, h2, -, h4, -⟩ := C169_kind files argv o h rx node hasInfo fs c hc 0 zd hco hd pre inst hp hi
  by_cases hz : zd = 0
  · rw [h2 rfl hz]
  · rw [h4 rfl hz, behaviour_logging]

theorem created_norules {files : Str → Option Str} {argv : List Str} {o : Opts} (h : startOptions files argv = .ok o) {rx : Regexes R}
    {node : Str} {hasInfo : Bool} {fs : List Factory} {c : Created R} (hc : createService rx node hasInfo fs o = .ok c)
    (hr : o.values.find c!"routing" = some (.text [])) : (c.conf rx).rules = [] := by
  obtain ⟨-, -, -, -, h5, -⟩ := created_eq h hc
  rw [otextV_of hr] at h5
  have : buildRules rx true [] = .ok [] := rfl
  simp only [Option.getD_some, this] at h5
  exact (Except.ok.inj h5).symm

theorem created_message {files : Str → Option Str} {argv : List Str} {o : Opts} (h : startOptions files argv = .ok o) {rx : Regexes R}
    {node : Str} {hasInfo : Bool} {fs : List Factory} {c : Created R} (hc : createService rx node hasInfo fs o = .ok c)
    {message : Str} (hm : o.values.find c!"monitor-message" = some (.text message)) : (c.conf rx).monitor.message = some message := by
  obtain ⟨-, -, -, h4, -⟩ := created_eq h hc
  show c.monitor.message = _
  rw [h4, otextV_of hm]

/-- C172: a service made of a command line and files, with compliance and without rules: every point that it ever sends is about messages
that it received (but for the monitor's) or wrote to itself, each used once: a counter, timer, gauge or meter among them, one of
its own statistics, or a point of a plugin's metric made of them. -/
theorem C172_default (files : Str → Option Str) (argv : List Str) (o : Opts) (h : startOptions files argv = .ok o) (rx : Regexes R)
    (node : Str) (hasInfo : Bool) (fs : List Factory) (c : Created R) (hc : createService rx node hasInfo fs o = .ok c)
    (compliance : ℤ) (hco : o.values.find c!"statsd-compliance" = some (.int compliance)) (hcn : compliance ≠ 0)
    (hd : o.values.find c!"dump-mode" = some (.int 0)) (hr : o.values.find c!"routing" = some (.text [])) (message : Str)
    (hm : o.values.find c!"monitor-message" = some (.text message)) (str : Num → Str) (w : World) (es : List AppEvent) :
    ∀ d ∈ (behaviour str shippedOps c.plugins (c.conf rx) w es c.kind).out, ∃ done, done.Subperm (takenIn (some message) es) ∧
      AboutD (ByPlugin shippedOps w (MPState.init shippedOps c.plugins).plugins statsPrefix done) done d := by
  intro d hd'
  rw [created_default h hc hco hcn hd] at hd'
  have := app_about (messageProcessor shippedOps) (textFree_messageProcessor _) (c.conf rx) (created_norules h hc hr) w
    (MPState.init shippedOps c.plugins)
    (fun ms d => AboutD (ByPlugin shippedOps w (MPState.init shippedOps c.plugins).plugins statsPrefix ms) ms d)
    (fun es es' i a b hg d hd => C103_default shippedOps c.plugins w es es' i a b hg d hd) es d hd'
  rwa [created_message h hc hm] at this

/-- C172: the same without compliance, in dump mode or not: the value of a counter or gauge is the latest accepted one, the total of a
meter is the sum, and the names are made with the prefix of the options. -/
theorem C172_configurable (files : Str → Option Str) (argv : List Str) (o : Opts) (h : startOptions files argv = .ok o) (rx : Regexes R)
    (node : Str) (hasInfo : Bool) (fs : List Factory) (c : Created R) (hc : createService rx node hasInfo fs o = .ok c)
    (hco : o.values.find c!"statsd-compliance" = some (.int 0)) (pre inst : Str) (hp : PrefixIs o pre) (hi : InstanceIs node o inst)
    (hr : o.values.find c!"routing" = some (.text [])) (message : Str)
    (hm : o.values.find c!"monitor-message" = some (.text message)) (str : Num → Str) (w : World) (es : List AppEvent) :
    ∀ d ∈ (behaviour str shippedOps c.plugins (c.conf rx) w es c.kind).out, ∃ done, done.Subperm (takenIn (some message) es) ∧
      AboutC (ByPlugin shippedOps w (CPState.init shippedOps c.plugins).plugins (fun _ => pre) done) pre
        (pre ++ c!"." ++ inst ++ c!".") done d := by
  intro d hd'
  rw [created_configurable h hc hco hp hi] at hd'
  have e : internalPrefixOf pre (pre ++ c!"." ++ inst ++ c!".") = pre ++ c!"." ++ inst ++ c!"." := by
    simp [internalPrefixOf]
  have := app_about (configurable shippedOps pre (pre ++ c!"." ++ inst ++ c!".")) (textFree_configurable _ _ _) (c.conf rx)
    (created_norules h hc hr) w (CPState.init shippedOps c.plugins)
    (fun ms d => AboutC (ByPlugin shippedOps w (CPState.init shippedOps c.plugins).plugins (fun _ => pre) ms) pre
        (pre ++ c!"." ++ inst ++ c!".") ms d)
    (fun es es' i a b hg d hd => by
      have := C103_configurable shippedOps pre (pre ++ c!"." ++ inst ++ c!".") c.plugins w es es' i a b hg d hd
      rwa [e] at this) es d hd'
  rwa [created_message h hc hm] at this

/-- C172: with rules, in either case, the same is so of the messages that the rules make of those taken in. -/
theorem C172_rules (files : Str → Option Str) (argv : List Str) (o : Opts) (h : startOptions files argv = .ok o) (rx : Regexes R)
    (node : Str) (hasInfo : Bool) (fs : List Factory) (c : Created R) (hc : createService rx node hasInfo fs o = .ok c)
    (compliance : ℤ) (hco : o.values.find c!"statsd-compliance" = some (.int compliance)) (pre inst : Str) (hp : PrefixIs o pre)
    (hi : InstanceIs node o inst) (hs : ∀ r ∈ c.rules, Spec.Sound rx r) (hl : LegalRewrites rx c.rules) (ht : KnownTypes c.rules) (message : Str)
    (hm : o.values.find c!"monitor-message" = some (.text message)) (str : Num → Str) (w : World) (es : List AppEvent) :
    ∀ d ∈ (behaviour str shippedOps c.plugins (c.conf rx) w es c.kind).out,
      ∃ done, done.Subperm (routedTexts rx c.rules (takenIn (some message) es)) ∧
        ((compliance ≠ 0 ∧ o.values.find c!"dump-mode" = some (.int 0) ∧
            AboutD (ByPlugin shippedOps w (MPState.init shippedOps c.plugins).plugins statsPrefix done) done d) ∨
         (compliance ≠ 0 ∧ o.values.find c!"dump-mode" ≠ some (.int 0) ∧
            AboutC (ByPlugin shippedOps w (CPState.init shippedOps c.plugins).plugins (fun _ => []) done) [] c!"statsd." done d) ∨
         (compliance = 0 ∧ AboutC (ByPlugin shippedOps w (CPState.init shippedOps c.plugins).plugins (fun _ => pre) done) pre
            (pre ++ c!"." ++ inst ++ c!".") done d)) := by
  intro d hd'
  obtain ⟨zd, hd⟩ := (C169_options files argv o h).numbers c!"dump-mode" (by simp)
  have hmm := created_message h hc hm
  have key : ∀ pre' int', d ∈ (behaviour str shippedOps c.plugins (c.conf rx) w es (.configurable pre' int')).out →
      ∃ done, done.Subperm (routedTexts rx c.rules (takenIn (some message) es)) ∧
        AboutC (ByPlugin shippedOps w (CPState.init shippedOps c.plugins).plugins (fun _ => pre') done) pre' (internalPrefixOf pre' int') done d := by
    intro pre' int' hd'
    have := app_about_rules (configurable shippedOps pre' int') (typeFree_configurable _ _ _) (c.conf rx) hs hl ht w
      (CPState.init shippedOps c.plugins)
      (fun ms d => AboutC (ByPlugin shippedOps w (CPState.init shippedOps c.plugins).plugins (fun _ => pre') ms) pre' (internalPrefixOf pre' int') ms d)
      (fun es es' i a b hg d hd => C103_configurable shippedOps pre' int' c.plugins w es es' i a b hg d hd) es d hd'
    rw [hmm] at this
    exact this
  by_cases hc0 : compliance = 0
  · subst hc0
    rw [created_configurable h hc hco hp hi] at hd'
    obtain ⟨done, h1, h2⟩ := key _ _ hd'
    have e : internalPrefixOf pre (pre ++ c!"." ++ inst ++ c!".") = pre ++ c!"." ++ inst ++ c!"." := by
      simp [internalPrefixOf]
    rw [e] at h2
    exact ⟨done, h1, .inr (.inr ⟨rfl, h2⟩)⟩
  · by_cases hz : zd = 0
    · subst hz
      rw [created_default h hc hco hc0 hd] at hd'
      have := app_about_rules (messageProcessor shippedOps) (typeFree_messageProcessor _) (c.conf rx) hs hl ht w
        (MPState.init shippedOps c.plugins)
        (fun ms d => AboutD (ByPlugin shippedOps w (MPState.init shippedOps c.plugins).plugins statsPrefix ms) ms d)
        (fun es es' i a b hg d hd => C103_default shippedOps c.plugins w es es' i a b hg d hd) es d hd'
      rw [hmm] at this
      obtain ⟨done, h1, h2⟩ := this
      exact ⟨done, h1, .inl ⟨hc0, hd, h2⟩⟩
    · obtain ⟨-, -, h3, -⟩ := C169_kind files argv o h rx node hasInfo fs c hc compliance zd hco hd pre inst hp hi
      rw [h3 hc0 hz, behaviour_logging] at hd'
      obtain ⟨done, h1, h2⟩ := key _ _ hd'
      refine ⟨done, h1, .inr (.inl ⟨hc0, ?_, h2⟩)⟩
      rw [hd]
      simpa using hz

/-- C172: without compliance, every name that is sent begins with the prefix of the options, and with the prefix and a dot if it is not empty and does
not end in one. -/
theorem C172_prefix (files : Str → Option Str) (argv : List Str) (o : Opts) (h : startOptions files argv = .ok o) (rx : Regexes R)
    (node : Str) (hasInfo : Bool) (fs : List Factory) (c : Created R) (hc : createService rx node hasInfo fs o = .ok c)
    (hco : o.values.find c!"statsd-compliance" = some (.int 0)) (pre : Str) (hp : PrefixIs o pre)
    (hs : ∀ r ∈ c.rules, Spec.Sound rx r) (hl : LegalRewrites rx c.rules) (ht : KnownTypes c.rules) (str : Num → Str) (w : World)
    (es : List AppEvent) :
    ∀ d ∈ (behaviour str shippedOps c.plugins (c.conf rx) w es c.kind).out,
      pre <+: d.name ∧ (pre ≠ [] → pre.getLast? ≠ some '.' → pre ++ c!"." <+: d.name) := by
  intro d hd
  obtain ⟨message, hm⟩ := (C169_options files argv o h).texts c!"monitor-message" (by simp)
  obtain ⟨inst, hi⟩ : ∃ inst, InstanceIs node o inst := by
    rcases (C169_options files argv o h).optionalTexts c!"instance-name" (by simp) with hn | ⟨s, hn⟩
    · exact ⟨node, .inr ⟨.inl hn, rfl⟩⟩
    · by_cases hs : s = []
      · subst hs; exact ⟨node, .inr ⟨.inr hn, rfl⟩⟩
      · exact ⟨s, .inl ⟨hs, hn⟩⟩
  obtain ⟨done, -, ⟨h0, -⟩ | ⟨h0, -⟩ | ⟨-, ha⟩⟩ := C172_rules files argv o h rx node hasInfo fs c hc 0 hco pre inst hp hi hs hl ht message hm
    str w es d hd
  · exact absurd rfl h0
  · exact absurd rfl h0
  · rcases aboutC_names ha with ⟨k, sfx, hn⟩ | hn | hn
    · obtain ⟨h1, h2⟩ := prefix_of_name hn
      exact ⟨h1, fun h _ => h2 h⟩
    · exact ⟨List.IsPrefix.trans ⟨c!"." ++ inst ++ c!".", by simp⟩ hn, fun _ _ => List.IsPrefix.trans ⟨inst ++ c!".", by simp⟩ hn⟩
    · exact plugin_prefix hn

/-- C172, the part that holds of the expectation that no name begins with a dot: with a prefix that does not, none does. (Without a prefix it is false,
see `C172_dot_refuted`.) -/
theorem C172_dot_partial (files : Str → Option Str) (argv : List Str) (o : Opts) (h : startOptions files argv = .ok o) (rx : Regexes R)
    (node : Str) (hasInfo : Bool) (fs : List Factory) (c : Created R) (hc : createService rx node hasInfo fs o = .ok c)
    (hco : o.values.find c!"statsd-compliance" = some (.int 0)) (pre : Str) (hp : PrefixIs o pre) (hne : pre ≠ []) (hdot : pre.head? ≠ some '.')
    (hs : ∀ r ∈ c.rules, Spec.Sound rx r) (hl : LegalRewrites rx c.rules) (ht : KnownTypes c.rules) (str : Num → Str) (w : World)
    (es : List AppEvent) :
    ∀ d ∈ (behaviour str shippedOps c.plugins (c.conf rx) w es c.kind).out, d.name.head? ≠ some '.' := by
  intro d hd
  obtain ⟨⟨z, hz⟩, -⟩ := C172_prefix files argv o h rx node hasInfo fs c hc hco pre hp hs hl ht str w es d hd
  rw [← hz]
  cases pre with
  | nil => exact absurd rfl hne
  | cons a l => simpa using hdot

/-- C172: with compliance, every name begins with `stats.`, `stats_counts.` or `statsd.`, whatever the prefix. -/
theorem C172_names (files : Str → Option Str) (argv : List Str) (o : Opts) (h : startOptions files argv = .ok o) (rx : Regexes R)
    (node : Str) (hasInfo : Bool) (fs : List Factory) (c : Created R) (hc : createService rx node hasInfo fs o = .ok c)
    (compliance : ℤ) (hco : o.values.find c!"statsd-compliance" = some (.int compliance)) (hcn : compliance ≠ 0)
    (hd : o.values.find c!"dump-mode" = some (.int 0))
    (hs : ∀ r ∈ c.rules, Spec.Sound rx r) (hl : LegalRewrites rx c.rules) (ht : KnownTypes c.rules) (str : Num → Str) (w : World)
    (es : List AppEvent) :
    ∀ d ∈ (behaviour str shippedOps c.plugins (c.conf rx) w es c.kind).out,
      c!"stats." <+: d.name ∨ c!"stats_counts." <+: d.name ∨ c!"statsd." <+: d.name := by
  intro d hd'
  rw [created_default h hc hco hcn hd] at hd'
  obtain ⟨done, -, ha⟩ := app_about_rules (messageProcessor shippedOps) (typeFree_messageProcessor _) (c.conf rx) hs hl ht w
    (MPState.init shippedOps c.plugins)
    (fun ms d => AboutD (ByPlugin shippedOps w (MPState.init shippedOps c.plugins).plugins statsPrefix ms) ms d)
    (fun es es' i a b hg d hd => C103_default shippedOps c.plugins w es es' i a b hg d hd) es d hd'
  exact aboutD_names ha plugin_stats

/-- C172: with compliance and without rules, the counts that were sent, are under way or stored and the increments still scheduled add up to all
increments taken in, up to the error that the doubles make when these are added up. -/
theorem C172_counts (files : Str → Option Str) (argv : List Str) (o : Opts) (h : startOptions files argv = .ok o) (rx : Regexes R)
    (node : Str) (hasInfo : Bool) (fs : List Factory) (c : Created R) (hc : createService rx node hasInfo fs o = .ok c)
    (interval : ℤ) (hi : o.values.find c!"flush-interval" = some (.int interval)) (hle : 1000 ≤ interval)
    (compliance : ℤ) (hco : o.values.find c!"statsd-compliance" = some (.int compliance)) (hcn : compliance ≠ 0)
    (hd : o.values.find c!"dump-mode" = some (.int 0)) (hr : o.values.find c!"routing" = some (.text [])) (message : Str)
    (hm : o.values.find c!"monitor-message" = some (.text message)) (w : World) (es : List AppEvent) (key : Str) (e : ℚ) (he : 0 ≤ e)
    (qs : List (ℚ × ℚ)) (hinc : FiniteIncrements key (takenIn (some message) es) qs) (hq : AddsUp e qs) :
    c.kind = .default ∧
    let v := App.run (messageProcessor shippedOps).proc (c.conf rx) w { ps := MPState.init shippedOps c.plugins } es
    ∃ waiting x, FiniteIncrements key v.scheduled waiting ∧ SumOf (countsAt key v.out v.gens v.ps) x ∧
      |x + amount waiting - amount qs| ≤ e * sizes qs := by
  refine ⟨created_default h hc hco hcn hd, ?_⟩
  refine C125_service shippedOps quiet_shipped_builtin.1 c.plugins (c.conf rx) (created_norules h hc hr) ?_ w es key e he qs ?_ hq
  · obtain ⟨-, -, h3, -⟩ := created_eq h hc
    show 1000 ≤ c.flushInterval
    rw [h3, intV_of hi]
    exact hle
  · rw [created_message h hc hm]
    exact hinc

end

/-! ## Examples, and the empty prefix -/

section
attribute [local instance] ratRounding exPower

/-- A command line that asks for the configurable processor without a prefix, as the file that comes with the program does. -/
def exPlainArgs : List Str := [c!"--prefix=", c!"--statsd-compliance=0"]

theorem exPlain : ∃ o c, startOptions (fun _ => none) exPlainArgs = .ok o ∧ createService exRx c!"host" false [] o = .ok c ∧
    o.values.find c!"statsd-compliance" = some (.int 0) ∧ PrefixIs o [] ∧ InstanceIs c!"host" o c!"host" ∧
    o.values.find c!"routing" = some (.text []) ∧ o.values.find c!"monitor-message" = some (.text c!"txstatsd ping") ∧
    c.kind = .configurable [] c!".host." ∧ c.plugins = [] ∧ c.conf exRx = ⟨exRx, [], ⟨some c!"txstatsd ping", c!"txstatsd pong"⟩, 60000⟩ :=
  ⟨_, _, rfl, rfl, rfl, .inl rfl, .inr ⟨.inl rfl, rfl⟩, rfl, rfl, rfl, rfl, rfl⟩

/-- C172: one would expect that no name begins with a dot if no message has such a name. It is not so without a prefix: the processor's own
statistics then begin with a dot and the name of the instance. -/
theorem C172_dot_refuted : ¬ ∀ (files : Str → Option Str) (argv : List Str) (o : Opts) (_ : startOptions files argv = .ok o) (node : Str)
    (hasInfo : Bool) (fs : List Factory) (c : Created Str) (_ : createService exRx node hasInfo fs o = .ok c) (str : Num → Str) (w : World)
    (es : List AppEvent) (_ : ∀ t ∈ takenIn c.monitor.message es, ∀ m, parseMessage t = some m → m.key.head? ≠ some '.'),
    ∀ d ∈ (behaviour str shippedOps c.plugins (c.conf exRx) w es c.kind).out, d.name.head? ≠ some '.' := by
  intro h
  obtain ⟨o, c, h1, h2, -, -, -, -, -, hk, hp, hc⟩ := exPlain
  have h := h _ _ o h1 _ _ _ c h2 (fun _ => []) exWorld (.tick :: List.replicate 12 (.advance 0)) (by
    intro t ht
    simp [takenIn, List.replicate] at ht)
  rw [hk, hp, hc] at h
  have hd : (behaviour (fun _ => []) shippedOps [] ⟨exRx, [], ⟨some c!"txstatsd ping", c!"txstatsd pong"⟩, 60000⟩ exWorld
      (.tick :: List.replicate 12 (.advance 0)) (.configurable [] c!".host.")).out.any (fun d => decide (d.name.head? = some '.')) = true := by
    decide +kernel
  obtain ⟨d, hd, hn⟩ := List.any_eq_true.1 hd
  exact h d hd (of_decide_eq_true hn)

/-- The hypotheses of `C172_configurable` and `C172_prefix` are met, and something is sent. -/
example : ∃ o c, startOptions (fun _ => none) [c!"--prefix=p", c!"--statsd-compliance=0"] = .ok o ∧
    createService exRx c!"host" false [.distinct, .sli []] o = .ok c ∧
    o.values.find c!"statsd-compliance" = some (.int 0) ∧ PrefixIs o c!"p" ∧ InstanceIs c!"host" o c!"host" ∧
    o.values.find c!"routing" = some (.text []) ∧ o.values.find c!"monitor-message" = some (.text c!"txstatsd ping") ∧
    (∀ r ∈ c.rules, Spec.Sound exRx r) ∧ LegalRewrites exRx c.rules ∧ KnownTypes c.rules ∧
    ((behaviour (fun _ => []) shippedOps c.plugins (c.conf exRx) exWorld
      ([.receive c!"a:2|c", .turn 0, .receive c!"a:3|c", .turn 0, .tick] ++ List.replicate 4 (.advance 0)) c.kind).out.any fun d => decide (d.name = c!"p.a.count" ∧ d.value = .int 3)) = true := by
  refine ⟨_, _, rfl, rfl, rfl, .inl rfl, .inr ⟨.inl rfl, rfl⟩, rfl, rfl, by simp, ?_, ?_, ?_⟩
  · intro r hr; cases hr
  · intro r hr; cases hr
  · decide +kernel

/-- The hypotheses of `C172_default`, `C172_names` and `C172_rules` are met by the service of the defaults. -/
example (files : Str → Option Str) : ∃ o c, startOptions files [] = .ok o ∧ createService exRx c!"host" false [.distinct, .sli []] o = .ok c ∧
    o.values.find c!"statsd-compliance" = some (.int 1) ∧ o.values.find c!"dump-mode" = some (.int 0) ∧ PrefixIs o c!"statsd" ∧
    o.values.find c!"routing" = some (.text []) ∧ o.values.find c!"monitor-message" = some (.text c!"txstatsd ping") ∧
    ((behaviour (fun _ => []) shippedOps c.plugins (c.conf exRx) exWorld
      ([.receive c!"a:2|c", .turn 0, .receive c!"a:3|c", .turn 0, .tick] ++ List.replicate 8 (.advance 0)) c.kind).out.any fun d => decide (d.name = c!"stats_counts.a" ∧ d.value = .flt (.fin 5))) = true := by
  refine ⟨_, _, rfl, rfl, rfl, rfl, .inr ⟨rfl, rfl⟩, rfl, rfl, ?_⟩
  decide +kernel

end

section
attribute [local instance] binary64 binary64_ieee exPower

/-- The hypotheses of `C172_counts`, in doubles. -/
example := C172_counts (fun _ => none) [] statsdOpts rfl exRx c!"host" false [] _ (C169_default (fun _ => none) exRx c!"host" false []).2
  60000 (by decide +kernel) (by decide) 1 (by decide +kernel) (by decide) (by decide +kernel) (by decide +kernel) c!"txstatsd ping"
  (by decide +kernel) exWorld ([.receive c!"a:1|c", .receive c!"a:2|c", .turn 0, .turn 0, .tick]) c!"a" 0 le_rfl
  [(1, 1), (2, 1)] (.hit (increment_of (by decide +kernel)) (.hit (increment_of (by decide +kernel)) .nil))
  (C125_whole _ (by
    intro p hp
    simp only [List.mem_cons, List.not_mem_nil, or_false] at hp
    rcases hp with rfl | rfl
    · exact ⟨rfl, 1, by norm_num⟩
    · exact ⟨rfl, 2, by norm_num⟩) (by simp only [sizes, List.map_cons, List.map_nil, List.sum_cons, List.sum_nil]; norm_num))

end
end Txstatsd
