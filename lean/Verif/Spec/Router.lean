import Verif.Model.Router
import Verif.Spec.Text
import Verif.Spec.Glob

/-!
# Specification of the router, independent of the model's functions

It shares with the model only the syntax of rules (`Cond`, `Target`, `Rule`, `Sink`), metrics, and the
caller's regular expressions.
-/

namespace Txstatsd.Spec

/-- Shell patterns without character classes: `*` matches any text, `?` any one character, any
other character itself. -/
inductive GlobMatch : Str → Str → Prop
  | nil : GlobMatch [] []
  | star (a p s) : GlobMatch p s → GlobMatch ('*' :: p) (a ++ s)
  | one (c p s) : GlobMatch p s → GlobMatch ('?' :: p) (c :: s)
  | lit (c p s) : c ≠ '*' → c ≠ '?' → GlobMatch p s → GlobMatch (c :: p) (c :: s)

/-- What a condition says about a metric. -/
def Holds : Cond → Metric → Prop
  | .any, _ => True
  | .not c, m => ¬ Holds c m
  | .metricType types, m => m.mtype ∈ types
  | .pathLike pattern, m => ShellMatch pattern m.key

/-- No class in a pattern of the condition has a range in the wrong order. -/
def GoodPatterns : Cond → Prop
  | .not c => GoodPatterns c
  | .pathLike pattern => GoodPattern pattern
  | _ => True

/-- The text of a metric: key, colon, fields separated by bars. -/
def textOf (m : Metric) : Str := m.key ++ ':' :: ['|'].intercalate m.fields

variable {R : Type}

/-- What a target replaces a matching metric by. -/
def outputs (rx : Regexes R) : Target R → Metric → List Metric
  | .drop, _ => []
  | .rewrite rexp repl dup, m =>
    let new := { m with key := (rx.sub rexp repl m.key).getD [] }
    if dup = true ∧ rx.isMatch rexp m.key = true then [m, new] else [new]
  | .setType type dup, m =>
    if dup = true then [m, { m with mtype := type }] else [{ m with mtype := type }]
  | .redirect _, m => [m]
  | .inert, m => [m]

/-- What a target sends away. -/
def copies : Target R → Metric → List (Sink × Str)
  | .redirect sink, m => [(sink, textOf m)]
  | _, _ => []

/-- A rule that cannot raise: no character classes in patterns, no redirect without a service, and a
substitution that always succeeds. -/
def Sound (rx : Regexes R) (rule : Rule R) : Prop :=
  GoodPatterns rule.cond ∧
  match rule.target with
  | .inert => False
  | .rewrite rexp repl _ => ∀ key, (rx.sub rexp repl key).isSome
  | _ => True

open Classical in
/-- One rule applied to a list of metrics: each matching one is replaced in place. -/
noncomputable def rewriteBy (rx : Regexes R) (rule : Rule R) (ms : List Metric) : List Metric :=
  ms.flatMap fun m => if Holds rule.cond m then outputs rx rule.target m else [m]

/-- The rules applied one after the other. -/
noncomputable def routed (rx : Regexes R) (rules : List (Rule R)) (ms : List Metric) : List Metric :=
  rules.foldl (fun ms rule => rewriteBy rx rule ms) ms

open Classical in
/-- What one rule sends away. -/
noncomputable def copiesBy (rule : Rule R) (ms : List Metric) : List (Sink × Str) :=
  ms.flatMap fun m => if Holds rule.cond m then copies rule.target m else []

/-- What the rules send away: each rule sees what the rules before it left. -/
noncomputable def sentAway (rx : Regexes R) : List (Rule R) → List Metric → List (Sink × Str)
  | [], _ => []
  | rule :: rules, ms => copiesBy rule ms ++ sentAway rx rules (rewriteBy rx rule ms)

/-! ## Rule texts -/

/-- The words of a text: separated by spaces, each without surrounding white space. -/
inductive Words : Str → List Str → Prop
  | blank (s) : (∀ c ∈ s, c = ' ') → Words s []
  | word (pre w w' rest ws) : (∀ c ∈ pre, c = ' ') → w ≠ [] → ' ' ∉ w →
      (∀ c, rest.head? = some c → c = ' ') → Stripped w w' → Words rest ws →
      Words (pre ++ w ++ rest) (w' :: ws)

/-- The condition expressed by a list of words. Words can be empty (a tab between spaces); those
are skipped behind a `not`. -/
inductive CondWords : List Str → Cond → Prop
  | any : CondWords [c!"any"] .any
  | not (ws c) : CondWords (ws.filter (· ≠ [])) c → CondWords (c!"not" :: ws) (.not c)
  | metricType (types) : CondWords (c!"metric_type" :: types) (.metricType types)
  | pathLike (pattern) : CondWords [c!"path_like", pattern] (.pathLike pattern)

/-- A port number: optional sign and digits. -/
def Port (text : Str) (z : ℤ) : Prop :=
  ∃ t, Stripped text t ∧
    ((∃ ds, (t = ds ∨ t = '+' :: ds) ∧ ds ≠ [] ∧ (∀ c ∈ ds, isDigit c = true) ∧ z = digitsVal ds) ∨
     (∃ ds, t = '-' :: ds ∧ ds ≠ [] ∧ (∀ c ∈ ds, isDigit c = true) ∧ z = -(digitsVal ds : ℤ)))

/-- The target expressed by a list of words. -/
inductive TargetWords (rx : Regexes R) (service : Bool) : List Str → Target R → Prop
  | drop : TargetWords rx service [c!"drop"] .drop
  | rewrite (p repl r) : rx.compile p = some r →
      TargetWords rx service [c!"rewrite", p, repl] (.rewrite r repl false)
  | rewriteDup (p repl r) : rx.compile p = some r →
      TargetWords rx service [c!"rewrite", p, repl, c!"dup"] (.rewrite r repl true)
  | rewriteOther (p repl r d) : rx.compile p = some r → d ≠ c!"dup" →
      TargetWords rx service [c!"rewrite", p, repl, d] (.rewrite r repl false)
  | setType (t) : TargetWords rx service [c!"set_metric_type", t] (.setType t false)
  | setTypeDup (t) : TargetWords rx service [c!"set_metric_type", t, c!"dup"] (.setType t true)
  | setTypeOther (t d) : d ≠ c!"dup" →
      TargetWords rx service [c!"set_metric_type", t, d] (.setType t false)
  | udp (h p z) : service = true → Port p z →
      TargetWords rx service [c!"redirect_udp", h, p] (.redirect ⟨false, h, z⟩)
  | tcp (h p z) : service = true → Port p z →
      TargetWords rx service [c!"redirect_tcp", h, p] (.redirect ⟨true, h, z⟩)
  | udpInert (h p) : service = false → TargetWords rx service [c!"redirect_udp", h, p] .inert
  | tcpInert (h p) : service = false → TargetWords rx service [c!"redirect_tcp", h, p] .inert

/-- A line of the rules text and the rule it expresses: a condition and a target around the only
`=>`. -/
def RuleText (rx : Regexes R) (service : Bool) (line : Str) (rule : Rule R) : Prop :=
  ∃ a b ws vs, line = a ++ ['=', '>'] ++ b ∧ ¬ ['=', '>'] <:+: a ∧ ¬ ['=', '>'] <:+: b ∧
    Words a ws ∧ CondWords ws rule.cond ∧ Words b vs ∧ TargetWords rx service vs rule.target

/-- What is wrong with the words of a condition, and the exception raised about it. -/
inductive CondFault : List Str → PyErr → Prop
  | nothing : CondFault [] .indexError
  | any (ws) : ws ≠ [] → CondFault (c!"any" :: ws) .typeError
  | not (ws e) : CondFault (ws.filter (· ≠ [])) e → CondFault (c!"not" :: ws) e
  | pathLike (ws) : ws.length ≠ 1 → CondFault (c!"path_like" :: ws) .typeError
  | unknown (w ws) : w ∉ [c!"any", c!"not", c!"metric_type", c!"path_like"] → CondFault (w :: ws) .valueError

/-- What is wrong with the words of a target; `re.error` is `otherError`. -/
inductive TargetFault (rx : Regexes R) (service : Bool) : List Str → PyErr → Prop
  | nothing : TargetFault rx service [] .indexError
  | drop (ws) : ws ≠ [] → TargetFault rx service (c!"drop" :: ws) .typeError
  | rewrite (ws) : ws.length ≠ 2 → ws.length ≠ 3 → TargetFault rx service (c!"rewrite" :: ws) .typeError
  | pattern (p ws) : ws.length = 1 ∨ ws.length = 2 → rx.compile p = none →
      TargetFault rx service (c!"rewrite" :: p :: ws) .otherError
  | setType (ws) : ws.length ≠ 1 → ws.length ≠ 2 → TargetFault rx service (c!"set_metric_type" :: ws) .typeError
  | redirect (w ws) : w = c!"redirect_udp" ∨ w = c!"redirect_tcp" → ws.length ≠ 2 →
      TargetFault rx service (w :: ws) .typeError
  | port (w h p) : w = c!"redirect_udp" ∨ w = c!"redirect_tcp" → service = true → (∀ z, ¬ Port p z) →
      TargetFault rx service [w, h, p] .valueError
  | unknown (w ws) : w ∉ [c!"drop", c!"rewrite", c!"set_metric_type", c!"redirect_udp", c!"redirect_tcp"] →
      TargetFault rx service (w :: ws) .valueError

/-- What is wrong with a line: it has no `=>` or several, or its condition is wrong, or else its target. -/
inductive RuleFault (rx : Regexes R) (service : Bool) : Str → PyErr → Prop
  | arrows (l) : (∀ a b, l = a ++ ['=', '>'] ++ b → ['=', '>'] <:+: a ∨ ['=', '>'] <:+: b) →
      RuleFault rx service l .valueError
  | cond (a b ws e) : ¬ ['=', '>'] <:+: a → ¬ ['=', '>'] <:+: b → Words a ws → CondFault ws e →
      RuleFault rx service (a ++ ['=', '>'] ++ b) e
  | target (a b ws c vs e) : ¬ ['=', '>'] <:+: a → ¬ ['=', '>'] <:+: b → Words a ws → CondWords ws c →
      Words b vs → TargetFault rx service vs e → RuleFault rx service (a ++ ['=', '>'] ++ b) e

end Txstatsd.Spec
