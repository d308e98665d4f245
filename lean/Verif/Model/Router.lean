import Verif.Model.Fnmatch
import Verif.Model.Processor

/-!
# The message router (server/router.py:163-318)

The regular expressions of `rewrite` are the caller's: `re.compile`, `match` and `sub` are arbitrary
functions. A redirect is observed as the text handed to its client (`client.write` /
`factory.write`); what the client does with it is modelled in `Model/Client.lean` (UDP) and
`Model/Tcp.lean` (TCP).
-/

namespace Txstatsd

/-- The `re` module as used by `rewrite` (router.py:244-250). -/
structure Regexes (R : Type) where
  /-- `re.compile(pattern)`; `none` is `re.error`. -/
  compile : Str → Option R
  /-- `rexp.match(key) is not None`. -/
  isMatch : R → Str → Bool
  /-- `rexp.sub(repl, key)`; `none` is `re.error` (a bad group reference). -/
  sub : R → Str → Str → Option Str

/-- The conditions (router.py:212-235). -/
inductive Cond
  | any
  | not (c : Cond)
  | metricType (types : List Str)
  | pathLike (pattern : Str)
  deriving DecidableEq, Repr

/-- Calling a condition function (router.py:214, 222-223, 228-229, 233-234). -/
def Cond.eval : Cond → Metric → Except PyErr Bool
  | .any, _ => .ok true
  | .not c, m => (c.eval m).map fun b => !b
  | .metricType types, m => .ok (types.contains m.mtype)
  | .pathLike pattern, m => fnmatch m.key pattern

/-- Where a redirect sends its messages (server/router.py:278, 296). -/
structure Sink where
  tcp : Bool
  host : Str
  port : ℤ
  deriving DecidableEq, Repr

/-- The targets (router.py:237-298). -/
inductive Target (R : Type)
  | drop
  | rewrite (rexp : R) (repl : Str) (dup : Bool)
  | setType (type : Str) (dup : Bool)
  | redirect (sink : Sink)
  /-- A redirect of a router without a service: `lambda *args: True` (router.py:262-263, 283-284). -/
  | inert
  deriving DecidableEq, Repr

/-- Calling a target function and consuming its result (router.py:237-298, 311-313): the texts
handed to redirect clients; then `None` (dropped), the list of resulting metrics, or the exception.
`metrics.extend(True)` raises `TypeError`. -/
def Target.run {R : Type} (rx : Regexes R) : Target R → Metric →
    List (Sink × Str) × Except PyErr (Option (List Metric))
  | .drop, _ => ([], .ok none)
  | .rewrite rexp repl dup, m =>
    match rx.sub rexp repl m.key with
    | none => ([], .error .otherError)
    | some key =>
      ([], .ok (some ((if dup && rx.isMatch rexp m.key then [m] else []) ++ [{ m with key := key }])))
  | .setType type dup, m =>
    ([], .ok (some ((if dup then [m] else []) ++ [{ m with mtype := type }])))
  | .redirect sink, m => ([(sink, rebuildMessage m.mtype m.key m.fields)], .ok (some [m]))
  | .inert, _ => ([], .error .typeError)

/-- A rule: condition and target (router.py:207-209). -/
structure Rule (R : Type) where
  cond : Cond
  target : Target R
  deriving DecidableEq, Repr

variable {R : Type}

/-- The inner loop: one rule over all pending metrics (router.py:307-313). -/
def applyRule (rx : Regexes R) (rule : Rule R) : List Metric → List Metric → List (Sink × Str) →
    List (Sink × Str) × Except PyErr (List Metric)
  | [], metrics, log => (log, .ok metrics)
  | m :: pending, metrics, log =>
    match rule.cond.eval m with
    | .error e => (log, .error e)
    | .ok false => applyRule rx rule pending (metrics ++ [m]) log
    | .ok true =>
      match rule.target.run rx m with
      | (l, .error e) => (log ++ l, .error e)
      | (l, .ok none) => applyRule rx rule pending metrics (log ++ l)
      | (l, .ok (some ms)) => applyRule rx rule pending (metrics ++ ms) (log ++ l)

/-- The outer loop (router.py:303-313); the early `return` on no pending metrics delivers nothing,
which is the result `[]`. -/
def applyRules (rx : Regexes R) : List (Rule R) → List Metric → List (Sink × Str) →
    List (Sink × Str) × Except PyErr (List Metric)
  | [], metrics, log => (log, .ok metrics)
  | rule :: rules, pending, log =>
    if pending.isEmpty then (log, .ok [])
    else match applyRule rx rule pending [] log with
      | (log, .error e) => (log, .error e)
      | (log, .ok metrics) => applyRules rx rules metrics log

/-- The final loop (router.py:315-318) over an arbitrary `message_processor.process_message`; an
exception ends it. -/
def deliver {S : Type} (proc : S → Str → Metric → S × Outcome) : S → List Metric → S × Outcome
  | s, [] => (s, {})
  | s, m :: ms =>
    let r := proc s (rebuildMessage m.mtype m.key m.fields) m
    match r.2.exc with
    | some _ => r
    | none =>
      let r' := deliver proc r.1 ms
      (r'.1, { bad := r.2.bad ++ r'.2.bad, exc := r'.2.exc })

/-- `Router.process_message` (router.py:300-318): the texts redirected, the processor's state and
what was logged or raised. -/
def routeMessage {S : Type} (rx : Regexes R) (rules : List (Rule R))
    (proc : S → Str → Metric → S × Outcome) (s : S) (m : Metric) :
    List (Sink × Str) × S × Outcome :=
  match applyRules rx rules [m] [] with
  | (log, .error e) => (log, s, { exc := some e })
  | (log, .ok metrics) => (log, deliver proc s metrics)

/-- `Router.process`, inherited from `BaseMessageProcessor` (processor.py:51-67, 72-74). -/
def routeText {S : Type} (rx : Regexes R) (rules : List (Rule R))
    (proc : S → Str → Metric → S × Outcome) (s : S) (message : Str) :
    List (Sink × Str) × S × Outcome :=
  match parseMessage message with
  | none => ([], s, { bad := [message] })
  | some m => routeMessage rx rules proc s m

/-! ## Building the rules from their text (router.py:177-210) -/

/-- `[p.strip() for p in text.split(" ") if p]` (router.py:178-179, 196-197). -/
def parts (text : Str) : List Str := ((splitOn ' ' text).filter fun p => !p.isEmpty).map strip

/-- `line.split("=>")` (router.py:194). -/
def splitArrow : Str → List Str
  | [] => [[]]
  | [c] => [[c]]
  | c :: d :: rest =>
    if c = '=' ∧ d = '>' then [] :: splitArrow rest
    else match splitArrow (d :: rest) with
      | [] => [[c]]   -- unreachable
      | h :: t => (c :: h) :: t

/-- `int(text)` (router.py:265, 286); `none` is `ValueError`. -/
def parseInt (s : Str) : Option ℤ :=
  let (neg, ds) := takeSign (strip s)
  if ds.isEmpty || !ds.all isDigit then none
  else some (if neg then -(digitsVal ds : ℤ) else digitsVal ds)

/-- The words that survive `" ".join(args)` followed by `split(" ")` and `if p`
(router.py:178-179, 220). -/
def nonEmpty (ws : List Str) : List Str := ws.filter fun p => !p.isEmpty

/-- `build_condition_path_like` (router.py:232-235). -/
def buildPathLike : List Str → Except PyErr Cond
  | [pattern] => .ok (.pathLike pattern)
  | _ => .error .typeError

/-- `build_condition` on the words of the condition (router.py:177-186, 212-235). `not` joins its
arguments with spaces and splits the text again, which only loses empty words. -/
def buildCondition : List Str → Except PyErr Cond
  | [] => .error .indexError
  | name :: args =>
    if name = c!"any" then (if args.isEmpty then .ok .any else .error .typeError)
    else if name = c!"not" then
      (buildCondition (nonEmpty args)).map .not
    else if name = c!"metric_type" then .ok (.metricType args)
    else if name = c!"path_like" then buildPathLike args
    else .error .valueError
termination_by ws => ws.length
decreasing_by
  have := List.length_filter_le (fun p : Str => !p.isEmpty) args
  simp only [List.length_cons, nonEmpty]; omega

/-- `build_target_redirect_udp` / `_tcp` (router.py:261-265, 282-286). -/
def buildRedirect (service tcp : Bool) : List Str → Except PyErr (Target R)
  | [host, port] =>
    if !service then .ok .inert
    else match parseInt port with
      | none => .error .valueError
      | some p => .ok (.redirect ⟨tcp, host, p⟩)
  | _ => .error .typeError

/-- `build_target_rewrite` (router.py:243-244). -/
def buildRewrite (rx : Regexes R) : List Str → Except PyErr (Target R)
  | [pattern, repl] =>
    match rx.compile pattern with
    | none => .error .otherError
    | some r => .ok (.rewrite r repl false)
  | [pattern, repl, dup] =>
    match rx.compile pattern with
    | none => .error .otherError
    | some r => .ok (.rewrite r repl (dup = c!"dup"))
  | _ => .error .typeError

/-- `build_target_set_metric_type` (router.py:254). -/
def buildSetType : List Str → Except PyErr (Target R)
  | [type] => .ok (.setType type false)
  | [type, dup] => .ok (.setType type (dup = c!"dup"))
  | _ => .error .typeError

/-- Looking up and calling the target factory (router.py:196-209). -/
def buildTarget (rx : Regexes R) (service : Bool) : List Str → Except PyErr (Target R)
  | [] => .error .indexError
  | name :: args =>
    if name = c!"drop" then (if args.isEmpty then .ok .drop else .error .typeError)
    else if name = c!"rewrite" then buildRewrite rx args
    else if name = c!"set_metric_type" then buildSetType args
    else if name = c!"redirect_udp" then buildRedirect service false args
    else if name = c!"redirect_tcp" then buildRedirect service true args
    else .error .valueError

/-- One line of the rules text (router.py:194-209). -/
def buildRule (rx : Regexes R) (service : Bool) (line : Str) : Except PyErr (Rule R) :=
  match splitArrow line with
  | [condition, target] => do
    let c ← buildCondition (parts condition)
    let t ← buildTarget rx service (parts target)
    return ⟨c, t⟩
  | _ => .error .valueError

/-- The loop of `build_rules` (router.py:190-210). -/
def buildLines (rx : Regexes R) (service : Bool) : List Str → Except PyErr (List (Rule R))
  | [] => .ok []
  | line :: lines =>
    if line.isEmpty then buildLines rx service lines
    else do
      let r ← buildRule rx service line
      let rs ← buildLines rx service lines
      return r :: rs

/-- `build_rules` (router.py:188-210). -/
def buildRules (rx : Regexes R) (service : Bool) (config : Str) : Except PyErr (List (Rule R)) :=
  buildLines rx service (splitOn '\n' config)

end Txstatsd
