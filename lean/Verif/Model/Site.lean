import Verif.Model.Http

/-!
# The web site (server/httpinfo.py:29-110)

The traversal of the resource tree and the choice of the rendering method are those of `twisted.web` (versions 11.1 to
15.4): `Request.process`, `getChildForRequest`, `Resource.render`, `Request.render`. Bodies are kept as the data handed to
`json.dumps`.
-/

namespace Txstatsd
variable {PF PM : Type}

/-- A hexadecimal digit (`urllib._hextochr`) (for the paths of the site of server/httpinfo.py:102-107). -/
def hexVal (c : Char) : Option Nat :=
  if isDigit c then some (c.toNat - '0'.toNat)
  else if 'a' ≤ c ∧ c ≤ 'f' then some (c.toNat - 'a'.toNat + 10)
  else if 'A' ≤ c ∧ c ≤ 'F' then some (c.toNat - 'A'.toNat + 10)
  else none

/-- `urllib.unquote`: a percent sign with two hexadecimal digits becomes the character they denote, others stay
(for the paths of the site of server/httpinfo.py:102-107). -/
def unquote : Str → Str
  | [] => []
  | c :: a :: b :: rest =>
    if c = '%' then
      match hexVal a, hexVal b with
      | some x, some y => Char.ofNat (16 * x + y) :: unquote rest
      | _, _ => c :: unquote (a :: b :: rest)
    else c :: unquote (a :: b :: rest)
  | [c, a] => [c, a]
  | [c] => [c]

/-- `map(unquote, self.path[1:].split('/'))` (`Request.process`) (for the paths of the site of server/httpinfo.py:102-107). -/
def segments (path : Str) : List Str := (splitOn '/' path.tail).map unquote

/-- What is handed to `json.dumps` (server/httpinfo.py:39-48, 58-59, 90-94). -/
inductive Body
  | none
  /-- httpinfo.py:39-48. -/
  | status (ok : Bool) (flushTime processTime : Num) (interval : ℤ)
  /-- httpinfo.py:57-59. -/
  | names (l : List Str)
  /-- httpinfo.py:89-94. -/
  | timer (histogram : List Nat) (max min : PyFloat)
  /-- A page of a plugin, or an error page of `twisted.web`. -/
  | other
  deriving DecidableEq

/-- An answer: the status code and the body (server/httpinfo.py:45-48, 59, 72, 94). -/
structure Response where
  code : Nat
  body : Body
  deriving DecidableEq

/-- What the site reads of the processor and of the service when it is asked (httpinfo.py:35, 53, 64, 103-106).
`page name` is the resource `Metrics.getChild` returns for a metric, if it is not `NoResource`: a timer, or the answer of a
plugin's page. -/
structure SiteView where
  flushTime : Num
  processTime : Num
  interval : ℤ
  names : Except PyErr (List Str)
  page : Str → Option (TimerRep ⊕ Response)

/-- The resources of the site (httpinfo.py:102-106). -/
inductive Res
  | root
  | status
  | listMetrics
  | metrics
  | timer (t : TimerRep)
  | plugin (r : Response)
  | noResource

/-- `isLeaf` (httpinfo.py:30, 83); pages of plugins are taken to be leaves. -/
def Res.isLeaf : Res → Bool
  | .status => true
  | .timer _ => true
  | .plugin _ => true
  | _ => false

/-- `getChildWithDefault`: the children put by `makeService` (httpinfo.py:103-105), then `getChild`, which is that of
`Metrics` (httpinfo.py:68-79) or the default, `NoResource`; a `NoResource` is its own child. -/
def Res.child (v : SiteView) : Res → Str → Res
  | .root, name =>
    if name = c!"status" then .status
    else if name = c!"metrics" then .metrics
    else if name = c!"list_metrics" then .listMetrics
    else .noResource
  | .metrics, name =>
    match v.page name with
    | some (.inl t) => .timer t
    | some (.inr r) => .plugin r
    | Option.none => .noResource
  | _, _ => .noResource

/-- `getChildForRequest` (on the tree of server/httpinfo.py:102-106). -/
def Res.find (v : SiteView) : Res → List Str → Res
  | r, [] => r
  | r, name :: rest => if r.isLeaf then r else (r.child v name).find v rest

variable [Rounding]

/-- `render_GET`, `none` where there is no such method (httpinfo.py:38-48, 57-59, 88-94); an exception is answered with 500.
-/
def Res.get (v : SiteView) : Res → Option Response
  | .status =>
    if statusError v.interval v.processTime v.flushTime then
      some ⟨500, .status false v.flushTime v.processTime v.interval⟩
    else some ⟨200, .status true v.flushTime v.processTime v.interval⟩
  | .listMetrics =>
    match v.names with
    | .ok l => some ⟨200, .names l⟩
    | .error _ => some ⟨500, .other⟩
  | .timer t =>
    match t.hist.histogram with
    | .ok scores => some ⟨200, .timer scores t.hist.max t.hist.min⟩
    | .error _ => some ⟨500, .other⟩
  | .plugin r => some r
  | .noResource => some ⟨404, .other⟩
  | .root => none
  | .metrics => none

/-- `Resource.render` and `Request.render`: an error page answers every method. `render_HEAD` calls `render_GET` (without
one: `AttributeError`, 500) and sends no body. A method without renderer gives 405 if `twisted.web` supports it (GET, HEAD,
POST) and 501 otherwise (on the pages of server/httpinfo.py:38-48, 57-59, 68-79, 89-94). -/
def Res.render (v : SiteView) (method : Str) (r : Res) : Response :=
  match r with
  | .noResource => ⟨404, if method = c!"HEAD" then .none else .other⟩
  | _ =>
    if method = c!"GET" then (r.get v).getD ⟨405, .other⟩
    else if method = c!"HEAD" then ⟨((r.get v).getD ⟨500, .other⟩).code, .none⟩
    else if method = c!"POST" then ⟨405, .other⟩
    else ⟨501, .other⟩

/-- The answer to a request (the site of server/httpinfo.py:102-107). -/
def SiteView.answer (v : SiteView) (method path : Str) : Response :=
  (Res.root.find v (segments path)).render v method

/-- The site of a configurable processor (httpinfo.py:68-79; timermetric.py:109-112). `pluginPage` is the `getResource` of
a plugin's metric, `none` where it has none. -/
def siteC (pluginPage : PM → Option Response) (interval : ℤ) (s : CPState PF PM) : SiteView where
  flushTime := s.lastFlush
  processTime := s.lastProcess
  interval := interval
  names := getMetricNamesC s
  page := fun name =>
    match s.timers.find name with
    | some t => some (.inl t)
    | Option.none => (s.pluginMetrics.find name).bind fun m => (pluginPage m).map .inr

/-- The site of a default processor: a timer is a list of durations, false when empty and without `getResource`
otherwise (server/httpinfo.py:102-106, 68-79). -/
def siteM (pluginPage : PM → Option Response) (interval : ℤ) (s : MPState PF PM) : SiteView where
  flushTime := s.lastFlush
  processTime := s.lastProcess
  interval := interval
  names := .ok (getMetricNames s)
  page := fun name =>
    match s.timers.find name with
    | some (_ :: _) => Option.none
    | _ => (s.pluginMetrics.find name).bind fun m => (pluginPage m).map .inr

/-- `makeService` (httpinfo.py:97-108): without a port there is no server and a request finds nothing; with one, the site
answers. -/
def httpService (port : Option ℤ) (v : SiteView) (method path : Str) : Option Response :=
  match port with
  | Option.none => Option.none
  | some _ => some (v.answer method path)

end Txstatsd
