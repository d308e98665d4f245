import Verif.Model.Configurable
import Verif.Model.Metrics

/-!
# The information pages (server/httpinfo.py)
-/

namespace Txstatsd
variable [Rounding] {PF PM : Type}

/-- `Status.render_GET` (httpinfo.py:29-48): is the status ERROR (and the code 500)? `flushInterval` is
`StatsDService.flush_interval`, the two durations those of the processor. Python multiplies the integer
interval by the float 0.7 and compares exactly. -/
def statusError (flushInterval : ℤ) (processTime flushTime : Num) : Bool :=
  PyFloat.lt ((Num.int flushInterval).mul (.flt (rnd (7 / 10)))).exact (processTime.add flushTime).exact

/-- What `Metrics.getChild` (httpinfo.py:68-79) answers. -/
inductive Page
  | notFound
  | timer
  deriving DecidableEq

omit [Rounding] in
/-- `getChild` on the default processor: a timer is a list of durations, which is false when empty and has no
`getResource`; neither have the metrics of the shipped plugins. `hasPage` says whether a plugin metric has
that method (server/httpinfo.py:68-79). -/
def getChildM (hasPage : PM → Bool) (s : MPState PF PM) (name : Str) : Page :=
  match s.timers.find name with
  | some (_ :: _) => .notFound
  | _ =>
    match s.pluginMetrics.find name with
    | some m => if hasPage m then .timer else .notFound
    | none => .notFound

omit [Rounding] in
/-- `getChild` on the configurable processor: a timer is a reporter, whose `getResource`
(timermetric.py:109-110) makes the page. -/
def getChildC (hasPage : PM → Bool) (s : CPState PF PM) (name : Str) : Page :=
  match s.timers.find name with
  | some _ => .timer
  | none =>
    match s.pluginMetrics.find name with
    | some m => if hasPage m then .timer else .notFound
    | none => .notFound

end Txstatsd
