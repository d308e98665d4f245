import Verif.Model.Distinct
import Verif.Model.Sli

/-!
# The plugins shipped with txstatsd (twisted/plugins/distinct_plugin.py, sli_plugin.py)
-/

namespace Txstatsd

variable [Rounding] [Power]

/-- A shipped metric factory (twisted/plugins/distinct_plugin.py:28-42; twisted/plugins/sli_plugin.py:33-96). -/
inductive Factory
  /-- `DistinctMetricFactory` (distinct_plugin.py:29-42). -/
  | distinct
  /-- `SLIMetricFactory` (sli_plugin.py:34-41) with its configuration. -/
  | sli (config : SliConfig)

/-- A metric built by a shipped factory (metrics/distinctmetric.py:120-170; metrics/slimetric.py:53-95). -/
inductive PluginMetric
  | distinct (r : DistinctReporter)
  | sli (r : SliReporter)

/-- The two shipped plugins. `build_metric` is distinct_plugin.py:35-37 and sli_plugin.py:43-54; `process`
and `flush` are those of the two reporters. The distinct counter reads the clock once in each. -/
def shippedOps : PluginOps Factory PluginMetric where
  mtype
    | .distinct => c!"pd"        -- distinct_plugin.py:33
    | .sli _ => c!"sli"          -- sli_plugin.py:38
  name
    | .distinct => c!"pdistinct" -- distinct_plugin.py:32
    | .sli _ => c!"SLI"          -- sli_plugin.py:37
  build w n f pre name :=
    match f with
    | .distinct => .distinct (.init name pre (w.sbox n))
    | .sli cfg => .sli (buildSli cfg pre name)
  process w n m fields :=
    match m with
    | .distinct r =>
      let p := r.process (w.clk n) fields
      (.distinct p.1, p.2.1, p.2.2)
    | .sli r =>
      let p := r.process fields
      (.sli p.1, 0, p.2)
  flush w n m _ ts :=
    match m with
    | .distinct r => (.distinct r, 1, r.flush (w.clk n) ts)
    | .sli r => (.sli (r.flush ts).1, 0, .ok (r.flush ts).2)

end Txstatsd
