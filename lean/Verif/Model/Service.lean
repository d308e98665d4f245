import Verif.Model.Base

/-!
# Pieces of service.py: the carbon client's statistics and the flush period
-/

namespace Txstatsd

/-- `del d[k]` (service.py:248). -/
def Dict.del {V : Type} (d : Dict V) (k : Str) : Except PyErr (Dict V) :=
  if d.has k then .ok (d.filter fun p => p.1 ≠ k) else .error .keyError

/-- `name.replace(":", "_")` (service.py:250). -/
def uncolon (name : Str) : Str := name.map fun c => if c = ':' then '_' else c

/-- The loop body of `report_client_manager_stats` (service.py:247-251): `current_stats` and carbon's own
`stats`. -/
def statStep (current stats : Dict ℤ) (name : Str) (value : ℤ) : Except PyErr (Dict ℤ × Dict ℤ) :=
  match current.del name with
  | .error e => .error e
  | .ok current =>
    .ok (if c!"destinations" <+: name then current.put (uncolon name) value else current, stats.put name 0)

/-- The loop over `list(current_stats.items())` (service.py:247-251). -/
def statLoop (current stats : Dict ℤ) : List (Str × ℤ) → Except PyErr (Dict ℤ × Dict ℤ)
  | [] => .ok (current, stats)
  | (name, value) :: rest =>
    match statStep current stats name value with
    | .error e => .error e
    | .ok (current, stats) => statLoop current stats rest

/-- `report_client_manager_stats` (service.py:243-252): the report and carbon's statistics afterwards. The
values are integers (carbon counts messages). -/
def reportClientStats (stats : Dict ℤ) : Except PyErr (Dict ℤ × Dict ℤ) := statLoop stats stats stats

/-- `StatsDService.startService` (service.py:235-236): the period of the flush task in seconds,
`flush_interval / 1000` on integers. -/
def flushPeriod (flushInterval : ℤ) : ℤ := flushInterval.fdiv 1000

end Txstatsd
