import Verif.Model.System

/-! What the claims about the reports of process.py talk about. -/

namespace Txstatsd.Spec

/-- What `memory_info()` of `psutil` (the versions 2.0 to 3.4.2 that requirements.txt admits) returns: first the resident set size,
then the virtual memory size. -/
def memoryInfo (rss vms : Num) : List Num := [rss, vms]

/-- The label of a CPU: its number with at least three digits. -/
def cpuLabel (i : ℕ) : Str :=
  if i < 10 then c!"00" ++ natStr i else if i < 100 then c!"0" ++ natStr i else natStr i


end Txstatsd.Spec
