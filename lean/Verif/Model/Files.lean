import Verif.Model.System

/-!
# The reports that read files, and `SYSTEM_STATS` (process.py:36-39, 75-77, 223-228, 239-243)

The files are a map from names to texts at the moment of the call.
-/

namespace Txstatsd

/-- `data.splitlines()` of a byte string (process.py:77): lines end at `\n`, `\r` or `\r\n`; an end at the end of the text opens no
further line. -/
def splitLines : Str → List Str
  | [] => []
  | c :: cs =>
    if c = '\n' then [] :: splitLines cs
    else if c = '\r' then
      -- before `\n` the line ends there
      if cs.head? = some '\n' then splitLines cs else [] :: splitLines cs
    else match splitLines cs with
      | [] => [[c]]
      | w :: ws => (c :: w) :: ws

/-- The files at a moment (process.py:38); `none` is a file that cannot be opened or read. -/
abbrev Files := Str → Option Str

/-- `load_file` (process.py:36-39); the error is `IOError`. -/
def loadFile (fs : Files) (name : Str) : Except PyErr Str :=
  match fs name with
  | none => .error .otherError
  | some text => .ok text

/-- `report_file_stats(filename, parser)()` (process.py:223-228). -/
def reportFile {V : Type} (name : Str) (parser : Str → Except PyErr (Dict V)) (fs : Files) : Except PyErr (Dict V) :=
  match loadFile fs name with
  | .error e => .error e
  | .ok text => parser text

/-- The values of a report as numbers of the model (process.py:60, 72, 90). -/
def asNums {V : Type} (f : V → Num) : Except PyErr (Dict V) → Except PyErr (Dict Num)
  | .error e => .error e
  | .ok d => .ok (d.map fun p => (p.1, f p.2))

/-- What a report of `SYSTEM_STATS` finds (process.py:38, 190): the files and `psutil.cpu_times()._asdict()`. -/
structure Moment where
  files : Files
  times : List (Str × Num)

/-- The entries of `SYSTEM_STATS` (process.py:239-243). -/
inductive SysReport
  | meminfo | loadavg | netdev | cpu
  deriving DecidableEq

/-- The generators behind two of them (process.py:163-175, 241-242). -/
structure SysGens where
  net : CounterGen := {}
  cpu : CounterGen := {}

variable [Rounding]

/-- A call of one of them (process.py:176-177, 189-199, 225-226, 239-243). -/
def SysGens.call (g : SysGens) (m : Moment) : SysReport → SysGens × Except PyErr (Dict Num)
  | .meminfo => (g, asNums Num.int (reportFile c!"/proc/meminfo" (parseMeminfo c!"sys.mem") m.files))
  | .loadavg => (g, asNums Num.flt (reportFile c!"/proc/loadavg" (parseLoadavg c!"sys.loadavg") m.files))
  | .netdev =>
    let r := g.net.next (asNums Num.int (reportFile c!"/proc/net/dev" (fun s => parseNetdev c!"sys.net" (splitLines s)) m.files))
    ({ g with net := r.1 }, r.2)
  | .cpu =>
    let r := g.cpu.next (.ok (systemStats c!"sys" m.times))
    ({ g with cpu := r.1 }, r.2)

/-- Any sequence of calls (process.py:239-243). -/
def SysGens.run (g : SysGens) : List (Moment × SysReport) → List (SysReport × Except PyErr (Dict Num))
  | [] => []
  | (m, k) :: rest => (k, (g.call m k).2) :: SysGens.run (g.call m k).1 rest

end Txstatsd
