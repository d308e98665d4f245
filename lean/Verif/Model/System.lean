import Verif.Model.Router

/-!
# Reports about the system (process.py)

The reports read `/proc` files and `psutil`; the model starts from the text of the file or from what `psutil`
returned.
-/

namespace Txstatsd
variable [Rounding]

/-- `s.split()` and `[x for x in s.split(" ") if x]`: first cut at every separator … (process.py:46, 49, 72, 80-81, 90). -/
def splitWhere (sep : Char → Bool) : Str → List Str
  | [] => [[]]
  | c :: cs =>
    if sep c then [] :: splitWhere sep cs
    else match splitWhere sep cs with
      | [] => [[c]]   -- unreachable
      | w :: ws => (c :: w) :: ws

/-- … then drop the empty pieces (process.py:49, 72, 80-81, 90). -/
def fieldsOf (sep : Char → Bool) (s : Str) : List Str := (splitWhere sep s).filter fun w => !w.isEmpty

/-! ## /proc/meminfo -/

/-- `MEMINFO_KEYS` (process.py:29-31). -/
def meminfoKeys : List Str :=
  [c!"MemTotal:", c!"MemFree:", c!"Buffers:", c!"Cached:", c!"SwapCached:", c!"SwapTotal:", c!"SwapFree:"]

/-- `MULTIPLIERS[unit]` (process.py:33); `none` is `KeyError`. -/
def multiplier (unit : Str) : Option ℤ :=
  if unit = c!"kB" then some 1024 else if unit = c!"mB" then some (1024 * 1024) else none

/-- The multiple of process.py:53-56. -/
def memMultiple : List Str → Except PyErr ℤ
  | [_, _, unit] =>
    match multiplier unit with
    | none => .error .keyError
    | some m => .ok m
  | _ => .ok 1

/-- `int(parts[1])` (process.py:60). -/
def memAmount : List Str → Except PyErr ℤ
  | _ :: n :: _ =>
    match parseInt n with
    | none => .error .valueError
    | some z => .ok z
  | _ => .error .indexError

/-- One line of `parse_meminfo` (process.py:46-60): nothing, or a label and its amount. -/
def memEntry (line : Str) : Except PyErr (Option (Str × ℤ)) :=
  if line = [] then .ok none
  else match fieldsOf (· == ' ') line with
    | [] => .error .indexError
    | key :: rest =>
      if key ∉ meminfoKeys then .ok none
      else match memMultiple (key :: rest) with
        | .error e => .error e
        | .ok m =>
          match memAmount (key :: rest) with
          | .error e => .error e
          | .ok z => .ok (some (key.dropLast, z * m))

/-- The loop of `parse_meminfo` (process.py:46-61). -/
def memLoop (pre : Str) (r : Dict ℤ) : List Str → Except PyErr (Dict ℤ)
  | [] => .ok r
  | line :: lines =>
    match memEntry line with
    | .error e => .error e
    | .ok none => memLoop pre r lines
    | .ok (some (label, amount)) => memLoop pre (r.put (pre ++ c!"." ++ label) amount) lines

/-- `parse_meminfo` (process.py:42-63). -/
def parseMeminfo (pre data : Str) : Except PyErr (Dict ℤ) := memLoop pre [] (splitOn '\n' data)

/-! ## /proc/loadavg -/

/-- `[float(x) for x in words]` (process.py:72). -/
def floatsOf : List Str → Except PyErr (List PyFloat)
  | [] => .ok []
  | w :: ws =>
    match parseFloat w with
    | none => .error .valueError
    | some x =>
      match floatsOf ws with
      | .error e => .error e
      | .ok xs => .ok (x :: xs)

omit [Rounding] in
/-- `dict(zip(keys, values))` (process.py:68, 90). -/
def dictZip {V : Type} (keys : List Str) (values : List V) : Dict V :=
  (keys.zip values).foldl (fun d p => d.put p.1 p.2) []

/-- `parse_loadavg` (process.py:66-72). -/
def parseLoadavg (pre data : Str) : Except PyErr (Dict PyFloat) :=
  match floatsOf ((fieldsOf isSpace data).take 3) with
  | .error e => .error e
  | .ok xs => .ok (dictZip [pre ++ c!".oneminute", pre ++ c!".fiveminutes", pre ++ c!".fifthteenminutes"] xs)

/-! ## /proc/net/dev -/

omit [Rounding]

/-- `map(int, words)` (process.py:90). -/
def intsOf : List Str → Except PyErr (List ℤ)
  | [] => .ok []
  | w :: ws =>
    match parseInt w with
    | none => .error .valueError
    | some x =>
      match intsOf ws with
      | .error e => .error e
      | .ok xs => .ok (x :: xs)

/-- The columns (process.py:79-81). -/
def netColumns (header : Str) : Except PyErr (List Str) :=
  match splitOn '|' header with
  | [_, recv, send] => .ok ((fieldsOf isSpace recv).map (c!"recv_" ++ ·) ++ (fieldsOf isSpace send).map (c!"send_" ++ ·))
  | _ => .error .valueError

/-- `data[k]` (process.py:92-95). -/
def getKey {V : Type} (d : Dict V) (k : Str) : Except PyErr V :=
  match d.find k with
  | none => .error .keyError
  | some v => .ok v

/-- The four entries of a device (process.py:90-95). -/
def netEntries (pre device : Str) (data : Dict ℤ) : Except PyErr (List (Str × ℤ)) := do
  let a ← getKey data c!"recv_bytes"
  let b ← getKey data c!"send_bytes"
  let c ← getKey data c!"recv_packets"
  let d ← getKey data c!"send_packets"
  let p := pre ++ c!"." ++ device
  pure [(p ++ c!".bytes.received", a), (p ++ c!".bytes.sent", b), (p ++ c!".packets.received", c),
    (p ++ c!".packets.sent", d)]

/-- One line of `parse_netdev` (process.py:85-95). -/
def netLine (pre : Str) (columns : List Str) (r : Dict ℤ) (line : Str) : Except PyErr (Dict ℤ) :=
  match splitOn ':' line with
  | [_] => .ok r
  | [device, data] =>
    match intsOf (fieldsOf isSpace data) with
    | .error e => .error e
    | .ok zs =>
      match netEntries pre (strip device) (dictZip columns zs) with
      | .error e => .error e
      | .ok es => .ok (es.foldl (fun d p => d.put p.1 p.2) r)
  | _ => .error .valueError

/-- The loop of `parse_netdev` (process.py:85-95). -/
def netLoop (pre : Str) (columns : List Str) (r : Dict ℤ) : List Str → Except PyErr (Dict ℤ)
  | [] => .ok r
  | line :: lines =>
    match netLine pre columns r line with
    | .error e => .error e
    | .ok r => netLoop pre columns r lines

/-- `parse_netdev` (process.py:75-96) from the lines of the file (`data.splitlines()`). -/
def parseNetdev (pre : Str) : List Str → Except PyErr (Dict ℤ)
  | _ :: header :: lines =>
    match netColumns header with
    | .error e => .error e
    | .ok columns => netLoop pre columns [] lines
  | _ => .error .indexError

/-! ## Connections -/

/-- The loop body of `get_net_stats` (process.py:147-154) on a connection: whether it is a stream, and its
status. -/
def netStat (pre : Str) (r : Dict ℕ) (conn : Bool × Str) : Dict ℕ :=
  if conn.1 then
    let key := pre ++ c!".status." ++ conn.2.map lowerChar
    match r.find key with
    | none => r.put key 1
    | some n => r.put key (n + 1)
  else r

/-- `get_net_stats` (process.py:143-155); `none` is a `psutil` without `connections`. -/
def getNetStats (pre : Str) (conns : Option (List (Bool × Str))) : Dict ℕ :=
  match conns with
  | none => []
  | some cs => cs.foldl (netStat pre) []

/-! ## The process and the CPUs

What `psutil` returns is an argument: a tuple (as a list, which must have the length of the unpacking), or `none` for a method that
this version lacks. -/

/-- `get_memory_and_cpu` (process.py:111-121) from `memory_info()`, `cpu_percent()`, `memory_percent()`, `num_threads()`. -/
def getMemoryAndCpu (pre : Str) (memory : List Num) (cpu percent : Num) (threads : Option Num) : Except PyErr (Dict Num) :=
  match memory with
  | [vsize, rss] =>
    let result : Dict Num := [(pre ++ c!".cpu.percent", cpu), (pre ++ c!".memory.percent", percent), (pre ++ c!".memory.vsize", vsize),
      (pre ++ c!".memory.rss", rss)]
    .ok (match threads with
      | none => result
      | some n => result.put (pre ++ c!".threads") n)
  | _ => .error .valueError

/-- `get_cpu_counters` (process.py:123-128) from `cpu_times()`. -/
def getCpuCounters (pre : Str) (times : List Num) : Except PyErr (Dict Num) :=
  match times with
  | [utime, stime] => .ok [(pre ++ c!".cpu.user", utime), (pre ++ c!".cpu.system", stime)]
  | _ => .error .valueError

/-- `get_io_counters` (process.py:130-141) from `io_counters()`. -/
def getIoCounters (pre : Str) (io : Option (List Num)) : Except PyErr (Dict Num) :=
  match io with
  | none => .ok []
  | some [readCount, writeCount, readBytes, writeBytes] =>
    .ok [(pre ++ c!".read.count", readCount), (pre ++ c!".write.count", writeCount), (pre ++ c!".read.bytes", readBytes),
      (pre ++ c!".write.bytes", writeBytes)]
  | some _ => .error .valueError

/-- `"%03d" % idx` (process.py:198). -/
def pad3 (idx : ℕ) : Str := List.replicate (3 - (natStr idx).length) '0' ++ natStr idx

/-- The loop over the modes of one CPU (process.py:193-194, 197-198). -/
def putModes (pre : Str) (r : Dict Num) (times : List (Str × Num)) : Dict Num :=
  times.foldl (fun r m => r.put (pre ++ m.1) m.2) r

/-- `report_system_stats()` (process.py:189-194, 199) from `psutil.cpu_times()._asdict()`. -/
def systemStats (pre : Str) (times : List (Str × Num)) : Dict Num := putModes (pre ++ c!".cpu.") [] times

/-- `report_system_stats(percpu=True)` (process.py:195-199) from the CPUs' times, in order. -/
def systemStatsPerCpu (pre : Str) (cpus : List (List (Str × Num))) : Dict Num :=
  cpus.zipIdx.foldl (fun r p => putModes (pre ++ c!".cpu." ++ pad3 p.2 ++ c!".") r p.1) []

/-- `report_threadpool_stats(threadpool)()` (process.py:202-210) from the four lengths. -/
def threadpoolStats (pre : Str) (working queue waiters threads : ℕ) : Dict Num :=
  [(pre ++ c!".working", .int working), (pre ++ c!".queue", .int queue), (pre ++ c!".waiters", .int waiters),
    (pre ++ c!".threads", .int threads)]

/-- `report_reactor_stats(reactor)()` (process.py:213-220) from the numbers of readers and writers. -/
def reactorStats (pre : Str) (readers writers : ℕ) : Dict Num :=
  [(pre ++ c!".readers", .int readers), (pre ++ c!".writers", .int writers)]

/-! ## Differences -/

variable [Rounding]

/-- The generator of `report_counters` (process.py:163-174): `last_value`, and whether it has ended by an
exception. -/
structure CounterGen where
  last : Option (Dict Num) := none
  dead : Bool := false

/-- The loop of process.py:170-171. -/
def diffs (last : Dict Num) (r : Dict Num) : List (Str × Num) → Except PyErr (Dict Num)
  | [] => .ok r
  | (key, value) :: rest =>
    match last.find key with
    | none => .error .keyError
    | some old => diffs last (r.put key (value.sub old)) rest

/-- `generator.next()` (process.py:163-177), given the outcome of the wrapped function. A generator that has
raised is finished. -/
def CounterGen.next (g : CounterGen) (reading : Except PyErr (Dict Num)) : CounterGen × Except PyErr (Dict Num) :=
  if g.dead then (g, .error .stopIteration)
  else match reading with
    | .error e => ({ g with dead := true }, .error e)
    | .ok new =>
      match g.last with
      | none => ({ g with last := some new }, .ok [])
      | some last =>
        match diffs last [] new with
        | .error e => ({ g with dead := true }, .error e)
        | .ok r => ({ g with last := some new }, .ok r)

/-- A sequence of calls of the report (process.py:158-179). -/
def CounterGen.run (g : CounterGen) : List (Except PyErr (Dict Num)) → List (Except PyErr (Dict Num))
  | [] => []
  | x :: xs => (g.next x).2 :: ((g.next x).1).run xs

end Txstatsd
