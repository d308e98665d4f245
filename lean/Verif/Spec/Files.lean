import Verif.Model.Files
import Verif.Spec.System

/-! What the claims about reports from files talk about. -/

namespace Txstatsd.Spec

/-- No line ends inside. -/
def Unbroken (l : Str) : Prop := '\n' ∉ l ∧ '\r' ∉ l

/-- The lines of a text. -/
inductive TextLines : Str → List Str → Prop
  | empty : TextLines [] []
  | last (l) : l ≠ [] → Unbroken l → TextLines l [l]
  | line (l e rest ls) : Unbroken l → (e = ['\n'] ∨ e = ['\r', '\n'] ∨ e = ['\r'] ∧ rest.head? ≠ some '\n') → TextLines rest ls →
      TextLines (l ++ e ++ rest) (l :: ls)

/-- A text as `/proc/net/dev` has it: its columns and the lines below the header. -/
def NetText (text : Str) (columns lines : List Str) : Prop :=
  ∃ first a r t rs ts, TextLines text (first :: (a ++ '|' :: (r ++ '|' :: t)) :: lines) ∧ '|' ∉ a ∧ '|' ∉ r ∧ '|' ∉ t ∧
    Separated (fun c => isSpace c = true) r rs ∧ Separated (fun c => isSpace c = true) t ts ∧ rs.Nodup ∧ ts.Nodup ∧
    c!"bytes" ∈ rs ∧ c!"packets" ∈ rs ∧ c!"bytes" ∈ ts ∧ c!"packets" ∈ ts ∧
    columns = rs.map (c!"recv_" ++ ·) ++ ts.map (c!"send_" ++ ·) ∧
    ∀ l ∈ lines, ':' ∉ l ∨ ∃ dev nums, DeviceLine l dev nums ∧ rs.length + ts.length ≤ nums.length

/-- The text has a line about a device. -/
def HasDevice (text dev : Str) : Prop := ∃ columns lines, NetText text columns lines ∧ ∃ l ∈ lines, ∃ nums, DeviceLine l dev nums

/-- The count of a device in a column, by its last line. -/
def NetCount (text dev column : Str) (v : ℤ) : Prop :=
  ∃ columns lines nums, NetText text columns lines ∧ LastWith (fun l nums => DeviceLine l dev nums) lines nums ∧
    InColumn columns nums column v

/-- The reports that the service can be told to send (process.py:182-244, service.py). -/
inductive Kind
  | process | cpuCounters | io | connections | meminfo | loadavg | netdev | cpu | threadpool | reactor
  deriving DecidableEq

variable [Rounding]

/-- A name that a report of the kind can have in its result, with the default prefixes. -/
inductive ReportsName : Kind → Str → Prop
  | process (m cpu pc th r k) : getMemoryAndCpu c!"proc" m cpu pc th = .ok r → k ∈ r.keys → ReportsName .process k
  | cpuCounters (g : CounterGen) (ts r k) : (g.next (getCpuCounters c!"proc" ts)).2 = .ok r → k ∈ r.keys → ReportsName .cpuCounters k
  | io (g : CounterGen) (ts r k) : (g.next (getIoCounters c!"proc.io" ts)).2 = .ok r → k ∈ r.keys → ReportsName .io k
  | connections (cs k) : k ∈ (getNetStats c!"proc.net" cs).keys → ReportsName .connections k
  | meminfo (g : SysGens) (m r k) : (g.call m .meminfo).2 = .ok r → k ∈ r.keys → ReportsName .meminfo k
  | loadavg (g : SysGens) (m r k) : (g.call m .loadavg).2 = .ok r → k ∈ r.keys → ReportsName .loadavg k
  | netdev (g : SysGens) (m r k) : (g.call m .netdev).2 = .ok r → k ∈ r.keys → ReportsName .netdev k
  | cpu (g : SysGens) (m r k) : (g.call m .cpu).2 = .ok r → k ∈ r.keys → ReportsName .cpu k
  | threadpool (a b c d k) : k ∈ (threadpoolStats c!"threadpool" a b c d).keys → ReportsName .threadpool k
  | reactor (a b k) : k ∈ (reactorStats c!"reactor" a b).keys → ReportsName .reactor k

end Txstatsd.Spec
