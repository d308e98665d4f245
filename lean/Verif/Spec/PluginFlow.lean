import Verif.Spec.Plugins
import Verif.Spec.Interleaved
import Verif.Spec.Distinct

/-!
# Plugin metrics in schedules
-/

namespace Txstatsd.Spec

variable [Rounding]

omit [Rounding] in
/-- The name of one of the counts of SLI metric `key`: the key, a dot, and a word without a dot. -/
def ofSli (key : Str) (d : Datapoint) : Bool :=
  let pre := c!"stats.SLI." ++ key ++ c!"."
  pre.isPrefixOf d.name && !(d.name.drop pre.length).contains '.'

omit [Rounding] in
/-- The labels of the conditions contain no dots. -/
def DotlessLabels (cfg : SliConfig) : Prop := ∀ pc ∈ cfg, ∀ kc ∈ pc.2, '.' ∉ kc.1

/-- The events of the SLI messages under a name. -/
def sliEvents (key : Str) (ms : List Str) : List (Option PyFloat × Num) :=
  ms.flatMap fun msg => match parseMessage msg with
    | some m => if m.mtype = c!"sli" ∧ m.key = key then (sliEvent m.fields).toList else []
    | none => []

omit [Rounding] in
/-- The name of one of the counts of distinct metric `key`. -/
def ofDistinct (key : Str) (d : Datapoint) : Bool :=
  let pre := c!"stats.pdistinct." ++ key ++ c!"."
  pre.isPrefixOf d.name && !(d.name.drop pre.length).contains '.'

omit [Rounding] in
/-- No message of the type `sli` uses the name. -/
def NoSli (key : Str) (ms : List Str) : Prop :=
  ∀ msg ∈ ms, ∀ m, parseMessage msg = some m → m.key = key → m.mtype ≠ c!"sli"

omit [Rounding] in
/-- The items of the messages of type `pd` under a name. -/
def pdItems (key : Str) (ms : List Str) : List Str :=
  ms.flatMap fun msg => match parseMessage msg with
    | some m => if m.mtype = c!"pd" ∧ m.key = key then m.fields.head?.toList else []
    | none => []

omit [Rounding] in
/-- `x` is the estimate for the items seen after `since`: for each hash function the unbroken run of levels hit is measured, and
the estimate is computed from the mean of the runs. -/
def Estimates [Power] (tables : List (Nat → Nat)) (since : ℚ) (h : List (ℚ × Str)) (x : ℤ) : Prop :=
  ∃ runs : List Nat, List.Forall₂ (fun t r => IsRun 32 t since h r) tables runs ∧
    x = truncQ (Power.pow2 ((runs.sum : ℚ) / tables.length) / (77351 / 100000))

omit [Rounding] in
/-- The report of a distinct metric of the given full name at the time `now` after the sightings `h`: the estimates for all time, the last day, hour and
minute. -/
def DistinctReport [Power] (tables : List (Nat → Nat)) (name : Str) (h : List (ℚ × Str)) (now : ℚ) (ts : ℤ) (g : List Datapoint) : Prop :=
  ∃ all day hour min1 : ℤ,
    g = [⟨name ++ c!".count", .int all, ts⟩, ⟨name ++ c!".count_1day", .int day, ts⟩,
         ⟨name ++ c!".count_1hour", .int hour, ts⟩,
         ⟨name ++ c!".count_1min", .int min1, ts⟩] ∧
    Estimates tables 0 h all ∧ Estimates tables (now - 86400) h day ∧ Estimates tables (now - 3600) h hour ∧
    Estimates tables (now - 60) h min1

end Txstatsd.Spec
