import Verif.Model.Processor
import Verif.Spec.Came

/-!
# Histories of calls on a processor
-/

namespace Txstatsd
variable [Rounding] {C T G PF PM : Type}

/-- A call on a processor: a message arrives, or a flush is made (and run to its end or to its
exception). -/
inductive Op
  | msg (m : Str)
  | flush (interval percent : ℤ)

/-- The effect of a call on the state and on the list of everything sent to graphite. -/
def Op.apply (I : Impl C T G PF PM) (w : World) (c : PS C T G PF PM × List Datapoint) :
    Op → PS C T G PF PM × List Datapoint
  | .msg m => ((process I w c.1 m).1, c.2)
  | .flush i p => ((Txstatsd.flush I w i p c.1).1, c.2 ++ (Txstatsd.flush I w i p c.1).2.1)

/-- A history of calls. -/
def runOps (I : Impl C T G PF PM) (w : World) (s : PS C T G PF PM) (os : List Op) :
    PS C T G PF PM × List Datapoint :=
  os.foldl (Op.apply I w) (s, [])

omit [Rounding] in
/-- The messages of a history. -/
def messages (os : List Op) : List Str :=
  os.filterMap fun o => match o with
    | .msg m => some m
    | .flush _ _ => none

omit [Rounding] in
/-- All flush intervals of a history are at least one second. -/
def WholeSeconds (os : List Op) : Prop := ∀ i p, Op.flush i p ∈ os → 1000 ≤ i

omit [Rounding] in
/-- No plugin metric that can come about in the default processor emits datapoints under the given name prefix. -/
def Quiet (ops : PluginOps PF PM) (pre : Str) : Prop :=
  ∀ key m, Came ops statsPrefix key m → ∀ w t i ts l, (ops.flush w t m i ts).2.2 = .ok l → ∀ d ∈ l, ¬ pre <+: d.name

/-- The datapoints with a given name. -/
def named (n : Str) (ds : List Datapoint) : List Datapoint := ds.filter fun d => decide (d.name = n)

/-- The rational value of a finite number. -/
def Num.rat : Num → ℚ
  | .int z => z
  | .flt (.fin q) => q
  | .flt _ => 0

end Txstatsd
