import Verif.Spec.Balance
import Verif.Spec.HashRing

/-!
# Counting on several servers
-/

namespace Txstatsd.Spec
variable {N : Type} [LinearOrder N]

/-- The texts a sharded client can send: those with a `:` after a name in ASCII. -/
def sendable (datas : List Str) : List Str := datas.filter fun d => (metricName d).any isAscii

/-- What was sent to one server. -/
def toServer (sent : List (N × Str)) (n : N) : List Str := (sent.filter fun p => decide (p.1 = n)).map Prod.snd

/-- The counts of `key` on a server that started with some plugins and went through a schedule: sent, under way and stored. -/
def serverCounts [Rounding] {PF PM : Type} (ops : PluginOps PF PM) (plugins : List PF) (w : World) (es : List Event) (key : Str) :
    List Num :=
  let v := (startUp (MPState.init ops plugins)).run (messageProcessor ops) w es
  countsAt key v.out v.gens v.ps

end Txstatsd.Spec
