import Verif.Model.Ready

/-!
# When a router should be ready
-/

namespace Txstatsd.Spec
open RouterReady

/-- The kind of each redirect built, in order: `(tcp, isIp)`. -/
def builtRedirects (es : List Ev) : List (Bool × Bool) :=
  es.filterMap fun e => match e with
    | .udp isIp => some (false, isIp)
    | .tcp => some (true, false)
    | _ => none

/-- Redirect `i` is up by the end of the history: the host of a UDP redirect was an IP address or its name was resolved after
the redirect was built; a TCP redirect was connected after it was built, and the reactor has run since. -/
def IsUp (es : List Ev) (i : Nat) : Prop :=
  ∃ pre e post, es = pre ++ e :: post ∧ (builtRedirects pre).length = i ∧
    (e = .udp true ∨ (e = .udp false ∧ .resolved i ∈ post) ∨
     (e = .tcp ∧ ∃ a b, post = a ++ b ∧ .connected i ∈ a ∧ .turn i ∈ b))

end Txstatsd.Spec
