import Verif.Model.Threads

/-!
# Several threads: what is where
-/

namespace Txstatsd

/-- The message of a write that has begun and not ended. -/
def WritePc.held : WritePc → List Msg
  | .idle => []
  | .testGateway m | .testTransport m | .getGateway m | .call _ m | .testLength m | .getQueue m | .append _ m => [m]

namespace Threaded

/-- All messages, wherever they are: handed to the transport, failed, scheduled, in lists, dropped, held by a write. -/
def everywhere (c : Threaded) : List Msg :=
  c.sent ++ c.failed ++ c.scheduled.map (·.2) ++ c.lists.flatten ++ c.dropped ++ c.threads.flatMap WritePc.held

/-- Transport and gateway are there. -/
def Up (c : Threaded) : Prop := c.transport.isSome ∧ c.gateway.isSome

/-- No write is under way. -/
def Quiet (c : Threaded) : Prop := ∀ pc ∈ c.threads, pc = .idle

/-- List object `l` is neither the queue nor being iterated over: nobody will look at it again. -/
def Forgotten (c : Threaded) (l : Nat) : Prop := l < c.lists.length ∧ l ≠ c.queue ∧ .iterate l ∉ c.prog

/-- What happens does not disturb: no thread moves while a call runs in the reactor's thread, and no such call begins while a
write is under way. -/
def Undisturbed (c : Threaded) : List Ev → Prop
  | [] => True
  | e :: es =>
    (match e with
      | .begin _ _ | .advance _ => c.prog = []
      | .call _ => c.Quiet
      | .react => True) ∧ Undisturbed (c.step e) es

instance : Decidable (Quiet c) := inferInstanceAs (Decidable (∀ pc ∈ c.threads, pc = .idle))
instance : Decidable (Up c) := inferInstanceAs (Decidable (_ ∧ _))
instance : Decidable (Forgotten c l) := inferInstanceAs (Decidable (_ ∧ _ ∧ _))

instance decUndisturbed : (c : Threaded) → (es : List Ev) → Decidable (Undisturbed c es)
  | _, [] => isTrue trivial
  | c, e :: es =>
    haveI := decUndisturbed (c.step e) es
    match e with
    | .begin _ _ => inferInstanceAs (Decidable (_ ∧ _))
    | .advance _ => inferInstanceAs (Decidable (_ ∧ _))
    | .call _ => inferInstanceAs (Decidable (Quiet c ∧ _))
    | .react => inferInstanceAs (Decidable (True ∧ _))

end Threaded
end Txstatsd
