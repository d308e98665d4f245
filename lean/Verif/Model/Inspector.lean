import Verif.Model.Report

/-!
# The inspector as a service (report.py:95-145, 189-202)

Model/Report.lean has the loop of the inspector's thread. Here it is started and stopped.
-/

namespace Txstatsd

/-- `ReactorInspector` with `ReactorInspectorService` (report.py:95-121, 189-202): the flags, who started it, how many threads were
started, and the state of the thread once `run` has begun (141-145). `over` says that the loop has been left. -/
structure InspSvc where
  running : Bool := false
  stopped : Bool := false
  reactorThread : Option ℕ := none
  service : Bool := false
  threads : ℕ := 0
  thread : Option Insp := none
  over : Bool := false
  deriving DecidableEq

/-- What happens: the service is started (in some thread) or stopped, the new thread begins, or an act of the loop
(report.py:111-121, 141-202). -/
inductive InspSvcAct
  | start (ident : ℕ)
  | stop
  | begin
  | act (a : InspAct)
  deriving DecidableEq

/-- `startService` (report.py:196-198) with `ReactorInspector.start` (111-116). -/
def InspSvc.start (s : InspSvc) (ident : ℕ) : InspSvc :=
  let s := { s with service := true, reactorThread := some ident }
  if s.running then s else { s with running := true, threads := s.threads + 1 }

/-- `stopService` (report.py:200-202) with `ReactorInspector.stop` (118-121). -/
def InspSvc.stop (s : InspSvc) : InspSvc := { s with stopped := true, service := false }

/-- The thread begins to run (report.py:141-145). -/
def InspSvc.begin (s : InspSvc) (now : ℚ) : InspSvc :=
  if 0 < s.threads ∧ s.thread = none then { s with thread := some { oldest := now } } else s

/-- An act of the loop (report.py:146-186): its condition is evaluated before each request; a probe is executed by the reactor whether
the loop goes on or not. -/
def InspSvc.act (s : InspSvc) (now : ℚ) (a : InspAct) : InspSvc :=
  match s.thread with
  | none => s
  | some t =>
    match a with
    | .exec i => { s with thread := some (t.step now (.exec i)) }
    | .request =>
      if s.over then s
      else if t.phase = .idle ∧ s.stopped then { s with over := true }
      else { s with thread := some (t.step now .request) }
    | .check => if s.over then s else { s with thread := some (t.step now .check) }
    | .clean => if s.over then s else { s with thread := some (t.step now .clean) }

/-- One event (report.py:111-202). -/
def InspSvc.step (s : InspSvc) (now : ℚ) : InspSvcAct → InspSvc
  | .start ident => s.start ident
  | .stop => s.stop
  | .begin => s.begin now
  | .act a => s.act now a

/-- A run (report.py:111-202). -/
def InspSvc.run (s : InspSvc) (evs : List (ℚ × InspSvcAct)) : InspSvc := evs.foldl (fun s e => s.step e.1 e.2) s

/-- What the thread has logged, and set the gauge to (report.py:155-183). -/
def InspSvc.readings (s : InspSvc) : List InspEntry :=
  match s.thread with
  | none => []
  | some t => t.log

/-- One line of `dump_frames` (report.py:131-139), for the frame of a thread. -/
def frameLine (reactorThread : Option ℕ) (pid : ℕ) (frame : ℕ × Str) : Str :=
  (if some frame.1 = reactorThread then c!"Dumping Python frame for reactor main thread" else c!"Dumping Python frame") ++ c!" " ++
    natStr frame.1 ++ c!" (pid: " ++ natStr pid ++ c!"):\n" ++ frame.2

/-- `dump_frames` (report.py:123-139): the frames of all threads but the own one. -/
def dumpFrames (current : ℕ) (reactorThread : Option ℕ) (pid : ℕ) (frames : List (ℕ × Str)) : List Str :=
  (frames.filter fun f => f.1 ≠ current).map (frameLine reactorThread pid)

end Txstatsd
