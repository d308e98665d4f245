import Verif.Model.Processor

/-!
# The `flush` generator, step by step (processor.py:224-372)

`StatsDService` hands the generator returned by `flush` to a Twisted cooperator (service.py:207-240),
so other reactor events (datagrams, another flush) run between two datapoints. `micro` executes the
generator up to the next observable point. Interleaving at every micro step includes all
interleavings at `yield`s.
-/

namespace Txstatsd

/-- Where a `flush` generator is suspended, with its local variables. `pend` is the rest of the group
being yielded by the `for metric in metrics` loop (processor.py:237-238, 286-287). -/
inductive Pc
  /-- Not started. -/
  | fresh
  /-- Before phase `k` (processor.py:234, 244, 254, 264, 274). -/
  | phaseStart (k : Nat) (ts : ℤ) (acc : List PerMetric)
  /-- Inside the loop of phase `k`: the dict or deque iterator remembers the size of the collection
  and its own position. -/
  | inPhase (k : Nat) (ts : ℤ) (acc : List PerMetric) (start : ℚ) (size cursor events : Nat)
      (pend : List Datapoint)
  /-- Yielding `numStats` (processor.py:344-345). -/
  | sumInit (ts : ℤ) (acc : List PerMetric) (pend : List Datapoint)
  /-- In the loop over `per_metric` (processor.py:348-357); `cur` is the duration still to be added
  when the generator is resumed. -/
  | sumPer (ts : ℤ) (todo : List PerMetric) (cur : Option Num) (pend : List Datapoint)
  /-- In the loop over `process_timings` (processor.py:360-369). -/
  | sumRecv (ts : ℤ) (size cursor : Nat) (cur : Option (Str × Num)) (pend : List Datapoint)
  /-- Exhausted. -/
  | done
  /-- Ended by an exception. -/
  | crashed (e : PyErr)

/-- A generator created by `flush(interval, percent)` (server/processor.py:224-232). -/
structure Gen where
  interval : ℤ
  percent : ℤ
  pc : Pc := .fresh

variable [Rounding] {C T G PF PM : Type}

/-- One step of a suspended generator. Every `next` on the iterator of a dict or a deque first checks
that the collection was not resized (a deque: not appended to) since the iterator was created and
raises `RuntimeError` otherwise; the check is made at the end of the iteration as well (server/processor.py:229-372). -/
def micro (I : Impl C T G PF PM) (w : World) (s : PS C T G PF PM) (g : Gen) :
    PS C T G PF PM × Gen × Option Datapoint :=
  match g.pc with
  | .fresh =>
    ({ s with ticks := s.ticks + 1 }, { g with pc := .phaseStart 0 (truncQ (w.clk s.ticks)) [] }, none)
  | .phaseStart k ts acc =>
    ({ s with ticks := s.ticks + 1 },
     { g with pc := .inPhase k ts acc (w.clk s.ticks) (phaseLen I s k) 0 0 [] }, none)
  | .inPhase k ts acc start size cursor events (d :: pend) =>
    (s, { g with pc := .inPhase k ts acc start size cursor events pend }, some d)
  | .inPhase k ts acc start size cursor events [] =>
    if phaseLen I s k ≠ size then (s, { g with pc := .crashed .runtimeError }, none)
    else if cursor < size then
      match phaseVisit I w (Int.fdiv g.interval 1000) g.percent ts k s cursor with
      | (s, .error e) => (s, { g with pc := .crashed e }, none)
      | (s, .ok none) => (s, { g with pc := .inPhase k ts acc start size (cursor + 1) events [] }, none)
      | (s, .ok (some ds)) =>
        (s, { g with pc := .inPhase k ts acc start size (cursor + 1) (events + 1) ds }, none)
    else
      let acc := acc ++ [(phaseName k, events, Num.flt (rnd (w.clk s.ticks - start)))]
      ({ s with ticks := s.ticks + 1 },
       { g with pc := if k < 4 then .phaseStart (k + 1) ts acc
                      else .sumInit ts acc [numStatsPoint I acc ts] }, none)
  | .sumInit ts acc (d :: pend) => (s, { g with pc := .sumInit ts acc pend }, some d)
  | .sumInit ts acc [] => ({ s with lastFlush := .int 0 }, { g with pc := .sumPer ts acc none [] }, none)
  | .sumPer ts todo cur (d :: pend) => (s, { g with pc := .sumPer ts todo cur pend }, some d)
  | .sumPer ts todo (some d) [] =>
    ({ s with lastFlush := s.lastFlush.add d }, { g with pc := .sumPer ts todo none [] }, none)
  | .sumPer ts (p :: todo) none [] =>
    (s, { g with pc := .sumPer ts todo (some p.2.2) (perMetricPoints I ts p) }, none)
  | .sumPer ts [] none [] =>
    ({ s with lastProcess := .int 0 }, { g with pc := .sumRecv ts s.processTimings.length 0 none [] }, none)
  | .sumRecv ts size cursor cur (d :: pend) =>
    (s, { g with pc := .sumRecv ts size cursor cur pend }, some d)
  | .sumRecv ts size cursor (some (t, d)) [] =>
    -- the log line reads `self.by_type[metric_type]` once more (processor.py:367-368)
    if s.byType.has t then
      ({ s with lastProcess := s.lastProcess.add d }, { g with pc := .sumRecv ts size cursor none [] }, none)
    else (s, { g with pc := .crashed .keyError }, none)
  | .sumRecv ts size cursor none [] =>
    if s.processTimings.length ≠ size then (s, { g with pc := .crashed .runtimeError }, none)
    else match s.processTimings[cursor]? with
      | some (t, d) =>
        match s.byType.find t with
        | none => (s, { g with pc := .crashed .keyError }, none)
        | some n =>
          (s, { g with pc := .sumRecv ts size (cursor + 1) (some (t, d)) (receivePoints I ts t n d) }, none)
      | none => ({ s with processTimings := [], byType := [] }, { g with pc := .done }, none)
  | .done => (s, g, none)
  | .crashed _ => (s, g, none)

/-- What the reactor can do next: deliver a message, start a flush (`StatsDService.flushProcessor`,
service.py:229-231), or advance one of the running flushes. -/
inductive Event
  | arrive (msg : Str)
  | spawn (interval percent : ℤ)
  | advance (i : Nat)
  deriving DecidableEq

/-- The server: processor, running (or finished) generators, and everything sent to graphite so far (service.py:207-233). -/
structure Server (C T G PF PM : Type) where
  ps : PS C T G PF PM
  gens : List Gen := []
  out : List Datapoint := []

/-- One reactor event (service.py:218-233; server/protocol.py:47-48). -/
def Server.step (I : Impl C T G PF PM) (w : World) (v : Server C T G PF PM) : Event → Server C T G PF PM
  | .arrive m => { v with ps := (process I w v.ps m).1 }
  | .spawn i p => { v with gens := v.gens ++ [{ interval := i, percent := p }] }
  | .advance i =>
    match v.gens[i]? with
    | none => v
    | some g =>
      let (s, g, d) := micro I w v.ps g
      { ps := s, gens := v.gens.set i g, out := v.out ++ d.toList }

/-- A schedule (service.py:218-233; server/protocol.py:47-48). -/
def Server.run (I : Impl C T G PF PM) (w : World) (v : Server C T G PF PM) (es : List Event) :
    Server C T G PF PM :=
  es.foldl (Server.step I w) v

end Txstatsd
