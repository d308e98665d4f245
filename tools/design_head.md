# Formal model of txstatsd in Lean 4

The code under /repo is Python 2 with Twisted. It is read as text only. The theorems are about a
hand-written Lean model; every definition of the model cites the source lines it models.
(This file is generated by `tools/design.py` from `tools/design_head.md`, `tools/methods.py`,
`properties.jsonl`, `tools/notes.json`, the theorems' comments and `tools/axioms.json`.)

## 1. Layout

* `lean/Verif/Model/*.lean` - the model: total functions mirroring the Python functions branch by
  branch, exceptions as values.
* `lean/Verif/Spec/*.lean` - specifications, written without the model's helper functions.
* `lean/Verif/Lemmas/*.lean` - helper lemmas.
* `lean/Verif/Props/*.lean` - the property theorems (`Cnn_...`), each with an `example` showing that a
  concrete non-trivial case meets its hypotheses.
* `MANIFEST.json` - property -> theorems. `seeded/LOG.jsonl` - wrong programs tried against the theorems.

## 2. Modelling conventions

* **Strings.** A Python 2 `str` is a byte string: `Str := List Char`, one `Char` per byte. Theorems
  quantify over all lists of `Char` (a superset of all byte strings).
* **Floats.** `PyFloat := nan | inf sign | fin q` with `q` rational; every arithmetic result on finite
  operands goes through `rnd : Rat -> PyFloat` of the class `Rounding`, an arbitrary parameter. A theorem
  stated for `[Rounding]` alone holds for every rounding, hence for IEEE doubles. One that also assumes
  `[Exact]` is about exact rational arithmetic; `[IntExact]` assumes only that integers up to 2^53 are exact,
  as they are in doubles. Signed zeros are identified. `float("...")` is modelled down to its grammar.
* **Ints and floats.** `Num := int z | flt x`; Python 2 division of two ints is floor division.
* **Exceptions** are values of `PyErr`. A method that mutates before raising returns the mutated state
  together with the exception.
* **dict** is an association list with distinct keys in insertion order. CPython 2 iterates in an arbitrary
  order that stays fixed while nothing is inserted. Theorems about output speak per key, or say "in the
  order of iteration"; where the order matters to the code (which counter is lost in C19, which SLI pattern
  wins in C46) the theorem says so.
* **Clocks, random numbers, hash functions, regular expressions of the user, transports, callbacks, the
  network** are arguments: arbitrary functions or values. Theorems hold for all of them.
* **Concurrency.** Generators (`flush`) exist twice: as an atomic function and as a step machine with which
  message arrivals and other flushes interleave arbitrarily; C23 proves that the two agree when uninterrupted.
  The Twisted client, the TCP redirect, the reactor inspector and the reporting service are step machines
  driven by arbitrary event sequences.
* **Independence of the specifications.** Specs speak about message texts, lists of events and numbers. They
  share with the model only the basic data types (`Str`, `Num`, `PyFloat`, `Datapoint`, event types) and, where
  a spec says "a number", the float grammar `parseFloat`, itself specified by C06 and used as the meaning of
  "float literal".

## 3. Trusted base

* The Lean 4.33.0 kernel and the axioms `propext`, `Classical.choice`, `Quot.sound`. Section 6 lists the axioms
  of every property theorem. There is no `sorry`, no own axiom, no `native_decide`.
* Mathlib, as a library whose proofs the same kernel checked.
* The reading of the Python source: that each model definition does what the cited lines do. This is where a
  mistake would not be caught by Lean. The wrong programs of `seeded/LOG.jsonl` test the opposite direction: that
  the theorems notice when a definition does something else.
* Assumptions about code outside /repo, made in the model:
  - Twisted `LineReceiver` 11.1 to 15.4 (Model/Tcp): buffering, `MAX_LENGTH` 16384, a true result of
    `lineReceived` stops `dataReceived` and closes the connection.
  - `twisted.python.usage.Options` (Model/Options): dispatch of long and short options, `CoerceParameter`;
    in Model/Options the options arrive as a list of (name, value); Model/Getopt has `getopt.getopt` and the lists of options as
    `usage.Options` gathers them (a parameter with a method `opt_…` is gathered twice).
  - `ConfigParser`: in Model/Options a file arrives as sections of (name, value) items; Model/Ini has `RawConfigParser` of
    Python 2.7, which reads them from a text.
  - `ReconnectingClientFactory` (Model/Backoff): the delays of `retry`, `resetDelay`, `stopTrying`; `callLater` asserts that a
    delay is not negative.
  - `LoopingCall` (Model/FlushTask): `start` on a running loop fails an assertion, a negative period is a
    ValueError, calls are made at multiples of the period after the start, missed ones are skipped, `stop`
    cancels the next one. In Model/SlowReport, as in Twisted: the loop waits for a Deferred; a result after `stop` and
    `start` plans one more call.
  - `LoopingCall` (Model/Report): `start` runs the function at once, an exception stops the call, `stop` on a
    stopped call raises `AssertionError`.
  - `Cooperator` (Model/Generator): advances each generator by steps, in any order, between reactor events.
  - `reactor.callFromThread` (Model/Client): runs scheduled calls in order, one per turn.
  - `bisect`, `fnmatch`, `random`, `md5`, `re`: bisect and fnmatch are modelled from their source; the
    others are arbitrary functions.
  - CPython 2: iterating over a dict or deque that changed size raises `RuntimeError`; comparison of `None`
    with anything (ring entries); `str.split`, `strip`, `lower`, slicing.

## 4. What is modelled and what is not

| file | modelled | not modelled |
|---|---|---|
| server/processor.py | all of it | the text of log messages |
| server/configurableprocessor.py | all of it | |
| server/loggingprocessor.py | all of it | the rendering of values (`%s`, an arbitrary function) |
| server/router.py | rules, conditions, targets, `process_message`, the `ready` Deferred (Model/Ready), TCP redirect service, factory and protocol (Model/Redirect, Model/Tcp), the factory's waits (Model/Backoff); the UDP redirect's client (protocol.py) | |
| server/protocol.py | both protocols | the factory's constructor |
| server/httpinfo.py | the status decision, `Metrics.getChild`, the data of the timer page (C33), request paths with percent-encoding and the resource tree (C113), the JSON text of the pages (C143), `makeService` (Model/Create) | the pages of plugins; texts outside ASCII in JSON |
| service.py | `OptionsGlue`, `StatsDOptions`, the flush period, `report_client_manager_stats`, the carbon destinations, the choice and wiring of the processor, the scheduled reports (Model/App), `createService` as a whole (Model/Create) | carbon's router and client |
| client.py | all of it | DNS (an outcome) |
| protocol.py | `DataQueue`, `TransportGateway`, `TwistedStatsDClient`, `StatsDClientProtocol` (as the caller of connect/disconnect) | resolution by Deferred (its outcome is an event) |
| hashing.py | all of it | MD5 (an arbitrary function) |
| process.py | all of it, from what psutil returns and the files contain (Model/System, Model/Files) | psutil |
| report.py | all of it (Model/Report, Model/Inspector) | the text of stack frames |
| metrics/*.py | all metric and reporter classes | none |
| stats/*.py | all of it | |
| twisted/plugins/*.py | both metric plugins | plugin discovery |
| statsd.tac, txstatsd.conf-example | the service they create (C169) | |
| example-stats-client.tac | all of it (Model/Demo, C170): walkers, durations and reports as events | how often the loops run |
| itxstatsd.py, imetrics.py | the interface as the record `PluginOps` | |

Simplifications, beyond the parameters listed in section 2:

* `float()`/`int()` grammar: ASCII; no underscores, no hexadecimal floats, no `long` suffix.
* Files: a map from names to texts at the moment of a call; a file that cannot be read raises (C142).
* Texts of clients are ASCII in Model/Metrics, so that `encode('utf-8')` is the identity. Model/PyText has Python 2 byte and unicode strings with the same methods for a new name (C135); unicode strings there have no lone surrogates.
* Distinct counter: the division of the total by 32 is exact; `2 ** v` is an arbitrary monotone function with value 1 at 0. Model/DistinctFloat has the same in floats (C140).
* Percentile literals (0.999 ...) are their decimal values; Sturges' number of bins uses the exact logarithm.
* Inspector times are exact rationals; the `func_name` of the error log is not modelled.
* The decaying sample is modelled twice: over an ordered field (C37, C38, C154; in C154 with uniform real draws), and in doubles with any function standing for `math.exp` that satisfies the laws of `ExpLaws` (C133, C134); an overflow raises. `Ewma` has a version in doubles as well (C138).
* Memory and the size of Python ints are unbounded.
