# Formal model of txstatsd in Lean 4

The code under /repo is Python 2 with Twisted. It is read as text only. The theorems are about a
hand-written Lean model; every definition of the model cites the source lines it models.
(This file is generated by `tools/design.py` from `tools/design_head.md`, `tools/methods.py`,
`properties.jsonl`, `tools/notes.json`, the theorems' comments and `tools/axioms.json`.)

## 1. Layout

* `lean/Verif/Model/*.lean` - the model: total functions mirroring the Python functions branch by
  branch, exceptions as values.
* `lean/Verif/Spec/*.lean` - specifications, written without the model's helper functions.
* `lean/Verif/Lemmas/*.lean` - helper lemmas.
* `lean/Verif/Props/*.lean` - the property theorems (`Cnn_...`), each with an `example` showing that a
  concrete non-trivial case meets its hypotheses.
* `MANIFEST.json` - property -> theorems. `seeded/LOG.jsonl` - wrong programs tried against the theorems.

## 2. Modelling conventions

* **Strings.** A Python 2 `str` is a byte string: `Str := List Char`, one `Char` per byte. Theorems
  quantify over all lists of `Char` (a superset of all byte strings).
* **Floats.** `PyFloat := nan | inf sign | fin q` with `q` rational; every arithmetic result on finite
  operands goes through `rnd : Rat -> PyFloat` of the class `Rounding`, an arbitrary parameter. A theorem
  stated for `[Rounding]` alone holds for every rounding, hence for IEEE doubles. One that also assumes
  `[Exact]` is about exact rational arithmetic; `[IntExact]` assumes only that integers up to 2^53 are exact,
  as they are in doubles. Signed zeros are identified. `float("...")` is modelled down to its grammar.
* **Ints and floats.** `Num := int z | flt x`; Python 2 division of two ints is floor division.
* **Exceptions** are values of `PyErr`. A method that mutates before raising returns the mutated state
  together with the exception.
* **dict** is an association list with distinct keys in insertion order. CPython 2 iterates in an arbitrary
  order that stays fixed while nothing is inserted. Theorems about output speak per key, or say "in the
  order of iteration"; where the order matters to the code (which counter is lost in C19, which SLI pattern
  wins in C46) the theorem says so.
* **Clocks, random numbers, hash functions, regular expressions of the user, transports, callbacks, the
  network** are arguments: arbitrary functions or values. Theorems hold for all of them.
* **Concurrency.** Generators (`flush`) exist twice: as an atomic function and as a step machine with which
  message arrivals and other flushes interleave arbitrarily; C23 proves that the two agree when uninterrupted.
  The Twisted client, the TCP redirect, the reactor inspector and the reporting service are step machines
  driven by arbitrary event sequences.
* **Independence of the specifications.** Specs speak about message texts, lists of events and numbers. They
  share with the model only the basic data types (`Str`, `Num`, `PyFloat`, `Datapoint`, event types) and, where
  a spec says "a number", the float grammar `parseFloat`, itself specified by C06 and used as the meaning of
  "float literal".

## 3. Trusted base

* The Lean 4.33.0 kernel and the axioms `propext`, `Classical.choice`, `Quot.sound`. Section 6 lists the axioms
  of every property theorem. There is no `sorry`, no own axiom, no `native_decide`.
* Mathlib, as a library whose proofs the same kernel checked.
* The reading of the Python source: that each model definition does what the cited lines do. This is where a
  mistake would not be caught by Lean. The wrong programs of `seeded/LOG.jsonl` test the opposite direction: that
  the theorems notice when a definition does something else.
* Assumptions about code outside /repo, made in the model:
  - Twisted `LineReceiver` 11.1 to 15.4 (Model/Tcp): buffering, `MAX_LENGTH` 16384, a true result of
    `lineReceived` stops `dataReceived` and closes the connection.
  - `twisted.python.usage.Options` (Model/Options): dispatch of long and short options, `CoerceParameter`;
    in Model/Options the options arrive as a list of (name, value); Model/Getopt has `getopt.getopt` and the lists of options as
    `usage.Options` gathers them (a parameter with a method `opt_…` is gathered twice).
  - `ConfigParser`: in Model/Options a file arrives as sections of (name, value) items; Model/Ini has `RawConfigParser` of
    Python 2.7, which reads them from a text.
  - `ReconnectingClientFactory` (Model/Backoff): the delays of `retry`, `resetDelay`, `stopTrying`; `callLater` asserts that a
    delay is not negative.
  - `LoopingCall` (Model/FlushTask): `start` on a running loop fails an assertion, a negative period is a
    ValueError, calls are made at multiples of the period after the start, missed ones are skipped, `stop`
    cancels the next one. In Model/SlowReport, as in Twisted: the loop waits for a Deferred; a result after `stop` and
    `start` plans one more call.
  - `LoopingCall` (Model/Report): `start` runs the function at once, an exception stops the call, `stop` on a
    stopped call raises `AssertionError`.
  - `Cooperator` (Model/Generator): advances each generator by steps, in any order, between reactor events.
  - `reactor.callFromThread` (Model/Client): runs scheduled calls in order, one per turn.
  - `bisect`, `fnmatch`, `random`, `md5`, `re`: bisect and fnmatch are modelled from their source; the
    others are arbitrary functions.
  - CPython 2: iterating over a dict or deque that changed size raises `RuntimeError`; comparison of `None`
    with anything (ring entries); `str.split`, `strip`, `lower`, slicing.

## 4. What is modelled and what is not

| file | modelled | not modelled |
|---|---|---|
| server/processor.py | all of it | the text of log messages |
| server/configurableprocessor.py | all of it | |
| server/loggingprocessor.py | all of it | the rendering of values (`%s`, an arbitrary function) |
| server/router.py | rules, conditions, targets, `process_message`, the `ready` Deferred (Model/Ready), TCP redirect service, factory and protocol (Model/Redirect, Model/Tcp), the factory's waits (Model/Backoff); the UDP redirect's client (protocol.py) | |
| server/protocol.py | both protocols | the factory's constructor |
| server/httpinfo.py | the status decision, `Metrics.getChild`, the data of the timer page (C33), request paths with percent-encoding and the resource tree (C113), the JSON text of the pages (C143), `makeService` (Model/Create) | the pages of plugins; texts outside ASCII in JSON |
| service.py | `OptionsGlue`, `StatsDOptions`, the flush period, `report_client_manager_stats`, the carbon destinations, the choice and wiring of the processor, the scheduled reports (Model/App), `createService` as a whole (Model/Create) | carbon's router and client |
| client.py | all of it | DNS (an outcome) |
| protocol.py | `DataQueue`, `TransportGateway`, `TwistedStatsDClient`, `StatsDClientProtocol` (as the caller of connect/disconnect) | resolution by Deferred (its outcome is an event) |
| hashing.py | all of it | MD5 (an arbitrary function) |
| process.py | all of it, from what psutil returns and the files contain (Model/System, Model/Files) | psutil |
| report.py | all of it (Model/Report, Model/Inspector) | the text of stack frames |
| metrics/*.py | all metric and reporter classes | none |
| stats/*.py | all of it | |
| twisted/plugins/*.py | both metric plugins | plugin discovery |
| statsd.tac, txstatsd.conf-example | the service they create (C169) | |
| example-stats-client.tac | all of it (Model/Demo, C170): walkers, durations and reports as events | how often the loops run |
| itxstatsd.py, imetrics.py | the interface as the record `PluginOps` | |

Simplifications, beyond the parameters listed in section 2:

* `float()`/`int()` grammar: ASCII; no underscores, no hexadecimal floats, no `long` suffix.
* Files: a map from names to texts at the moment of a call; a file that cannot be read raises (C142).
* Texts of clients are ASCII in Model/Metrics, so that `encode('utf-8')` is the identity. Model/PyText has Python 2 byte and unicode strings with the same methods for a new name (C135); unicode strings there have no lone surrogates.
* Distinct counter: the division of the total by 32 is exact; `2 ** v` is an arbitrary monotone function with value 1 at 0. Model/DistinctFloat has the same in floats (C140).
* Percentile literals (0.999 ...) are their decimal values; Sturges' number of bins uses the exact logarithm.
* Inspector times are exact rationals; the `func_name` of the error log is not modelled.
* The decaying sample is modelled twice: over an ordered field (C37, C38, C154; in C154 with uniform real draws), and in doubles with any function standing for `math.exp` that satisfies the laws of `ExpLaws` (C133, C134); an overflow raises. `Ewma` has a version in doubles as well (C138).
* Memory and the size of Python ints are unbounded.

## 5. Properties

Properties that are false of the code, with a machine-checked counterexample: C15, C24, C26, C28, C31, C43, C50, C52, C58, C61, C67, C70, C71, C76, C78, C80, C81, C83, C85, C86, C88, C90, C91, C93, C94, C95, C97, C98, C99, C100, C101, C110, C112, C114, C116, C119, C121, C124, C132, C133, C134, C135, C136, C141, C142, C143, C148, C149, C153, C155, C156, C160, C162, C164, C165, C166, C167, C168, C170, C171, C172, C173, C174.

### C01 Normalised keys: exact description and alphabet - proved

For every key text, normalize_key replaces each maximal whitespace run by one '_' and each maximal '/' run by one '-', keeps letters, digits, '_', '-', '.', deletes everything else; so the result contains only characters graphite accepts.

* Quantified over: every byte string.
* Modelled (Model/Text): `normalize_key` as three substitutions over a byte string (`subRuns`, `filter`).
* Proof: equality with the one-pass specification `Spec.normal` by strong induction on the length of the key; the alphabet follows from the filter.
* Theorems:
  - `C01_normalize_eq_spec`: `normalize_key` is the one-pass description: each white-space run becomes one `_`, each `/` run one `-`, legal characters stay, everything else disappears.
  - `C01_alphabet`: a normalised key contains only characters that graphite accepts.

### C02 Key normalisation is idempotent and fixes legal keys - proved

normalize_key(normalize_key(k)) == normalize_key(k) for every k, and a key made only of legal characters is returned unchanged.

* Quantified over: every byte string.
* Modelled (Model/Text): as C01.
* Proof: the specification fixes legal keys (induction); idempotence is that applied to the alphabet of C01.
* Theorems:
  - `C02_idempotent`: normalising twice is normalising once.
  - `C02_fixes_legal`: a key made only of legal characters is returned unchanged.

### C03 Message grammar is decided exactly - proved

process(message) hands (type, normalised key, fields) to the processor iff the whitespace-stripped message is key ':' f0 '|' type ['|' f2] with no ':' in key and no '|' inside a field; every other message is logged as bad exactly once and changes no state.

* Quantified over: every message text and every processor state.
* Modelled (Model/Text, Processor): `process` up to `process_message`, `fail`.
* Proof: both directions against an existential decomposition of the stripped text (`Spec.Grammar`), using inversion lemmas of `split1`, `splitOn`, `strip`; uniqueness of the decomposition; the state equality is by computation for every class (`Impl`).
* Theorems:
  - `C03_parse_iff`: a message is handed to `process_message` exactly when it follows the grammar, with the type, the normalised key and the fields of its (unique) decomposition.
  - `C03_dispatch`: a grammatical message is dispatched, on every processor class and in every state.
  - `C03_reject`: every other message is logged as bad once, changes nothing and raises nothing.

### C04 Forwarded messages re-parse to the same metric - proved

If a message is accepted with key, type and fields, then rebuild_message of these gives a text which process accepts again with the same key, type and fields (so UDP/TCP redirection to another txstatsd is lossless).

* Quantified over: every accepted message text.
* Modelled (Model/Text): `rebuild_message`.
* Proof: the rebuilt text is the stripped message with its key normalised; parsing it again uses C02.
* Theorems:
  - `C04_rebuild_roundtrip`: rebuilding the message of an accepted metric gives a text that is accepted as the same metric: redirecting to another server loses nothing.
  - `C04_rebuild_text`: the rebuilt text is the stripped message with its key normalised.

### C05 Unknown metric types have no effect - proved

A well-formed message whose type is neither built in (c, ms, g, m) nor a registered plugin type is logged as bad and leaves every aggregate, every receive statistic and every later flush unchanged; built-in types are never handed to a plugin registered under the same type.

* Quantified over: every state, key, field list and plugin table.
* Modelled (Model/Processor): the dispatch of `process_message`.
* Proof: case analysis; the whole state is compared.
* Theorems:
  - `C05_unknown_type`: a metric of unknown type is logged as bad and changes nothing but the number of clock readings (`process_message` reads the clock before dispatching).
  - `C05_builtin_before_plugin`: a built-in type is never handed to a plugin, even to one registered under that type.

### C06 Decimal integers survive the text protocol - proved

For every integer n, the text that the client writes for n is parsed by the server's float() to exactly n (before float rounding), and the rate regular expression reads back every decimal rate text.

* Quantified over: every integer.
* Modelled (Model/Text): `float()` down to its grammar, `str(int)`, the `RATE` expression.
* Proof: induction on digits (`natStr`/`digitsVal` are inverse).
* Theorems:
  - `C06_integers`: the decimal text of every integer is read back by `float()` as that integer (then rounded to a float).
  - `C06_fractions`: a decimal fraction `a.b` is read as `a + b / 10^(number of digits of b)`.
  - `C06_rate_text`: the rate expression reads back every text of digits and dots after the `@`.

### C07 Counter aggregation is exact - proved

After any message history on a fresh MessageProcessor, flush reports for each key stats_counts.<key> equal to the sum of value/rate over exactly the accepted counter messages for that key, and stats.<key> equal to that sum divided by the interval in whole seconds.

* Quantified over: every message history (any interleaving of keys, types, malformed lines) and every flush interval of at least one second.
* Modelled (Model/Processor): `process`, `process_counter_metric`, `compose_counter_metric`, `flush`, `flush_counter_metrics`.
* Proof: induction over message histories: the stored value is the left fold of the accepted increments read off the texts by `Spec.increments`; then the counter phase is computed for an arbitrary dict. Any rounding; exactness separately for exact arithmetic and for integers up to 2^53.
* Theorems:
  - `C07_counter_section`: after any message history, a flush with an interval of at least one second starts with exactly one pair `stats.<k>`, `stats_counts.<k>` for each known counter `k`; the second value is the running total of the accepted increments of `k`, the first that total divided by the whole seconds of the interval. Every incremented counter is known, and only counters mentioned by a counter message are.
  - `C07_count_unique`: no other part of the flush interferes: exactly one `stats_counts.<key>` datapoint is emitted for an incremented counter and it carries the running total (plugins are assumed not to use that namespace).
  - `C07_exact_sum`: with exact arithmetic the running total is the sum of value/rate.
  - `C07_integer_sum`: with any float arithmetic that is exact on integers up to 2^53 (as IEEE doubles are), the total of unsampled integer increments is their exact sum, as long as all partial sums stay in that range.

### C08 Counters are never lost or double counted across flushes - proved

For any sequence of messages and completed flushes, the sum of all stats_counts.<key> datapoints emitted plus what the next flush would emit equals the sum of all accepted increments; a flushed counter keeps being reported, as 0, until incremented again.

* Quantified over: every sequence of process and flush calls.
* Modelled (Model/Processor): histories of messages and flushes.
* Proof: induction over histories with a ghost list of blocks; exact sums in `C08_exact_balance`.
* Theorems:
  - `C08_conservation`: for every sequence of messages and flushes (with intervals of at least one second) from start-up, the accepted increments of a key can be cut into consecutive blocks such that the emitted `stats_counts.<key>` values are the totals of the blocks, one each, and the value held for the next flush is the total of the rest: nothing is lost, repeated or reordered.
  - `C08_exact_balance`: with exact arithmetic, the emitted values plus the held value add up to the sum of value/rate over all accepted increments.
  - `C08_idle_zero`: a counter that was flushed and not incremented since is reported by the next flush again, as the integer 0.

### C09 Metrics are isolated by key and type - proved

Processing a message for key k and type t does not change what is stored (and later reported) for any other key, nor for the same key under another built-in type.

* Quantified over: every state and every message.
* Modelled (Model/Processor): all handlers.
* Proof: frame lemmas per handler over every state; `C09_reported` pushes them through `flush`.
* Theorems:
  - `C09_other_keys`: a message for key `k` leaves everything stored for another key unchanged: counter, timer, meter, plugin metric and the gauge readings, in every state.
  - `C09_other_types`: a message of one type leaves the collections of all other built-in types unchanged, and a message of a built-in type leaves the plugin metrics unchanged.
  - `C09_reported`: what the next flush reports for a counter does not depend on a message for another key or of another type (only its timestamp can, through the clock).

### C10 Malformed values leave aggregates untouched - proved

A counter, timer, gauge or meter message whose value is not a float literal changes no aggregate of any kind: counters and timers log a bad line (yet are still counted in receive statistics); gauges and meters log and then raise, without being counted.

* Quantified over: every state, key and non-numeric value text.
* Modelled (Model/Processor): the error branches of the four handlers.
* Proof: computation of `process` on messages of the given shape, for every state and class-independent part.
* Theorems:
  - `C10_counter_timer`: a counter or timer message whose value is not a number is logged as bad, changes no aggregate, raises nothing, and is counted in the receive statistics.
  - `C10_gauge_meter`: a gauge or meter message whose value is not a number is logged as bad and then raises `UnboundLocalError`; it changes no aggregate and is not counted.
  - `C10_gauge_meter_colon`: a gauge or meter message whose value contains a colon is logged as bad, changes no aggregate, raises nothing and is counted.

### C11 Bad sample rates never corrupt a counter - proved

A counter message whose third field does not start with '@' followed by digits/dots is logged and discarded; one whose rate text is not a number or is zero raises, and in every such case no counter's value changes (at most the key starts existing with value 0).

* Quantified over: every state, key, value and third field.
* Modelled (Model/Processor): the error branches of the four handlers.
* Proof: computation of `process` on messages of the given shape, for every state and class-independent part.
* Theorems:
  - `C11_no_rate`: a counter message whose third field does not start with `@` and a digit or dot is logged as bad and changes no aggregate.
  - `C11_bad_rate`: a counter message whose rate text is not a number, or is a zero, raises (`ValueError` or `ZeroDivisionError`); the value of no counter changes, at most the key starts to exist with value 0, and no other aggregate changes.

### C12 Timer summary is the order statistic it claims - proved

For any non-empty finite set of durations of a timer, flush(percent=90) reports count = number of durations, lower = least, upper = greatest, upper_90 = the greatest of the `index` smallest durations and mean = arithmetic mean of these, where index = count - round(count/10); lower <= mean <= upper_90 <= upper.

* Quantified over: every finite list of durations in any arrival order.
* Modelled (Model/Processor): `flush_timer_metrics` with sort, threshold, slice, mean.
* Proof: sortedness of `mergeSort`, order statistics over rationals, induction over histories for the durations held.
* Theorems:
  - `C12_timer_section`: after any history of messages and flushes, a flush emits (after the counters) exactly one group of five datapoints for each timer that received durations since the last flush, nothing for other timers, and the group of a timer with finite durations is their order-statistic summary.
  - `C12_ordered`: in such a summary the values are ordered: lower ≤ mean ≤ upper_pct ≤ upper; every duration lies between lower and upper; and as many durations as are kept lie at or below upper_pct.
  - `C12_keep_90`: the number kept at the default percentage 90 is the count minus a tenth of it, rounded.

### C13 Each duration is reported in exactly one flush - proved

After a flush a timer holds nothing: the next flush reports only durations received in between, and emits nothing at all for a timer that received none; the reported counts over all flushes plus the pending ones equal the accepted timer messages.

* Quantified over: every sequence of messages and flushes.
* Modelled (Model/Processor): timers over histories of messages and flushes.
* Proof: induction over histories.
* Theorems:
  - `C13_stored_since_flush`: after any history of messages and flushes the durations held for a timer are exactly those received since the last flush, in order; so each duration is part of exactly one flush.
  - `C13_empty_after_flush`: right after a flush every timer is empty.

### C14 The last gauge datapoint of a flush is the latest reading - proved

In every flush, the last datapoint emitted for a gauge carries the most recently received value of that gauge; every gauge ever set is reported in every flush.

* Quantified over: every message history.
* Modelled (Model/Processor): the gauge deque.
* Proof: induction over histories: the deque is the list of accepted readings; the gauge phase emits it in order.
* Theorems:
  - `C14_last_reading`: in every completed flush the last datapoint named after a gauge carries the value of the last accepted reading of it (`m` is that message: no later one is a reading of the gauge), however long ago that was.

### C15 Gauge readings are reported once (refuted: backlog grows forever) - partial

A user expects one datapoint per gauge per flush. The code instead emits, in every flush, one datapoint per gauge message received since start-up.

* Quantified over: every message history.
* Modelled (Model/Processor): the gauge deque.
* Proof: induction over histories: the deque is the list of accepted readings; the gauge phase emits it in order.
* Note: False of the code as users expect it: the deque of gauge readings is never emptied (processor.py:201-203, 326-331), so every reading is emitted again by every flush. C15_backlog states what the code does; C15_refuted is the counterexample; C15_once_partial is the case of a single reading.
* Theorems:
  - `C15_backlog`: a completed flush reports a gauge once for every reading of it that was ever accepted, oldest first, however many flushes were made in between. (A counter whose key is `gauge.<key>.value` shares the name; it is excluded.)
  - `C15_once_partial`: the part of the user's expectation that holds: a gauge with a single accepted reading is reported once per completed flush. The full expectation - one datapoint per gauge, whatever was received - is refuted below.
  - `C15_refuted`: C15 is false of the code: after two readings and a flush, the next flush still emits two datapoints for the gauge.

### C16 Meters: lifetime count and interval rate - proved

Each meter report with a new timestamp emits count = sum of all marks so far and rate = marks since the previous report divided by the elapsed seconds (rounded to 6 digits); a report with an unchanged timestamp emits nothing and loses nothing.

* Quantified over: every sequence of marks and reports.
* Modelled (Model/Reporters, Processor): `MeterMetricReporter` and its use in the processor.
* Proof: induction over mark/report sequences (ghost sums), and over histories of the processor for the stored meter.
* Theorems:
  - `C16_report`: for a meter by itself: after any history of marks and reports, a report with a timestamp different from the last report emits the sum of all marks so far and the sum of the marks since the last effective report divided by the elapsed time, both rounded to six decimals. A report with the same timestamp emits nothing.
  - `C16_nothing_lost`: marks are never lost: whatever reports were made, the part already counted and the part still pending add up to all marks.
  - `C16_stored`: in the processor: let `h` be what happened to the meter `key` (accepted readings and flush times). If it was never marked it does not exist; otherwise the stored meter is one created (at some clock reading) by its first mark and run through the rest of its history.
  - `C16_flush`: in the processor: a completed flush emits under the meter's names exactly what its report emits: at most one count and one rate, with the values given by `C16_report`. (Counters whose keys are `meter.<key>.count` or `meter.<key>.rate` share the names; they are excluded.)

### C17 Flush self-accounting - proved

numStats equals the sum of the five flush.<kind>.count datapoints, and each flush.<kind>.count equals the number of metrics of that kind flushed.

* Quantified over: every reachable state.
* Modelled (Model/Processor): `flush`, `flush_metrics_summary`.
* Proof: computation of all phases over an arbitrary reachable state; uniqueness of names by prefix arguments.
* Theorems:
  - `C17_flush_counts`: a completed flush contains exactly one `statsd.flush.<kind>.count` for each kind, equal to the number of counters, of timers with durations, of gauge readings, of meters and of plugin metrics held when it began, and exactly one `statsd.numStats`, equal to their sum.

### C18 Receive accounting - proved

statsd.receive.<type>.count in a flush equals the number of messages of that type that were dispatched without raising since the previous flush, and types with none are absent.

* Quantified over: every message history.
* Modelled (Model/Processor): `process_message` accounting and summary.
* Proof: induction over histories of messages and flushes; `by_type` and `process_timings` have the same keys.
* Theorems:
  - `C18_receive_counts`: a completed flush reports `statsd.receive.<t>.count` once, with the number of messages of type `t` that were handled without an exception since the last completed flush, and not at all if there were none.

### C19 Sub-second flush intervals break the flush - proved

With an interval below 1000 ms (whole-second division gives 0) and at least one counter, flush raises ZeroDivisionError before emitting anything and the first counter's pending value is lost; with interval >= 1000 the counter phase never raises.

* Quantified over: every interval and state.
* Modelled (Model/Processor): `flush` with interval // 1000.
* Proof: computation on every state.
* Theorems:
  - `C19_subsecond`: with a flush interval below one second and a counter known, flush raises `ZeroDivisionError` before emitting anything, and the value of the first counter in iteration order is gone; all other state is kept (but for the clock readings).
  - `C19_whole_second`: with an interval of at least one second the counter phase never raises, whatever the counters hold.

### C20 All datapoints of a flush share one timestamp and known prefixes - proved

Every datapoint a flush emits for counters, timers, gauges, meters and its own statistics carries the integer timestamp read when the flush began, and its name starts with the namespace of its kind.

* Quantified over: every reachable state and clock.
* Modelled (Model/Processor): every datapoint constructor.
* Proof: membership analysis of all phases, including aborted flushes.
* Theorems:
  - `C20_timestamp_and_prefix`: every datapoint of a flush (completed or aborted) either was produced by a plugin metric for this flush, or carries the integer part of the clock reading made when the flush began and a name in the namespace of its kind: that of a stored counter, timer, gauge or meter, or the processor's own.

### C21 Metric listing is complete and sound - proved

get_metric_names returns, without repetition, exactly the keys for which a counter, timer, gauge, meter or plugin metric has been stored.

* Quantified over: every message history on a MessageProcessor.
* Modelled (Model/Processor): `get_metric_names`.
* Proof: induction over histories; the names are read off the message texts by the specification.
* Theorems:
  - `C21_listing`: after any history of messages and flushes the listing has no repetitions and contains exactly the names that some received message makes the processor remember.

### C22 Counter conservation under every schedule - proved

When flush generators (any number, overlapping) are advanced step by step, interleaved arbitrarily with message arrivals, the emitted stats_counts.<key> values plus the stored value always equal the accepted increments: nothing is lost or counted twice.

* Quantified over: every schedule of arrivals and generator steps.
* Modelled (Model/Generator): the `flush` generator as a step machine, any number of generators, arbitrary schedules.
* Proof: invariant over all schedules with a ghost list of blocks per key; sums in exact arithmetic.
* Theorems:
  - `C22_conservation`: in every schedule of arrivals, flushes started (any number of them at the same time) and generator steps, the accepted increments of a key can be cut into consecutive blocks such that the `stats_counts.<key>` values emitted or under way are exactly the totals of the blocks and the stored value is the total of the rest.
  - `C22_exact_balance`: with exact arithmetic, what was emitted, what is under way and what is stored add up to the sum of value/rate over all accepted increments, at every moment of every schedule.
  - `C22_at_rest`: when all flushes have ended or not begun, emitted and stored values add up.

### C23 A flush completes unless a metric name appears under it - proved

An uninterrupted flush does exactly what the atomic one does; every flush that keeps being advanced ends; if no new metric name, gauge reading or message type is stored while it is running (alone), it never fails with RuntimeError or KeyError of its own; if a new counter key is stored while the counter phase is running, the flush emits at most the rest of the group it is handing out, aborts with RuntimeError, and the remaining phases emit nothing.

* Quantified over: every schedule.
* Modelled (Model/Generator): as C22.
* Proof: simulation between the atomic `flush` and the step machine; a termination measure; an invariant for the absence of resizing; a stuck-state argument for the abort.
* Theorems:
  - `C23_uninterrupted`: a flush that is not interrupted does exactly what the atomic `flush` does: some number of steps leads to its result, with the same state, the same datapoints in the same order, and the same exception if it raises.
  - `C23_terminates`: whatever else happens, a flush that is advanced again and again ends, by exhaustion or by an exception.
  - `C23_no_abort`: if no arrival adds a metric name, a gauge reading or a message type while the flush is running (and it is the only flush running), it never fails with `RuntimeError` or `KeyError`, unless a plugin raises that itself.
  - `C23_new_counter_aborts`: if a counter not known before arrives while the counter phase of a flush is running, that flush emits at most the rest of the group it is handing out, in every continuation, and ends with `RuntimeError` as soon as it is advanced once more: the other counters, timers, gauges, meters, plugins and the summary are not reported by it.

### C24 Receive statistics survive concurrent arrivals (refuted) - partial

A user expects every processed message to appear in some receive.<type>.count. A message processed while the summary is being emitted is dropped from the statistics by the final clear. Exactly those are missed that arrive between the flush's reading of their type's count and the end of the flush, if no two flushes report at once and no new type arrives meanwhile. In every schedule, what is handled is what is stored and what was wiped.

* Quantified over: every schedule.
* Modelled (Model/Generator): as C22.
* Proof: invariant over all schedules with the stated restriction; the counterexample is evaluated by the kernel.
* Note: False of the code: a message handled while flush_metrics_summary is emitting the receive statistics is wiped by the final clear without having been reported (processor.py:359-372). C24_refuted is a concrete schedule; C24_receive_partial proves the balance for schedules in which nothing arrives and no other flush advances during that loop. C24_missed counts the messages lost when messages of known types do arrive during the loop. In every schedule: counts are stored or wiped (C24_wiped), and what is reported is what flushes read (C24_read), so C24_balance. C24_twice_refuted: counts can also be reported twice, when a flush that has read them fails because a new type arrived.
* Theorems:
  - `C24_missed`: under arrivals: whenever no flush is reporting the receive statistics, the reported counts of a type, the count stored and the messages of that type that arrived between a flush's reading of the count and its end make up the messages handled: exactly those are missed. No two flushes report at the same time, and what arrives meanwhile has a type of which there is a count.
  - `C24_wiped`: in every schedule: the messages of a type handled are those whose count is stored and those whose count was wiped.
  - `C24_read`: in every schedule, of any number of flushes at the same time, completed or not: whenever no flush is reporting the receive statistics, the reported counts of a type are the counts that flushes read.
  - `C24_balance`: in every schedule: what is reported, stored and wiped without having been read make up what was handled and read.
  - `C24_twice_refuted`: refuted in the other direction: a count can be reported twice, when the flush that reads it fails.
  - `C24_receive_partial`: the part that holds: if nothing arrives and no other flush is advanced while one is reporting the receive statistics, then whenever none is doing so, the reported counts of a type plus the count stored for the next flush are the number of messages of that type handled. (Missing: the same without that restriction, which is false.)
  - `C24_refuted`: C24 is false of the code: a message handled while the receive statistics are being emitted is in no report, and it is not stored for the next flush either.

### C25 Configurable counters and gauges report the latest value - proved

On a ConfigurableMessageProcessor each flush emits, for every counter key ever received, the integer part of the last accepted value, and for every gauge key the last accepted value, once each, under the configured prefix.

* Quantified over: every message history.
* Modelled (Model/Configurable, Reporters): `ConfigurableMessageProcessor`.
* Proof: induction over histories for the last accepted values; the phases computed for arbitrary dicts.
* Note: Readings are those whose first field parses as a float; the sample rate is ignored by this processor.
* Theorems:
  - `C25_latest`: a completed flush consists of a counter section, timers, a gauge section and the rest. The counter section has, for every counter ever received and once, the integer part of its last accepted value; the gauge section the last accepted value of every gauge ever received, once.

### C26 One non-finite counter value poisons all later flushes - proved

A user expects flush to survive any accepted message. On a ConfigurableMessageProcessor a counter message with value nan or inf is accepted, and then every flush raises in the counter phase until a finite value for that key arrives; with finite values only, the counter phase never raises.

* Quantified over: every message history.
* Modelled (Model/Configurable, Reporters): `ConfigurableMessageProcessor`.
* Proof: induction over histories for the last accepted values; the phases computed for arbitrary dicts.
* Note: C26_poison and C26_survives (exact arithmetic, no plugins) prove the statement; C26_refuted shows that the expectation named in it fails.
* Theorems:
  - `C26_poison`: as long as the last accepted value of some counter is nan or infinite, every flush raises, and nothing but counter values comes out of it.
  - `C26_survives`: without plugins, and with finite last counter values and durations, a flush completes (in exact arithmetic).
  - `C26_refuted`: the expectation: a flush survives any accepted messages. False: `a:nan|c` is accepted (no bad message, no exception), and the flush after it raises.

### C27 Internal prefix rule - proved

The configurable processor's self statistics use internal_metrics_prefix if given, else message_prefix + '.statsd.', else 'statsd.'; metric names are prefix + '.' + key + suffix, with no leading dot for an empty prefix.

* Quantified over: every prefix pair and key.
* Modelled (Model/Configurable, Reporters): `ConfigurableMessageProcessor`.
* Proof: induction over histories for the last accepted values; the phases computed for arbitrary dicts.
* Theorems:
  - `C27_names`: every datapoint of a flush of a configurable processor, complete or not, has the flush's timestamp and is named by prefix, key and suffix for a key received with the suffix's type, or is a self statistic, whose name starts with the internal prefix as given, or made of the message prefix; or a plugin's metric emitted it.

### C28 Metric listing works on the configurable processor (refuted) - partial

A user expects get_metric_names (HTTP /list_metrics) to list gauges on the configurable processor. It raises ValueError whenever a gauge key's length is not 2, and otherwise lists the key's second character.

* Quantified over: every set of gauge keys.
* Modelled (Model/Configurable): `get_metric_names` on a dict of gauges.
* Proof: induction over the keys.
* Note: The expectation is false of the code: C28_refuted. C28_listing_partial says exactly what the inherited get_metric_names does with the gauge dict (processor.py:117).
* Theorems:
  - `C28_listing_partial`: the metric listing of a configurable processor raises ValueError if a gauge was received whose name does not have exactly two characters. Otherwise it lists the timers, counters, meters and plugin metrics, and for each gauge the second character of its name.
  - `C28_refuted`: the expectation: every received gauge is listed. False: after `load:1|g` the listing raises.

### C29 Configurable timers report true statistics - proved

A timer report emits min, max and mean of exactly the non-negative durations since the last report, count = all durations ever received, rate = durations in this period / elapsed time (0 if none elapsed), then starts a new period; min <= mean <= max.

* Quantified over: every sequence of updates and reports.
* Modelled (Model/Reporters, Histogram, Configurable): `TimerMetricReporter`.
* Proof: induction over update/report sequences on top of the histogram theorems C31-C34.
* Note: Exact arithmetic for the values; sqrt is uninterpreted, the draws of the reservoir arbitrary. C29_flush places the report in the flush of a processor.
* Theorems:
  - `C29_report`: the report of a timer after any updates and reports.
  - `C29_flush`: in a processor. If the processor has received a duration for `key`, a completed flush contains the report of the durations in its period; the period starts at the last flush, or when the first duration came.

### C30 Logging processor is transparent - proved

LoggingMessageProcessor emits exactly the datapoints and makes exactly the state changes of the configurable processor, and logs one 'In' line per dispatched message and one 'Out' line per emitted datapoint, in order.

* Quantified over: every message and state.
* Modelled (Model/Configurable): `LoggingMessageProcessor` (process and the wrapped generator).
* Proof: bisimulation over all schedules; the log is a function of the schedule's emissions.
* Theorems:
  - `C30_transparent`: a server around a logging processor goes through every schedule of arrivals and concurrent flushes exactly as one around the configurable processor, and its log has an `In` line for every message that parsed and an `Out` line for every datapoint, in order.
  - `C30_process`: per message, the outcome (the reports of bad messages and the exceptions) is the same too.
  - `C30_out_lines`: the `Out` lines are exactly the lines for the emitted datapoints, one each, in the order of emission.
  - `C30_logger`: the constructor rejects a logger without a callable `info`.

### C31 Running variance is the sample variance - proved

For every non-empty sequence of non-negative values the histogram's variance is sum((x-mean)^2)/(n-1) (0 for n=1). For sequences with negative values this fails: the code uses mean == -1 as its 'unset' marker.

* Quantified over: every finite sequence of rationals.
* Modelled (Model/Histogram, Sample): `HistogramMetricReporter` over a `UniformSample`.
* Proof: Welford invariant (induction, field arithmetic); index arithmetic and interpolation over sorted lists; induction over updates and clears.
* Note: Exact arithmetic. The claimed failure for negative values is C31_marker_refuted; C31_variance gives the exact condition under which the result is right.
* Theorems:
  - `C31_variance`: In exact arithmetic the running variance is the sample variance of the values since the last clear, unless the mean of a proper initial part of them is exactly -1.
  - `C31_nonnegative`: In particular for non-negative values.
  - `C31_marker_refuted`: Without that condition it is false: after -1 the code believes that it has seen nothing, and the values -1, 5 get variance 0 instead of 18.

### C32 Percentiles are safe, in range and monotone - proved

For every non-empty sample and every quantile p, percentiles returns without error a value between the sample's least and greatest values, and is non-decreasing in p.

* Quantified over: every sample and every rational quantile.
* Modelled (Model/Histogram, Sample): `HistogramMetricReporter` over a `UniformSample`.
* Proof: Welford invariant (induction, field arithmetic); index arithmetic and interpolation over sorted lists; induction over updates and clears.
* Theorems:
  - `C32_percentiles`: Once values have been added, `percentiles` succeeds for every list of quantiles and returns one score for each. Each score lies between the least and the greatest value held by the sample; scores are non-decreasing in the quantile. At the quantile `k/(m+1)` of `m` held values the score is the `k`-th smallest of them.

### C33 Histogram bins account for every sample - proved

When the sample has at least two different values every value falls in an existing bin and the bins sum to the sample size; when all values are equal, histogram() (HTTP timer page) raises ZeroDivisionError.

* Quantified over: every sample and bin count >= 1.
* Modelled (Model/Histogram, Sample): `HistogramMetricReporter` over a `UniformSample`.
* Proof: Welford invariant (induction, field arithmetic); index arithmetic and interpolation over sorted lists; induction over updates and clears.
* Theorems:
  - `C33_bins`: When the sample holds at least two different values, `histogram` succeeds for any positive number of bins: bin `j` counts exactly the held values in the `j`-th part of the range, and the bins add up to the number of held values.
  - `C33_sturges`: `histogram()` itself uses Sturges' number of bins, which is positive.
  - `C33_equal_values`: When all held values are equal, `histogram()` raises `ZeroDivisionError`, whatever the number of bins.

### C34 Histogram extremes and mean - proved

min, max and mean of a histogram are those of all values since the last clear, whatever the reservoir kept.

* Quantified over: every sequence of updates and clears.
* Modelled (Model/Histogram, Sample): `HistogramMetricReporter` over a `UniformSample`.
* Proof: Welford invariant (induction, field arithmetic); index arithmetic and interpolation over sorted lists; induction over updates and clears.
* Theorems:
  - `C34_extremes`: `max` and `min` are the greatest and the least of all values since the last clear (other than nan), also of those the reservoir dropped, in any float arithmetic; both are 0 when there are none.
  - `C34_mean`: In exact arithmetic `mean` is the mean of all values since the last clear.

### C35 Reservoir holds distinct stream positions - proved

A uniform sample of capacity n holds min(n, seen) values, at distinct positions of the stream; while at most n values were seen it is exactly the stream in order. This holds for every outcome of the random generator.

* Quantified over: every stream, capacity and random outcome.
* Modelled (Model/Sample): `UniformSample`.
* Proof: a ghost list of stream positions, induction over draws; counting draw sequences by induction on the stream length.
* Theorems:
  - `C35_positions`: Whatever the random generator returns, a uniform sample of capacity `n` holds `min(n, seen)` of the values seen since the last clear, taken at different positions of the stream; while at most `n` values have been seen it is the stream itself, in order.

### C36 Reservoir sampling is uniform - proved

Among all equally likely sequences of draws, each of the N >= n stream positions is retained in exactly n/N of them.

* Quantified over: every capacity, stream length and position.
* Modelled (Model/Sample): `UniformSample`.
* Proof: a ghost list of stream positions, induction over draws; counting draw sequences by induction on the stream length.
* Note: The draws are the residues r_k < k, taken as equally likely; C164 has the bias of randint(1, maxint) % k.
* Theorems:
  - `C36_outcomes`: The outcomes counted below are all the sequences of reduced draws `r_k < k`, each once.
  - `C36_uniform`: Each of the `N ≥ n` stream positions is retained in exactly `n/N` of the `N!` equally likely outcomes.
  - `C36_subsets`: Moreover every set of `n` positions is retained in the same number of outcomes, `n!·(N-n)!`.
  - `C36_kept`: Retained positions are those of `C35`: the sample of any stream holds the values at `keptPositions`.

### C37 Decaying sample keeps the highest priorities - proved

An exponentially decaying sample never exceeds its size, only holds values of the stream, keeps its entries sorted by priority, and holds the entries with the greatest priorities seen since the last clear.

* Quantified over: every stream, clock and random outcome.
* Modelled (Model/ExpDecay, Bisect): `ExponentiallyDecayingSample`.
* Proof: invariant: the entries are the top weights of the offered ones, priorities relative to the landmark; correctness of the binary search on sorted lists.
* Note: Exact arithmetic over an ordered field with any positive exp satisfying exp(a+b)=exp(a)exp(b); Real.exp is one (realExp).
* Theorems:
  - `C37_top`: At every moment the decaying sample is the list of the values with the greatest weights offered since the last clear: what it holds and what it dropped together are everything offered, nothing dropped outweighs anything held, it holds `min(size, offered)` values, in increasing order of weight, and each stored priority is the weight seen from the current landmark.
  - `C37_errors`: An update fails only when the random draw is zero or the sample has size zero.

### C38 Rescaling does not change the sample - proved

Rescaling to a new landmark keeps exactly the same multiset of values in the same priority order, and every stored priority becomes what it would have been had the landmark been used from the start.

* Quantified over: every state, landmark and alpha.
* Modelled (Model/ExpDecay, Bisect): `ExponentiallyDecayingSample`.
* Proof: invariant: the entries are the top weights of the offered ones, priorities relative to the landmark; correctness of the binary search on sorted lists.
* Theorems:
  - `C38_rescale`: Rescaling any reachable sample to any landmark keeps the same values in the same order, and turns every priority into the one relative to the new landmark.
  - `C38_landmark_free`: The choice of landmarks never shows: two samples with different starting landmarks, and hence with different rescaling times, hold the same values in the same order after the same updates.

### C39 Moving average stays in the hull of the rates - proved

For 0 <= alpha <= 1, the rate after any ticks lies between the least and greatest instantaneous rates; with a constant rate it equals it; after k idle ticks it is the previous rate times (1-alpha)^k.

* Quantified over: every sequence of updates and ticks.
* Modelled (Model/Ewma): `Ewma`.
* Proof: closed form by induction over ticks; convexity; the constants with `Real.exp`.
* Theorems:
  - `C39_weights`: The rate is the exponentially weighted mean of the rates of the completed intervals: with `k+1` intervals of rates `r₀ … r_k` it is `(1-α)^k·r₀ + Σ α(1-α)^(k-j)·r_j`, and 0 before the first tick.
  - `C39_hull`: For `0 ≤ α ≤ 1` the rate lies between any bounds of the interval rates.
  - `C39_constant`: With a constant rate the moving average is that rate.
  - `C39_idle`: After any tick, `k` further ticks without events multiply the rate by `(1-α)^k`.
  - `C39_alphas`: The decay factors of the one, five and fifteen minute averages are strictly between 0 and 1, and a longer window gives a smaller factor.

### C40 Distinct counter's window is exact - proved

With a non-decreasing clock, distinct(since) after any history equals distinct(since) of a fresh counter fed only the items seen after `since`: items outside the window have no influence.

* Quantified over: every history, hash tables and window start >= 0.
* Modelled (Model/Distinct): `SBoxHash`, `zeros`, `SlidingDistinctCounter`, `DistinctMetricReporter`.
* Proof: the bucket time is the time of the last sighting at that level (induction over sightings); runs of levels; bit arithmetic for `zeros` and the 32-bit mask.
* Theorems:
  - `C40_window`: after any history made with a clock that does not run backwards, the count since `since` is the one of a fresh counter that was given only the sightings after `since`.
  - `C40_value`: what the count is. Each hash function contributes the length of the unbroken run of levels, from 0, that some item seen after `since` falls into; the estimate is computed from the mean of these runs.
  - `C40_no_hashes`: without hash functions there is no mean: ZeroDivisionError.

### C41 Distinct counts are order-insensitive, duplicate-insensitive and window-monotone - proved

Within the window, neither the order nor the repetition of items changes the estimate; the estimate never decreases when items are added, and count_1min <= count_1hour <= count_1day <= count.

* Quantified over: every history.
* Modelled (Model/Distinct): `SBoxHash`, `zeros`, `SlidingDistinctCounter`, `DistinctMetricReporter`.
* Proof: the bucket time is the time of the last sighting at that level (induction over sightings); runs of levels; bit arithmetic for `zeros` and the 32-bit mask.
* Theorems:
  - `C41_set_only`: only the set of items seen in the window matters, neither their order nor their number of sightings.
  - `C41_monotone`: more items never make the estimate smaller.
  - `C41_windows`: a longer window never counts less, whatever the state of the counter.
  - `C41_flush`: every flush reports the total, the day, the hour and the minute in this order, none smaller than the next (from one day after the epoch on).

### C42 Distinct counter never indexes out of range - proved

The hash of every item is below 2^32, zeros(n) is the number of trailing zero bits of n (0 for n = 0), and add always hits an existing bucket.

* Quantified over: every item and table.
* Modelled (Model/Distinct): `SBoxHash`, `zeros`, `SlidingDistinctCounter`, `DistinctMetricReporter`.
* Proof: the bucket time is the time of the last sighting at that level (induction over sightings); runs of levels; bit arithmetic for `zeros` and the 32-bit mask.
* Theorems:
  - `C42_hash`: hashes have 32 bits.
  - `C42_zeros`: `zeros` counts the trailing zero bits.
  - `C42_zeros_unique`: and no other number is that count.
  - `C42_add`: with at least one bucket, any sequence of additions to a fresh counter succeeds, and the shape of the counter stays.
  - `C42_no_buckets`: without buckets every addition raises IndexError.
  - `C42_one_bucket`: an addition sets, for each hash function, the bucket of the item's level to the time, and nothing else.
  - `C42_reporter`: a reporter never fails on a message, however many it has seen before.

### C43 Empty window is reported as zero (refuted) - partial

A user expects a window without items to count 0; the estimate is 1 whenever no bucket is inside the window.

* Quantified over: every counter state with an empty window.
* Modelled (Model/Distinct): `SBoxHash`, `zeros`, `SlidingDistinctCounter`, `DistinctMetricReporter`.
* Proof: the bucket time is the time of the last sighting at that level (induction over sightings); runs of levels; bit arithmetic for `zeros` and the 32-bit mask.
* Note: Refuted: the full statement is false of the code. C43_refuted gives a counter that saw nothing and reports 1; C43_empty_window_partial shows every empty window is estimated as 1.
* Theorems:
  - `C43_empty_window_partial`: a window without any sighting is always estimated as 1.
  - `C43_refuted`: C43 is false: a counter that never saw anything reports 1 distinct item.

### C44 SLI counts are exact and reset at flush - proved

Each flush of an SLI metric reports count = events since the previous flush, error = those that were errors, and count_<label> = the non-error events satisfying the label's condition; then all restart at 0.

* Quantified over: every sequence of events and flushes and every condition set.
* Modelled (Model/Sli, Fnmatch): `SLIMetricReporter`, the conditions, the rule lines of `sli_plugin.py`.
* Proof: induction over events; exact rationals for the conditions; inversion of the line matcher against an independent grammar.
* Theorems:
  - `C44_flush`: after any sequence of events and flushes, a flush reports the events accepted since the previous flush: all of them, the errors among them, and for each label those that satisfy its condition (in the order of Python's dictionary, here any).
  - `C44_reset`: a flush leaves the metric as it was when created.
  - `C44_accepted`: no accepted event raises.

### C45 Malformed SLI events change nothing - proved

An SLI message whose size or value is not a float raises before any count changes; 'error' is the only non-numeric value accepted.

* Quantified over: every state and field list.
* Modelled (Model/Sli, Fnmatch): `SLIMetricReporter`, the conditions, the rule lines of `sli_plugin.py`.
* Proof: induction over events; exact rationals for the conditions; inversion of the line matcher against an independent grammar.
* Theorems:
  - `C45_malformed`: an event whose size or value is not a number (the value may also be `error`) raises `ValueError` and changes nothing.
  - `C45_counted`: every other event is counted.

### C46 SLI conditions mean what they say - proved

above v s holds iff value > v + s*size, below iff value < v + s*size, between l h iff l < value < h; an event cannot satisfy above and below of the same line; build_metric gives a metric exactly the conditions of the matching patterns.

* Quantified over: every value, size and threshold.
* Modelled (Model/Sli, Fnmatch): `SLIMetricReporter`, the conditions, the rule lines of `sli_plugin.py`.
* Proof: induction over events; exact rationals for the conditions; inversion of the line matcher against an independent grammar.
* Theorems:
  - `C46_above`: `above` compares with the line `v + s * size`.
  - `C46_below`: `below` compares with the same line.
  - `C46_between`: `between` excludes both ends, and ignores the size.
  - `C46_exclusive`: no value, not even a special one, is above and below the same line (whatever the rounding).
  - `C46_nan`: not-a-number satisfies no condition.
  - `C46_build`: a new metric has a condition for a label iff some pattern matching its path has one, and it is that of such a pattern.
  - `C46_build_fresh`: a metric starts with all counts zero, under the prefix and name joined by one dot.

### C47 Routing is sequential rewriting - proved

The list of metrics reaching the processor is obtained by applying the rules one after the other: each rule replaces each metric that matches its condition by the target's outputs and keeps the others, order preserved; with no rules, messages pass through unchanged.

* Quantified over: every rule list and message.
* Modelled (Model/Router, Fnmatch, Text): `Router`: rules, conditions, targets, rule texts; `fnmatch`.
* Proof: the nested loops are proved equal to the specification `Spec.route` by induction over rules and pending metrics; conditions by induction on nesting; glob matching, with `*`, `?` and bracket classes, against the relations `Reads`, `Fits` and `ShellMatch`.
* Note: Regular expressions of rewrite rules are arbitrary functions. Rules are Sound: no character class in patterns, no redirect without a service (C47_inert_raises shows what that does), substitution that does not raise.
* Theorems:
  - `C47_route`: with rules that cannot raise, `process_message` sends away exactly what the specification says, and hands exactly the rewritten metrics, in order, to the processor.
  - `C47_calls`: seen by a processor that writes down its calls: each rewritten metric arrives once, in order, with its own text.
  - `C47_first_exception`: an exception of the processor ends the deliveries: the metrics before it were processed, the ones after it are lost.
  - `C47_no_rules`: without rules a message is processed as if there were no router: same state, same exception.
  - `C47_inert_raises`: what happens without the hypotheses: a matching redirect of a router without a service raises `TypeError`; the processor sees nothing of the message.

### C48 Drop stops processing - proved

A metric that reaches a matching drop rule never reaches the processor, and no later rule (hence no later redirect) sees it; metrics that never match a rule arrive unchanged.

* Quantified over: every rule list.
* Modelled (Model/Router, Fnmatch, Text): `Router`: rules, conditions, targets, rule texts; `fnmatch`.
* Proof: the nested loops are proved equal to the specification `Spec.route` by induction over rules and pending metrics; conditions by induction on nesting; glob matching, with `*`, `?` and bracket classes, against the relations `Reads`, `Fits` and `ShellMatch`.
* Theorems:
  - `C48_drop`: behind a drop rule the remaining rules behave as if the matching metrics had never existed: they are neither delivered nor redirected.
  - `C48_dropped`: if the drop rule matches all that is left, the message has no effect on the processor.
  - `C48_unmatched`: a metric that no rule's condition holds of arrives unchanged, and nothing is redirected.

### C49 Condition algebra - proved

'any' holds of all metrics, 'metric_type t...' iff the type is listed, 'not c' iff c fails, to any nesting depth, as parsed from the rule text.

* Quantified over: every condition text.
* Modelled (Model/Router, Fnmatch, Text): `Router`: rules, conditions, targets, rule texts; `fnmatch`.
* Proof: the nested loops are proved equal to the specification `Spec.route` by induction over rules and pending metrics; conditions by induction on nesting; glob matching, with `*`, `?` and bracket classes, against the relations `Reads`, `Fits` and `ShellMatch`.
* Theorems:
  - `C49_condition`: a text whose words express a condition builds a condition function that never raises (on patterns without classes) and decides exactly that condition.
  - `C49_not`: `not` in front of a text negates the condition the rest of the text expresses (texts without tabs and the like).
  - `C49_depth`: to any nesting depth: `not not … any` holds iff the number of `not`s is even.

### C50 set_metric_type is honoured by redirects (refuted) - partial

A user expects a message redirected after set_metric_type t to carry type t. The rebuilt text always carries the original type field; only the local processor sees the new type.

* Quantified over: every metric.
* Modelled (Model/Router, Fnmatch, Text): `Router`: rules, conditions, targets, rule texts; `fnmatch`.
* Proof: the nested loops are proved equal to the specification `Spec.route` by induction over rules and pending metrics; conditions by induction on nesting; glob matching, with `*`, `?` and bracket classes, against the relations `Reads`, `Fits` and `ShellMatch`.
* Note: False of the code: rebuild_message ignores its type argument (processor.py:69-70), so a redirect after set_metric_type sends the original type (C50_refuted). C50_original_type states what is sent for every rule list; C50_redirect_type_partial is the case without set_metric_type.
* Theorems:
  - `C50_original_type`: whatever the rules do, a redirected text parses to the type and the fields of the message that came in: `set_metric_type` does not reach it.
  - `C50_redirect_type_partial`: full statement: a metric of type `t` reaching a redirect is redirected as a text of type `t`. This theorem: it is, if no rule sets a type. Missing: rules with `set_metric_type`, for which the statement is false (`C50_refuted`).
  - `C50_refuted`: C50 is false: with the rules above, `a:1|c` reaches the processor as a timer but is redirected as the text `a:1|c`, a counter.

### C51 TCP redirect framing - proved

Every non-empty line written by the TCP redirect leaves with a final CRLF and never a doubled terminator; a stream of written lines with no CRLF inside is split by the receiving line protocol into exactly these lines, for every chunking of the byte stream.

* Quantified over: every sequence of lines and every chunking.
* Modelled (Model/Tcp): TCP redirect client, Twisted's `LineReceiver`, the server protocols.
* Proof: invariants over all event schedules; splitting by CRLF proved independent of the chunking.
* Note: The receiver is Twisted's LineReceiver with a handler that returns None; MAX_LENGTH (16384) bounds the lines. The server's own TCP handler returns a true value: see C80.
* Theorems:
  - `C51_write`: a non-empty line has one body (the line without its terminator), and an unpaused write sends exactly the body and one CRLF.
  - `C51_not_doubled`: a line that ends in CRLF is sent as it is.
  - `C51_stream`: a stream of written lines with no CRLF inside, in any chunks, is split by a line receiver (whose handler returns nothing) into exactly the bodies of these lines.
  - `C51_empty`: an empty line raises `IndexError` and sends nothing. (A rebuilt message is never empty.)

### C52 TCP redirect resumes after back-pressure (refuted) - partial

A user expects writes to flow again after resumeProducing. resumeProducing calls the log module itself, raises TypeError first, and the connection stays paused: every later message is dropped and counted as dropped.

* Quantified over: every schedule of pause, resume and write.
* Modelled (Model/Tcp): TCP redirect client, Twisted's `LineReceiver`, the server protocols.
* Proof: invariants over all event schedules; splitting by CRLF proved independent of the chunking.
* Note: False of the code: resumeProducing calls the log module (router.py:142-150). C52_refuted is the counterexample, C52_stuck what happens in every schedule, C52_flow_partial the case without a pause.
* Theorems:
  - `C52_resume_raises`: `resumeProducing` raises `TypeError` and changes nothing, on every connection.
  - `C52_flow_partial`: full statement: after `resumeProducing` writes flow again. This theorem: as long as the transport never pauses the connection, every line is sent. Missing: connections that were paused, for which the statement is false (`C52_stuck`, `C52_refuted`).
  - `C52_stuck`: once paused, a connection stays paused whatever pauses, resumes and writes follow: nothing more is sent and every written message is dropped and counted. Only a new connection ends this.
  - `C52_refuted`: C52 is false: a message written after a pause and a resume is lost.
  - `C52_reconnect`: a new connection starts unpaused.
  - `C52_unconnected`: before the first connection, messages are lost without being counted.

### C53 Glob conditions - proved

Every pattern p has exactly one reading: '*' matches any text, '?' any one character, '[...]' one character of the listed characters and ranges, '[!...]' one character outside them (a ']' in front belongs to the list, a '[' that is never closed stands for itself), other characters themselves. path_like p holds of a key iff the key fits the reading; it raises iff a range is in the wrong order.

* Quantified over: every pattern and every key.
* Modelled (Model/Router, Fnmatch, Text): `Router`: rules, conditions, targets, rule texts; `fnmatch`.
* Proof: the nested loops are proved equal to the specification `Spec.route` by induction over rules and pending metrics; conditions by induction on nesting; glob matching, with `*`, `?` and bracket classes, against the relations `Reads`, `Fits` and `ShellMatch`.
* Theorems:
  - `C53_path_like`: every pattern has exactly one reading. If a class in it has a range in the wrong order, `path_like p` always raises; otherwise it never raises, and holds of a key iff the key fits the reading.
  - `C53_plain`: without brackets it never raises, and decides the shell match.
  - `C53_class`: with a character class `[abc]` or `[!abc]` in front: one character (not) in the class, then the rest of the pattern.
  - `C53_literal`: a pattern without special characters matches only itself.
  - `C53_prefix`: a trailing `*` is a prefix test.

### C54 Rule texts are validated - proved

A rules text yields a router iff every non-empty line has exactly one '=>', a known condition and a known target with the right number of arguments; otherwise construction raises the exception the first wrong line calls for; the number of rules equals the number of non-empty lines.

* Quantified over: every rules text.
* Modelled (Model/Router, Fnmatch, Text): `Router`: rules, conditions, targets, rule texts; `fnmatch`.
* Proof: the nested loops are proved equal to the specification `Spec.route` by induction over rules and pending metrics; conditions by induction on nesting; glob matching, with `*`, `?` and bracket classes, against the relations `Reads`, `Fits` and `ShellMatch`.
* Theorems:
  - `C54_rules`: a rules text builds exactly when every non-empty line expresses a rule, and then the rules are those of the non-empty lines, in order.
  - `C54_lines`: every text is such a sequence of lines.
  - `C54_count`: the number of rules is the number of non-empty lines.
  - `C54_faults`: every line expresses a rule or is wrong in exactly one way.
  - `C54_raises`: otherwise construction raises what the first wrong line calls for.

### C55 Ring lookup is total and order-independent - proved

On a ring with at least one node (and replica), get_node returns one of the ring's nodes, and depends only on the set of nodes, not on the order in which they were added.

* Quantified over: every node list, hash function and key.
* Modelled (Model/HashRing, Bisect): `ConsistentHashRing`, `ConsistentHashingClient`; MD5 is an arbitrary function.
* Proof: the ring is the sorted list of all replicas of the present nodes (invariant); `bisect_left` is the first entry at or after the position; owner as a minimum over entries.
* Theorems:
  - `C55_owner`: On a ring with at least one node, `get_node` returns the node found first, clockwise, from the key's position among the replicas of the nodes that are present, whatever operations led to the ring.
  - `C55_set_only`: Only the set of nodes matters: rings holding the same nodes agree on every key (also when they are empty or the key is not ASCII, where both raise).

### C56 Adding a node only attracts keys to it - proved

After add_node(n), get_node(k) is either what it was before or n, for every key.

* Quantified over: every ring, node and key.
* Modelled (Model/HashRing, Bisect): `ConsistentHashRing`, `ConsistentHashingClient`; MD5 is an arbitrary function.
* Proof: the ring is the sorted list of all replicas of the present nodes (invariant); `bisect_left` is the first entry at or after the position; owner as a minimum over entries.
* Theorems:
  - `C56_add`: Adding a node changes the owner of a key only by making the new node its owner.

### C57 Removing a node only moves its own keys - proved

After remove_node(n), every key that was not on n stays where it was, no key is on n, and removing a freshly added node restores every lookup.

* Quantified over: every ring, node and key.
* Modelled (Model/HashRing, Bisect): `ConsistentHashRing`, `ConsistentHashingClient`; MD5 is an arbitrary function.
* Proof: the ring is the sorted list of all replicas of the present nodes (invariant); `bisect_left` is the first entry at or after the position; owner as a minimum over entries.
* Theorems:
  - `C57_remove`: Removing a node leaves every key of another node where it was, and no key on the removed node.
  - `C57_restore`: Removing a freshly added node restores every lookup.

### C58 get_nodes lists all nodes starting at the owner (partly refuted) - partial

get_nodes(k) has no repetition, contains only ring nodes and, if the ring has at least two entries, starts with get_node(k). A user also expects every node to be listed; the loop never inspects the last ring entry, so a node whose only entry is there is missing, and a one-entry ring gives [].

* Quantified over: every ring and key.
* Modelled (Model/HashRing, Bisect): `ConsistentHashRing`, `ConsistentHashingClient`; MD5 is an arbitrary function.
* Proof: the ring is the sorted list of all replicas of the present nodes (invariant); `bisect_left` is the first entry at or after the position; owner as a minimum over entries.
* Note: False with one replica per node: the walk of get_nodes skips its last entry (C58_refuted). C58_walk_partial describes the walk for any replica count; C58_complete proves the full listing for two or more replicas (the default is 1024).
* Theorems:
  - `C58_walk_partial`: `get_nodes` walks the ring, which is a sorted list of entries, clockwise from the key's position, and lists each node where it first meets it; it stops just before the last entry of the walk. Hence it lists no node twice, and only present nodes; if the ring has at least two entries it starts with the owner of the key.
  - `C58_complete`: With at least two replicas per node (the default is 1024) the listing is complete: every present node is listed.
  - `C58_empty`: Without nodes there is nothing to walk: the listing raises ZeroDivisionError.
  - `C58_refuted`: With a single replica per node the last node of the walk is left out: a ring of one node lists none.

### C59 Sharded client sends each metric to one fixed server - proved

Each write of a message containing ':' reaches exactly one client, unchanged, and all messages with the same metric name reach the same client as long as the node set is unchanged; a message without ':' raises and reaches none.

* Quantified over: every message sequence.
* Modelled (Model/HashRing, Bisect): `ConsistentHashRing`, `ConsistentHashingClient`; MD5 is an arbitrary function.
* Proof: the ring is the sorted list of all replicas of the present nodes (invariant); `bisect_left` is the first entry at or after the position; owner as a minimum over entries.
* Note: Names are ASCII; the sharded client's errors (empty ring, index error of a bad metric line) are C59_errors.
* Theorems:
  - `C59_sharding`: For every non-empty set of clients there is one assignment of clients to metric names such that any sequence of writes delivers each message that has a `:` after an ASCII name once, unchanged, in order, to the client of its name, and nothing else anywhere. The assignment only depends on the set of clients.
  - `C59_errors`: A write raises nothing when the message is delivered; `ValueError` when it has no `:` or a name that is not ASCII.

### C60 Pending queue is bounded and FIFO - proved

Before the client is connected and resolved at most 1000 messages are retained, always the oldest ones, in order; later ones are dropped.

* Quantified over: every sequence of operations.
* Modelled (Model/Client): `DataQueue`, `TransportGateway`, `TwistedStatsDClient`, the reactor's call queue.
* Proof: invariant over all schedules of writes, connects, resolutions, disconnects and reactor turns.
* Theorems:
  - `C60_queue`: a data queue holds the first `limit` messages written since it was last flushed, in the order written, and a flush hands out exactly these.
  - `C60_bound`: in the client: at every moment at most 1000 messages are queued, and none once there is a transport and the host is resolved.

### C61 No loss, duplication or reordering through connect/resolve - proved

For every schedule of write, connect, host resolution, disconnect and reactor turns, the messages handed to the transport followed by those still pending are a duplicate-free, order-preserving selection of the messages written, missing only those written while 1000 were already pending. (A connect callback that itself writes to the client can overtake queued messages; even then nothing is lost or duplicated.)

* Quantified over: every schedule.
* Modelled (Model/Client): `DataQueue`, `TransportGateway`, `TwistedStatsDClient`, the reactor's call queue.
* Proof: invariant over all schedules of writes, connects, resolutions, disconnects and reactor turns.
* Theorems:
  - `C61_order`: whatever the schedule of writes, connections, disconnections, resolutions and reactor turns, the messages handed to transports, then those scheduled, then those queued, are exactly the accepted ones in the order they were written: those offered while the link was up or fewer than 1000 messages waited for it. The connect callback does not itself write to the client.
  - `C61_conserved`: even when the connect callback writes, nothing accepted is lost or duplicated.
  - `C61_drained`: once the link is up, enough turns of the reactor hand every accepted message to a transport, in order.
  - `C61_callback_overtakes_refuted`: C61 does not survive a connect callback that writes: its message overtakes the queued ones (protocol.py:205-214 calls the callback before `_flush_items`).
  - `C61_destination`: datagrams only go to addresses the host was resolved to, over transports the client was connected with.

### C62 Completion callbacks - proved

Each message handed to the transport calls its callback exactly once with the byte count, or with None when the transport fails with a handled error - unless the callback itself raises one of these errors, in which case it is called a second time with None.

* Quantified over: every transport and callback behaviour.
* Modelled (Model/Client): `DataQueue`, `TransportGateway`, `TwistedStatsDClient`, the reactor's call queue.
* Proof: invariant over all schedules of writes, connects, resolutions, disconnects and reactor turns.
* Theorems:
  - `C62_callbacks`: the completion callbacks are called, datagram by datagram in the order sent: with the byte count, or with `None` for a handled failure of the transport, and once more with `None` if the callback raised a handled error when given the byte count.
  - `C62_once`: when the callbacks raise nothing and the transport fails only in handled ways, there is exactly one call per datagram with a callback.

### C63 Plain UDP client never raises socket errors - proved

UdpStatsDClient.write before connect or after disconnect sends nothing; while connected it makes exactly one sendto to the resolved address and returns None instead of raising on socket errors.

* Quantified over: every sequence of connect, disconnect and write.
* Modelled (Model/Client): `UdpStatsDClient`.
* Proof: induction over operation sequences.
* Theorems:
  - `C63_sends`: over any history the plain UDP client calls `sendto` exactly once, to the resolved address, for every write made between a `connect` and the next `disconnect`, and never otherwise.
  - `C63_unresolved`: an address that cannot be resolved is a `ValueError`, and only then does the constructor fail.
  - `C63_result`: what `write` returns: `None` when not connected or on a socket error, otherwise what `sendto` did.

### C64 Qualified names - proved

fully_qualify_name gives namespace + '.' + name for a non-empty namespace, name alone otherwise, and the namespace for a None name; distinct names stay distinct within a namespace.

* Quantified over: every namespace and name.
* Modelled (Model/Metrics): `Metrics`, `ExtendedMetrics`, metric objects.
* Proof: case analysis on calls; induction over call histories for the cached object.
* Theorems:
  - `C64_qualified`: the name under which a metric is sent is the namespace and the name joined by a dot; an empty or missing namespace and a missing name contribute nothing.
  - `C64_cases`: spelled out.
  - `C64_injective`: within one namespace, different names stay different, and with a non-empty namespace so does the missing name.

### C65 Client and server agree end to end - proved

For any legal metric names and integers, the messages written by Metrics.increment/decrement/gauge/meter/timing through an InternalClient are all accepted by a MessageProcessor, and the counter reported for a name is the sum of the increments minus the decrements.

* Quantified over: every sequence of calls.
* Modelled (Model/Metrics, Processor, Configurable): client calls end to end through `InternalClient`, or through a lossy network.
* Proof: induction over call sequences with the integer text round trip of C06.
* Note: Counters by integers, exact up to 2^53; floats of gauges, meters and timings are printed by an arbitrary function whose texts are numbers. Unsampled calls (rates: C66, C67, C70).
* Theorems:
  - `C65_accepted`: a base `Metrics` object that writes through an `InternalClient` into a new `MessageProcessor`, and any sequence of ordinary calls (increments, decrements, gauges, meters, timings, with legal names and without sampling, and whatever mixture of them is used for one name): every text that is written is accepted, without a complaint or exception.
  - `C65_counts`: and the counter reported for a name is the sum of its increments minus the decrements (as long as all partial sums stay within the integers that floats represent exactly).

### C66 Sampling decision and annotation - proved

A metric with sample rate r >= 1 sends every sample without annotation; with r < 1 it sends iff the random draw is at most r, appending '|@r'.

* Quantified over: every rate, draw and payload.
* Modelled (Model/Metrics): `Metrics`, `ExtendedMetrics`, metric objects.
* Proof: case analysis on calls; induction over call histories for the cached object.
* Theorems:
  - `C66_sampling`: the first call for a name, whichever method it is, writes its text if the rate is at least one, and at a lower rate writes it with the rate appended exactly if the random draw is at most the rate. (Extended counters, whose text is a running total: C68.)
  - `C66_no_connection`: without a connection nothing is written, whatever is called.

### C67 Each call uses its own sample rate (refuted) - partial

A user expects the sample_rate argument of each call to apply. The metric object is cached by name, so the rate (and kind) of the first call for a name applies for ever.

* Quantified over: every call sequence.
* Modelled (Model/Metrics): `Metrics`, `ExtendedMetrics`, metric objects.
* Proof: case analysis on calls; induction over call histories for the cached object.
* Note: False of the code as users expect it (C67_refuted, C67_kind_refuted): the cached object keeps the rate and class of the first call for a name. C67_first_rate states what the code does; C67_own_rate_partial proves the expectation for histories in which the calls for the name agree in kind and rate.
* Theorems:
  - `C67_own_rate_partial`: the part of the user's expectation that holds: after any history in which the calls for this name were of the same kind and rate (or there was none), a call is sampled by its own rate. The full expectation, for any history, is refuted below.
  - `C67_first_rate`: what happens instead: in any history, an increment is sampled by the rate of the very first call for its name, of whatever kind that was; its own rate is ignored.
  - `C67_refuted`: the user's expectation is false: the second increment below is to be sent at rate 1 and is not, because the first call for the name had a rate of 1/10.
  - `C67_kind_refuted`: kinds: a name first used for a counter cannot be used for a gauge: `gauge` raises.

### C68 Extended counters tolerate message loss - proved

ExtendedMetrics counters send running totals: whatever subset of messages is lost, after the last one arrives a configurable processor reports exactly increments minus decrements since the last clear.

* Quantified over: every call sequence and loss pattern.
* Modelled (Model/Metrics, Processor, Configurable): client calls end to end through `InternalClient`, or through a lossy network.
* Proof: induction over call sequences with the integer text round trip of C06.
* Theorems:
  - `C68_loss`: an `ExtendedMetrics` object that uses `key` for an integer counter only (other names in any way). Take any call on `key` that wrote a message, and after it only calls on other legal names. A configurable processor that received anything before that message, then the message, then any of the later messages (in any order, with any losses and repetitions), and flushes at any times, holds and reports exactly the increments minus the decrements since the last clear: what was lost or sampled away before does not matter.

### C69 timing() measures consecutive intervals - proved

With no explicit duration, successive timing() calls report intervals that exactly tile the time since reset_timing(): the durations sum to the elapsed time.

* Quantified over: every sequence of calls and clock readings.
* Modelled (Model/Metrics, Processor, Configurable): client calls end to end through `InternalClient`, or through a lossy network.
* Proof: induction over call sequences with the integer text round trip of C06.
* Note: Exact arithmetic; Metrics (not ExtendedMetrics), unsampled calls.
* Theorems:
  - `C69_tiling`: after `reset_timing` at `t0` (and any unsampled use before), the calls of `timing` without a duration report, with any other calls in between, durations `ds` (in milliseconds) that add up exactly to the time from `t0` to the last of them.

### C70 Small sample rates are understood by the server (refuted) - partial

A user expects the server to scale by the client's rate. Rates printed in exponent notation ('1e-05') are read by the server's '@([\d.]+)' as 1.

* Quantified over: every rate text.
* Modelled (Model/Metrics): `Metrics`, `ExtendedMetrics`, metric objects.
* Proof: case analysis on calls; induction over call histories for the cached object.
* Note: False of the code (C70_refuted): a rate that prints as 1e-05 is read as 1. C70_exponent states what the server reads; C70_plain_rate_partial proves the expectation for rates printed as digits and dots.
* Theorems:
  - `C70_text`: `sampledIncrement` is what an increment at a rate below one writes.
  - `C70_plain_rate_partial`: the part that holds: a rate written with digits and dots only is read by the server as itself. The full expectation, for every text of a rate, is refuted below.
  - `C70_exponent`: what happens to a rate written in exponent notation: the server takes the mantissa for the rate.
  - `C70_refuted`: the user's expectation is false: an increment of 1 sampled at a rate that prints as `1e-05` is read by the server as one at rate 1, so it counts 1 instead of 100000.

### C71 Command line overrides the config file (refuted for short options) - partial

An option given on the command line by its long name is never changed by the config file; one given by its short name is overwritten by the config file.

* Quantified over: every option set and config file.
* Modelled (Model/Options): `OptionsGlue`, `StatsDOptions`, the config file sections, `createService` destinations.
* Proof: induction over parsed options and file items.
* Note: Refuted: an option given by its short name is overwritten by the file (C71_refuted, C71_file_wins). Partial theorems: options given by their long names win.
* Theorems:
  - `C71_long_partial`: an option given by its long name keeps the value given last on the command line, whatever the configuration file says. Missing for the full claim (`C71_refuted`): the same for options given by their short names.
  - `C71_long_kept_partial`: an option given on the command line by its long name - any option, also those that collect several values - is not touched by the configuration file.
  - `C71_file_wins`: an option *not* given by its long name gets the value of the configuration file - the last in the main section if no carbon-cache section mentions it - even if it was given by its short name.
  - `C71_unknown`: an item of the file that names no option changes nothing.
  - `C71_refuted`: refuted: `-i 5000` on the command line and `flush-interval = 10000` in the file: the server takes 10000.

### C72 Counter reports are differences - proved

report_counters returns {} first and then, per key, the difference to the previous reading: over any run the differences sum to last minus first. If a reading contains a key the previous one lacked it raises KeyError, and from then on every call raises StopIteration.

* Quantified over: every sequence of readings.
* Modelled (Model/System): process.py: counters, meminfo, loadavg, netdev, connections.
* Proof: induction over the lines / readings; inversion of the field splitting.
* Theorems:
  - `C72_first`: the first report is empty.
  - `C72_difference`: afterwards, if the reading has no key the previous one lacked, the report has exactly its keys, with the difference to the previous reading.
  - `C72_sum`: over any run in which no reading has a key the previous one lacked, every report succeeds and the reported differences of an integer counter sum to its last reading minus its first.
  - `C72_new_key`: a reading with a key the previous one lacked raises `KeyError`, and every later call raises `StopIteration`, whatever the readings.
  - `C72_failure`: likewise one failure of the wrapped function is the last call that reaches it.

### C73 System file parsers - proved

parse_meminfo reports exactly the seven known labels with their unit applied and ignores all other lines; get_net_stats counts each stream connection once under its lower-cased status.

* Quantified over: every file content and connection list.
* Modelled (Model/System): process.py: counters, meminfo, loadavg, netdev, connections.
* Proof: induction over the lines / readings; inversion of the field splitting.
* Theorems:
  - `C73_meminfo`: if every line is about a known label, well formed, or about something else, the report has for each known label the amount of its last line, in bytes, and nothing else.
  - `C73_meminfo_error`: the first line that cannot be read makes it fail, with its exception.
  - `C73_meminfo_lines`: every line is of one of these sorts.
  - `C73_connections`: each stream connection is counted once, under its status in lower case; statuses without one are not reported.

### C74 Reactor inspector bookkeeping - proved

Whatever the reactor's delays, the answer taken from the queue never has an id greater than the current probe (the assertion never fails), and 'ok' is logged only if the reactor executed the current probe.

* Quantified over: every schedule of reactor executions.
* Modelled (Model/Report): `ReactorInspector` as a step machine against an arbitrary reactor.
* Proof: invariant over all histories.
* Theorems:
  - `C74_assertion`: whatever the reactor does and whenever, the assertion never fails.
  - `C74_ok`: `ok` is logged only for a probe the reactor executed, with the time that took since its request.
  - `C74_late`: likewise a late answer, which is one to an earlier probe than the current.
  - `C74_one_per_round`: each round of the loop logs one line and sets the gauge once.

### C75 Reporting service names and failures - proved

Each reported value is passed once to the report function, under the instance name prefix if set; a failing source reports nothing and does not stop later runs.

* Quantified over: every sequence of source outcomes.
* Modelled (Model/Report): `ReportingService`, its tasks and `wrapped`.
* Proof: induction over histories of runs, failures, starts and stops.
* Theorems:
  - `C75_calls`: over any sequence of outcomes of the wrapped function, the report function is called with exactly the metrics of the successful ones, in order, under the instance name if set - in each run up to a call that raises.
  - `C75_each_once`: with a report function that does not raise, each metric is reported exactly once.
  - `C75_failure`: a failing source reports nothing and does not change what the later runs report.

### C76 HTTP status threshold - partial

The status page says ERROR (and code 500) iff processing plus flushing time exceeds 0.7 times the flush interval - as numbers: the interval is in milliseconds and the times in seconds, so the check is 1000 times laxer than meant.

* Quantified over: every interval and durations.
* Modelled (Model/Http, Service): `httpinfo.py` status and metric pages.
* Proof: computation; case analysis on the processor class.
* Note: The threshold theorem is the statement; the check a reader would expect (both in seconds) is refuted (C76_refuted), with C76_sound_partial and C76_lax. Exact arithmetic.
* Theorems:
  - `C76_threshold`: with exact arithmetic the page says ERROR iff the two durations (in seconds) together exceed 0.7 times the interval *in milliseconds*, as numbers.
  - `C76_sound_partial`: an ERROR means that the durations exceed 0.7 times the interval in seconds. Missing for the full claim (`C76_refuted`): the page stays OK far beyond that.
  - `C76_lax`: the page cannot say ERROR before the durations exceed 700 times the interval.
  - `C76_refuted`: refuted: an interval of 10 seconds and 20 seconds of work, and the page says OK.

### C77 Monitor pings are answered, not counted - proved

A datagram or line equal to the monitor message is answered with the monitor response and never reaches the processor; every other one is scheduled for processing exactly once, and gets no answer.

* Quantified over: every data and configuration.
* Modelled (Model/Tcp): TCP redirect client, Twisted's `LineReceiver`, the server protocols.
* Proof: invariants over all event schedules; splitting by CRLF proved independent of the chunking.
* Note: At the level of the calls of datagramReceived and lineReceived. Over a TCP stream only the first ordinary line reaches lineReceived: see C80.
* Theorems:
  - `C77_datagrams`: over any sequence of datagrams, exactly those different from the monitor message are scheduled, once each and in order; the others are answered, once each.
  - `C77_line`: one line: the monitor message is answered and not scheduled; any other line is scheduled once and not answered.

### C78 A metric name belongs to one plugin for ever (refuted isolation) - partial

A user expects plugin metrics of different types under one name to be independent. Plugin metrics are stored by name only: the first type seen owns the name and receives all later messages of every plugin type.

* Quantified over: every message history.
* Modelled (Model/Plugins, Sli, Distinct, Processor): the shipped plugins inside the processor.
* Proof: induction over message histories; computation of the parse of the client's text.
* Note: Refuted: C78_refuted (an SLI message under a name first used with pd is not counted). C78_owner says who gets the message, C78_first who builds the metric; what holds of the isolation is C78_other_names_partial and C78_count_partial.
* Theorems:
  - `C78_owner`: once a name has a plugin metric, every message of any registered plugin type under this name is given to that metric, whatever plugin built it.
  - `C78_first`: the first message of a registered plugin type under a name makes that type's plugin build the metric, with the server's prefix and the plugin's name, and is then processed by it.
  - `C78_other_names_partial`: a message never touches the plugin metrics of other names.
  - `C78_count_partial`: if no message uses the name with the type `pd`, all accepted SLI messages under it are counted.
  - `C78_refuted`: C78 is false: an SLI message under a name that a `pd` message used before is not counted by any SLI metric.

### C79 Low percentile thresholds abort the flush - proved

With a percentile threshold of at most 25 and exactly two durations buffered for a timer, the number of kept durations rounds to zero and the flush raises IndexError after the timer was cleared: nothing of it is reported and its durations are lost.

* Quantified over: every threshold up to 25 and every pair of durations.
* Modelled (Model/Processor): as C12.
* Proof: computation of the threshold index.
* Theorems:
  - `C79_low_percentage`: with a percentage of at most 25, a timer that received exactly two durations makes the flush raise `IndexError` in the timer phase (here: it is the first timer), after emitting only counters; its durations are gone.

### C80 The TCP listener processes every line (refuted) - partial

A user expects every line sent over a TCP connection, other than the monitor message, to be scheduled for processing. lineReceived returns the DelayedCall, a true value; LineReceiver.dataReceived stops at it and the reactor closes the connection: only the first such line of a connection is processed.

* Quantified over: every connection, list of lines and chunking.
* Modelled (Model/Tcp): TCP redirect client, Twisted's `LineReceiver`, the server protocols.
* Proof: invariants over all event schedules; splitting by CRLF proved independent of the chunking.
* Note: False of the code (protocol.py:64-71 with Twisted 11.1-15.4, whose LineReceiver and reactor behaviour on a true return value is modelled in Model/Tcp.lean): C80_refuted is the counterexample, C80_first_line_only what happens for every stream and chunking, C80_single_line_partial the case of one line per connection.
* Theorems:
  - `C80_first_line_only`: a connection carrying short lines, in any chunks: the monitor messages in front are answered, the first other line is scheduled, the connection is closed, and all later lines are lost.
  - `C80_too_long`: a line of more than 16384 characters closes the connection, in whatever chunks it comes, whatever follows it; nothing of it is handled.
  - `C80_single_line_partial`: full statement: every line of a connection that is not the monitor message is scheduled for processing. This theorem: it is, if the connection carries at most one such line, as its last. Missing: connections with further lines, for which the statement is false (`C80_refuted`).
  - `C80_refuted`: C80 is false: of two lines sent over one connection only the first is processed.

### C81 Items sent with the client's distinct() reach the distinct counter (refuted) - partial

A user expects Metrics.distinct(name, item) to be counted by the distinct plugin shipped with the server. The client sends the type 'd' but the plugin registers 'pd': the server logs every such message as a bad line and counts nothing.

* Quantified over: every name, item and message history.
* Modelled (Model/Plugins, Sli, Distinct, Processor): the shipped plugins inside the processor.
* Proof: induction over message histories; computation of the parse of the client's text.
* Note: Refuted: C81_refuted. C81_client_sends and C81_server_rejects describe the two ends in general; C81_plugin_type_partial is what works.
* Theorems:
  - `C81_server_rejects`: the server with the shipped plugins logs every message of the type `d` as bad and keeps its state (but for one clock reading).
  - `C81_client_sends`: and this is the type the client's `distinct` sends: the first call for a name writes the item with the type `d`, which parses (here for an item without `|`), so that the server rejects it.
  - `C81_plugin_type_partial`: sent by hand with the type `pd`, an item does reach a distinct counter.
  - `C81_refuted`: C81 is false: what `distinct` sends for a new name reaches no metric of the server.

### C82 SLI rule lines are parsed exactly - proved

A configuration line 'pattern => label IF kind params' with numeric parameters stores that condition under that pattern and label and changes nothing else; any other line raises TypeError and changes nothing; rules are applied in order up to the first failing one.

* Quantified over: every configuration text and prior configuration.
* Modelled (Model/Sli, Fnmatch): `SLIMetricReporter`, the conditions, the rule lines of `sli_plugin.py`.
* Proof: induction over events; exact rationals for the conditions; inversion of the line matcher against an independent grammar.
* Theorems:
  - `C82_rule`: a rule line `head => label IF kind params` whose parameters make sense stores that condition under the label of the head, and changes nothing else.
  - `C82_not_a_rule`: a line that is not of that form raises `TypeError` and changes nothing.
  - `C82_senseless`: a line of that form whose condition makes no sense raises the exception that calls for. The head is known from then on, with the conditions it had; nothing else changes.
  - `C82_conditions`: a kind and its parameters make sense, or are a `metric` with two or three parameters (C83), or make no sense in a way that calls for one exception.
  - `C82_unique`: the parts of a rule line are determined by the line.
  - `C82_order`: the rules are applied in order, and the first line that fails ends the configuration; without a `rules` option nothing happens.

### C83 Every accepted SLI rule can be evaluated (refuted) - partial

A user expects a rule that configure accepts to define a usable condition. The kind is looked up with getattr('build_' + kind), so the kind 'metric' finds build_metric: the rule is accepted and then every value event of a matching metric raises TypeError after being counted. All other accepted kinds are usable.

* Quantified over: every rule line and event.
* Modelled (Model/Sli, Fnmatch): `SLIMetricReporter`, the conditions, the rule lines of `sli_plugin.py`.
* Proof: induction over events; exact rationals for the conditions; inversion of the line matcher against an independent grammar.
* Note: Refuted: C83_refuted (rule of kind metric). C83_callable_partial covers all other kinds.
* Theorems:
  - `C83_callable_partial`: a rule accepted with a kind other than `metric` stores a condition that can be evaluated on every event.
  - `C83_metric_rule`: a rule of kind `metric` with two parameters is accepted too, and from then on every value event of a matching metric is counted but raises `TypeError`.
  - `C83_refuted`: C83 is false in general: this rule is accepted and its condition cannot be evaluated.

### C84 SLI messages are counted end to end - proved

On a server with the shipped plugins, the SLI metric of a name exists iff an SLI message was sent to it, has the conditions of all configured patterns that match stats.SLI.<name>, and flushes to exactly the counts of its accepted messages, whatever other messages arrived (as long as none used the name with the type pd, see C78).

* Quantified over: every configuration, message history and name.
* Modelled (Model/Plugins, Sli, Distinct, Processor): the shipped plugins inside the processor.
* Proof: induction over message histories; computation of the parse of the client's text.
* Theorems:
  - `C84_server`: on a server with the shipped plugins, after any messages of which none uses the name with the type `pd`, the SLI metric of that name exists iff an SLI message was sent to it, has the conditions of the configuration, and flushes to exactly the counts of its accepted messages.

### C85 Flush period (refuted) - partial

The flush task runs every flush_interval milliseconds, the interval the rates are computed with. Refuted: integer division rounds the period down to whole seconds (and to zero below a second). Partial: it holds for whole seconds.

* Quantified over: every interval.
* Modelled (Model/Service): the flush task's period; `report_client_manager_stats`.
* Proof: integer arithmetic; induction over runs.
* Note: Refuted for intervals that are not whole seconds (C85_refuted); proved for whole seconds.
* Theorems:
  - `C85_period`: the task flushes every whole number of seconds contained in the interval.
  - `C85_whole_seconds_partial`: for intervals of whole seconds the period is the interval the rates are computed with. Missing for the full claim (`C85_refuted`): other intervals.
  - `C85_zero`: an interval below a second makes a task without any delay.
  - `C85_refuted`: refuted: with `--flush-interval 1500` flushes happen every second, while the rates are computed for a second and a half.

### C86 Every configured carbon cache is connected to (refuted) - partial

A connection is made to every carbon-cache-host given. Refuted: hosts beyond the number of ports or names given are silently dropped, because the defaults are lists of one element. Partial: it holds when every host comes with its port and name.

* Quantified over: every list of hosts, ports and names.
* Modelled (Model/Options): `OptionsGlue`, `StatsDOptions`, the config file sections, `createService` destinations.
* Proof: induction over parsed options and file items.
* Note: Refuted: with two hosts and no ports only the first is connected to (C86_refuted); the exact number of connections is C86_count.
* Theorems:
  - `C86_port`: a port given on the command line is taken if it is the text of a number from 0 to 65535, and refused with a `ValueError` otherwise.
  - `C86_ports`: the ports of a command line that gives nothing but ports are those given, in order.
  - `C86_count`: as many connections are made as the shortest of the three lists has entries.
  - `C86_all_partial`: if every host is given with its own port and name, each is connected to with them. Missing for the full claim (`C86_refuted`): hosts beyond the number of ports or names given are dropped.
  - `C86_default`: without any option there is one connection, to the default.
  - `C86_refuted`: refuted: of two hosts given without ports only the first is connected to.

### C87 Carbon client statistics - proved

Each run of report_client_manager_stats reports exactly the statistics of destinations, with colons replaced by underscores, and sets all statistics to zero; over any number of runs what is reported is what carbon counted, unless two names become equal by the replacement.

* Quantified over: every sequence of counts and reports.
* Modelled (Model/Service): the flush task's period; `report_client_manager_stats`.
* Proof: integer arithmetic; induction over runs.
* Note: C87_ambiguous shows the stated exception is real.
* Theorems:
  - `C87_report`: if no two statistics of destinations get the same name, a run reports exactly those, with colons replaced, and sets every statistic to zero; it cannot fail.
  - `C87_total`: over any number of runs nothing that carbon counts for a destination is lost or reported twice.
  - `C87_ambiguous`: Without that condition a statistic can be lost: `a:1` and `a_1`.

### C88 Every timer has a page (refuted) - partial

The page metrics/NAME shows the timer NAME. Refuted on the default processor, whose timers are lists: every such page is 404. Partial: it holds on the configurable processor.

* Quantified over: every processor state.
* Modelled (Model/Http, Service): `httpinfo.py` status and metric pages.
* Proof: computation; case analysis on the processor class.
* Note: Refuted on the default processor (C88_refuted, C88_default); proved on the configurable one.
* Theorems:
  - `C88_configurable_partial`: on the configurable processor every timer has a page. Missing for the full claim (`C88_default`, `C88_refuted`): the default processor.
  - `C88_only`: a page is shown only for a timer or a plugin metric with one, on either processor.
  - `C88_default`: on the default processor no timer that received durations has a page; none has if no plugin's metrics have.
  - `C88_refuted`: refuted: on the default processor a timer with durations has no page.

### C89 Load averages and network devices - proved

parse_loadavg reports the first three words as floats. parse_netdev reports for each device, from its last line, the numbers in the columns named bytes and packets of the receive and transmit parts of the header, whatever other columns there are; an interface alias (two colons) makes it fail.

* Quantified over: every file content.
* Modelled (Model/System): process.py: counters, meminfo, loadavg, netdev, connections.
* Proof: induction over the lines / readings; inversion of the field splitting.
* Note: From the lines of the file (splitlines is not modelled).
* Theorems:
  - `C89_loadavg`: the first three words of `/proc/loadavg`, as floats, are the three averages.
  - `C89_loadavg_error`: a first, second or third word that is no float makes it fail.
  - `C89_netdev`: with a header of three parts, no column named twice and the four needed ones among them, and device lines with a number in each column, the report has for each device the numbers of its last line.
  - `C89_netdev_alias`: a line with two colons (an interface alias) makes the whole report fail.
  - `C89_netdev_error`: exactly when it fails, and with which exception: too few lines, a header that is not of three parts, or a first line with a fault.

### C90 Delay of an unresponsive reactor (refuted) - partial

When the inspector finds no answer, the delay it reports is at least the age of every outstanding probe. Refuted: after a late answer the delay restarts although the current probe is still outstanding. Partial: it holds while no answer was late, with probes executed in order and a clock that does not go back. In every run, the delay is the time since the inspector was last done with an answer, late or not (or began); it covers every outstanding probe requested since then and is at most the age of the others.

* Quantified over: every schedule of the two threads.
* Modelled (Model/Report): `ReactorInspector` as a step machine against an arbitrary reactor.
* Proof: invariant over all histories.
* Note: Refuted after a late answer (C90_refuted); proved while none was late. C90_since says in every run what the delay is counted from, C90_ages which outstanding probes it covers. Times are exact rationals.
* Theorems:
  - `C90_since`: in every run: an inspector that finds no answer logs the time since it was last done with an answer (or began), whether that answer was late or not. Everything it logged from then on is that there was no answer.
  - `C90_ages`: so with a clock that does not go back the delay covers every outstanding probe requested since that answer, and is at most the age of every one that was already outstanding then.
  - `C90_delay_partial`: as long as no answer was late, with probes executed in order and a clock that does not go back, an inspector that finds the queue empty logs a delay at least the age of every outstanding probe. Missing for the full claim (`C90_refuted`): the same after a late answer.
  - `C90_refuted`: refuted: after a late answer the delay is counted from the time of the check, although the current probe is still outstanding: at time 9 the inspector says 3, while a probe has been waiting for 6.

### C91 Stopping the reporting service (refuted) - partial

Stopping a running ReportingService stops all its tasks. Refuted: a function scheduled without report function that raised has stopped its task, and stopping that task again raises AssertionError, which leaves the tasks behind it running. Partial: it holds if all tasks have report functions.

* Quantified over: every history of the service.
* Modelled (Model/Report): `ReportingService`, its tasks and `wrapped`.
* Proof: induction over histories of runs, failures, starts and stops.
* Note: Refuted for tasks without report function (C91_refuted, C91_left_running); proved when all have one.
* Theorems:
  - `C91_stop_partial`: a service whose tasks all have report functions, started and stopped in turn, never fails, and all its tasks run exactly while it runs. Missing for the full claim (`C91_refuted`): tasks scheduled without a report function.
  - `C91_refuted`: refuted: after a function scheduled without a report function has raised, stopping the service fails and leaves the other tasks running.
  - `C91_stop_aborts`: stopping a service gives up at the first task that is not running: those before it are stopped, the others are left as they are, and the service counts as running.
  - `C91_start_aborts`: starting a service gives up at the first task that is running already; the service counts as running.
  - `C91_left_running`: the state after that.

### C92 Every datagram is processed once, end to end - proved

In the service assembled by createService without rules, in every schedule of arrivals, reactor turns (in any order), reports and flush steps, the processor has been given some of the texts taken in and the rest is still scheduled: none is lost, none is processed twice, monitor messages are not processed. With exact arithmetic the counts sent, under way, stored and scheduled add up to all increments received.

* Quantified over: every schedule of the service.
* Modelled (Model/App, Processor, Generator): the assembled service: receivers, scheduled calls, `InternalClient`, the flush task.
* Proof: simulation of the service by the server of C22 with the processed texts as arrivals, up to a permutation; then C22.
* Theorems:
  - `C92_processed_once`: in every schedule of a service without rules, the processor has been given some of the texts taken in and the rest is still scheduled: nothing is lost, nothing is processed twice, and the monitor's messages are not processed. The state, the running flushes and the datapoints are those of a server to which exactly these texts arrived.
  - `C92_no_loss`: with exact arithmetic, at every moment of every schedule of the service, the counts sent to carbon, those under way, the stored count and the increments still scheduled add up to the increments of all datagrams and lines received (but for the monitor's) and of all texts the service wrote to itself.

### C93 Dump mode changes nothing but the log (refuted) - partial

With dump-mode on, everything seen of the service but the log is as with dump-mode off. Refuted: with statsd-compliance (the default) the dump mode replaces the compliant processor by a configurable one with empty prefixes, and a second such service in one process cannot be created. Partial: it holds without statsd-compliance.

* Quantified over: all options and schedules.
* Modelled (Model/App, Configurable): the choice of the processor, `LoggingMessageProcessor` in the assembled service.
* Proof: case analysis of the choice; the logging processor simulates the configurable one step by step.
* Note: Refuted with the default options (C93_refuted); C93_dump_partial holds without statsd-compliance, C93_compliant says what happens with it.
* Theorems:
  - `C93_dump_partial`: the part that holds: without statsd compliance the dump mode changes nothing of what is seen of the service, in any schedule, with any rules.
  - `C93_compliant`: what happens with statsd compliance: in dump mode the service is one without compliance and with empty prefixes.
  - `C93_again`: a second service in dump mode in the same process cannot be created.
  - `C93_refuted`: the expectation: the dump mode changes nothing of what is seen of the service. False with the default options: the counter is reported under another name.

### C94 Several messages in one datagram (refuted) - partial

A datagram with several lines is processed as the messages on the lines. Refuted: if there is a bar behind the first line the whole datagram is one bad message and changes nothing. Partial: white space (a final newline) around a single message is ignored.

* Quantified over: all datagrams and states.
* Modelled (Model/Text, Processor): `parse`, `process`.
* Proof: inversion of the message grammar.
* Note: Refuted (C94_refuted): several lines in a datagram are one bad message (C94_two_lines); a single message with white space around is read (C94_one_line_partial).
* Theorems:
  - `C94_two_lines`: what happens: a datagram with a well-formed message on its first line and a bar behind that line is one bad message: it changes nothing but the number of clock readings.
  - `C94_one_line_partial`: the part that holds: white space around the only message of a datagram, such as a final newline, is ignored.
  - `C94_refuted`: the expectation: a datagram with two lines is processed as the two messages on them. False.

### C95 Names of reports (refuted) - partial

Every name in the option report gets a report. Refuted: a misspelt name is ignored without a word. Proved exactly: a report of a group is scheduled every 60 seconds iff the group is listed, in any case of letters; the carbon client's statistics always; the reactor's iff the option is given; the inspector iff reactor is listed in small letters.

* Quantified over: every value of the option.
* Modelled (Model/App): the scheduling of reports in `createService`; `accumulateClassList`, `OptionsGlue.__init__`.
* Proof: induction over the list of names / over the class hierarchy.
* Note: Refuted for misspelt names (C95_refuted); C95_groups/always/inspector say exactly what is scheduled.
* Theorems:
  - `C95_groups`: a report function of one of the groups is scheduled, every 60 seconds, iff the group is named in the list, in any case.
  - `C95_always`: the carbon client's statistics are always reported, once per flush period; the reactor's iff reports are asked for at all; without the option nothing else is.
  - `C95_inspector`: the reactor inspector is started once per entry that is exactly `reactor`.
  - `C95_known_partial`: the part that holds of the expectation that every name counts: a list whose names are groups schedules a report for each of them.
  - `C95_refuted`: the expectation: whoever asks for a report gets one (or the inspector). False: a misspelt name is ignored.

### C96 The reserved option - proved

OptionsGlue refuses a class of options iff a class of its hierarchy other than OptionsGlue itself declares a parameter named config or with short name c.

* Quantified over: every class hierarchy.
* Modelled (Model/App): the scheduling of reports in `createService`; `accumulateClassList`, `OptionsGlue.__init__`.
* Proof: induction over the list of names / over the class hierarchy.
* Theorems:
  - `C96_reserved`: the options are refused iff some class of the hierarchy other than `OptionsGlue` declares a parameter named `config` or with the short name `c`.
  - `C96_accepted`: otherwise they are accepted; `StatsDOptions` is.

### C97 Client writes from several threads (refuted) - partial

TwistedStatsDClient.write may be called from any thread: no message written is lost, and the queue keeps its limit. Refuted in three ways: n threads can push the queue n over the limit; a write that has seen no gateway when the host is resolved leaves its message in the queue although the link is up; a write that has looked up the queue's append when the queue is flushed appends to a list nobody looks at again. Proved for every interleaving: each message begun is in exactly one place, the queue exceeds its limit by at most the number of threads, and a message in a forgotten list is never sent. Partial: nothing is lost or stranded when no write overlaps a call in the reactor's thread.

* Quantified over: every interleaving of any number of threads, at the granularity of attribute accesses.
* Modelled (Model/Threads): `TwistedStatsDClient` and `DataQueue` as a machine whose steps are the attribute accesses of `write` in any thread and of the reactor's calls.
* Proof: invariants over all interleavings (conservation, queue bound, emptiness of forgotten lists); witnesses by computation.
* Note: Refuted as stated (C97_limit_refuted, C97_lost_refuted, C97_stranded_refuted); conservation, the bound limit + threads and permanence of the loss are proved for all interleavings; the _partial theorems need that no write overlaps a call in the reactor's thread.
* Theorems:
  - `C97_conserved`: in every interleaving of any number of threads with the reactor's, every message whose write has begun is in exactly one place: handed to the transport, failed, scheduled, in a list object, dropped for length, or still held by its write.
  - `C97_limit`: the queue may outgrow its limit, by at most the number of threads.
  - `C97_limit_refuted`: the expectation: the queue never holds more than `limit` messages. False with two threads.
  - `C97_lost_forever`: messages in a list object that is neither the queue nor being iterated over stay there, whatever happens; in no continuation are as many copies of such a message handed to the transport as were written.
  - `C97_lost_refuted`: the expectation: no message is ever in a list that nobody will look at. False.
  - `C97_stranded_refuted`: the expectation (`C60_bound` for one thread): once there is a transport and the host is resolved and nothing is under way, no message waits in the queue. False.
  - `C97_undisturbed_partial`: the part that holds: if no write overlaps a call in the reactor's thread (writes may overlap each other), then no message is ever in a list that nobody will look at, and once there is a transport and the host is resolved none waits in the queue.
  - `C97_delivered_partial`: in such a schedule, at rest with the link up, every message written is sent, failed, scheduled or was dropped for length.

### C98 Sampling is unbiased (refuted) - partial

With sampling rate r the expected sum of the increments counted by the server equals the sum of the increments made. Refuted: the test is random() <= r, so with a generator of N equally likely values floor(rN)+1 of them send. Proved: the exact expectation; partial: the relative bias is positive and at most 1/(rN).

* Quantified over: every rate, sequence of increments and generator granularity.
* Modelled (Model/Metrics, Processor): `Metric.send`'s sampling, the client's text, the counter of the processor.
* Proof: counting of draws; induction over the increments with linearity of the sum over all draw sequences.
* Note: Refuted as stated (C98_refuted): random() <= rate lets one value too many through; the exact expectation and the bound 1/(rN) on the bias are proved.
* Theorems:
  - `C98_count`: of `N` equally spaced draws in `[0, 1)` exactly `⌊rate * N⌋ + 1` make a metric send its text: one more than the rate says.
  - `C98_expectation`: increments of one name through a new `Metrics` object at a rate below one (whose text has digits and dots only and reads back as itself). For every sequence of draws the texts written are increments of the counter, adding `f` of the draws to its total; and the mean of `f` over all sequences of draws from the multiples of `1/N` is the sum of the increments times `(⌊rate N⌋ + 1) / (rate N)`.
  - `C98_bias_partial`: the part that holds of "sampling is unbiased": the mean is off by at most the `1 / (rate * N)`-th part (`N` is `2 ^ 53` for `random.random`), always to the larger side.
  - `C98_refuted`: the expectation: on average over the draws a sampled counter counts what was counted. False, because a draw equal to the rate still sends.

### C99 The service's reports about itself, end to end (refuted) - partial

Every value a scheduled report returns reaches graphite under the name of the instance and of the metric. Refuted: an instance name with a colon (platform.node() is taken as it is) turns every report into a bad message. Proved for names of legal characters, on both processors, in every history of reports, messages and flushes: a report acts exactly as the messages instance.name:value|g in order and logs a failure iff its function raised; on the default processor the last datapoint of a flush carries the latest report, and every flush repeats all values ever reported, so that the flushes of a service that reports about itself grow without end.

* Quantified over: every history of reports, messages and flushes.
* Modelled (Model/SelfReport, Metrics, Report, Processor): `wrapped`'s wrapper with `metrics.gauge` as report function, `InternalClient`, the processor.
* Proof: induction over the history (each report equals its messages); then C14 and C15.
* Note: Refuted without the condition on names (C99_colon_refuted); for legal names the reports are proved to act exactly as their messages (C99_history), with the latest value and the ever growing backlog of the default processor.
* Theorems:
  - `C99_history`: in every history of reports, messages and flushes, on either processor, a report acts exactly as the arrival of the messages `instance.name:value|g`, one for each of its metrics in order, and logs a failure iff its function raised.
  - `C99_backlog`: on the default processor: each completed flush lists, for a reported metric, every value ever reported for it, oldest first: the flushes of a service that reports about itself grow without end. (No message from outside is a reading of that gauge, and no counter has the name of its datapoint.)
  - `C99_latest`: the last of them is the latest report; an integer arrives as that integer.
  - `C99_colon_refuted`: the expectation without the condition on names. False: an instance name with a colon (`platform.node()` is used as it is) makes every report a bad message; nothing is delivered, under any name.

### C100 Process and CPU reports (refuted) - partial

The reports about the process and the CPUs give each quantity under its own name. Refuted: memory.rss and memory.vsize are exchanged, because psutil returns the resident set size first. Proved: the other metrics of the process, the CPU times and the input/output counters are under their names; for any number of CPUs and any modes no two values share a name; a psutil with longer tuples makes the reports fail.

* Quantified over: every result of psutil.
* Modelled (Model/System): `ProcessReport`, `report_system_stats`, from what psutil returns.
* Proof: computation; injectivity of the padded CPU number; induction over the assignments.
* Note: Refuted for the two memory metrics (C100_memory_refuted: psutil's order is resident size first); all other names are proved right.
* Theorems:
  - `C100_memory_refuted`: the expectation: `memory.rss` is the resident set size and `memory.vsize` the virtual memory size. False of the code, which unpacks what `psutil` returns in the other order.
  - `C100_memory_swapped`: the two are always exchanged.
  - `C100_process_partial`: the part that holds: the other four metrics are what their names say, and there are no more; the number of threads is missing iff `psutil` does not tell.
  - `C100_counters_partial`: the CPU times and the input/output counts of the process are under their names; without `io_counters` there is nothing.
  - `C100_more_fields`: a `psutil` whose tuples have more fields makes the reports fail.
  - `C100_cpu_partial`: the times of all CPUs together are reported under their modes.
  - `C100_percpu_partial`: and those of each CPU under its number, of at least three digits, and mode: for any number of CPUs and any modes, no two values share a name.

### C101 A counter report listed twice (refuted) - partial

A counter report leaves each minute the increase over that minute, however often its group is listed in the option report. Refuted: the occurrences share one generator, so the second reports zero for every counter. Partial: it holds when the report runs once per reading.

* Quantified over: every pair of readings.
* Modelled (Model/System): `report_counters` run several times on one reading.
* Proof: C72 applied twice; witness by computation.
* Note: Refuted when a report's group is listed more than once (C101_refuted); holds when it runs once per reading.
* Theorems:
  - `C101_repeated`: a counter report that runs twice on the same reading reports the true difference first and then, whatever happened before, zero for every integer counter.
  - `C101_once_partial`: run once per reading, it reports the increase since the previous run. (`C72_sum`: over any number of runs.)
  - `C101_refuted`: the expectation: a counter report scheduled any number of times (its group is listed more than once in the option `report`) leaves, each minute, the increase over that minute. False: the occurrences share one generator, and the last one reports zero.

### C102 Timers under overlapping flushes - proved

In every schedule of messages and flush steps, with any number of overlapping flushes, the accepted durations of a timer can be cut into consecutive non-empty blocks such that what was emitted or is under way for the timer is exactly one summary of each block, and the rest is stored. In particular no duration is summarised twice or lost: the reported counts and the number stored add up to the number accepted.

* Quantified over: every schedule, any number of flushes.
* Modelled (Model/Generator, Processor, Configurable): the flush generators advanced in any order, interleaved with arrivals.
* Proof: an invariant of the store, the received messages and the emitted or pending points of one key, kept by each visit, each message and each step of the schedule.
* Theorems:
  - `C102_timers`: in every schedule, the accepted durations of a timer can be cut into consecutive blocks such that what was emitted or is under way for the timer is exactly one summary of each block, made by one of the flushes, and the rest is stored.
  - `C102_counts`: the reported counts, emitted or under way, and the number of stored durations add up to the number of accepted durations, at every moment of every schedule.

### C103 What a flush emits was received - proved

In every schedule each datapoint a flush emits is about the messages received up to one moment between the start of that flush and now: on the configurable processor the latest value of a counter or gauge at that moment and the total of a meter at that moment; on the default processor a gauge reading that was received, the total of a meter at that moment, a counter or timer that was received; otherwise one of the processor's own statistics or made by a plugin. The total of a meter is the sum of its readings, rounded to six decimals, in exact arithmetic, the exact sum for whole numbers, and near the sum in doubles (C128).

* Quantified over: every schedule.
* Modelled (Model/Generator, Processor, Configurable): as C102.
* Proof: provenance of each store as an invariant over all schedules; every visit emits about the store of that moment; pending points keep their moment.
* Theorems:
  - `C103_configurable`: everything a flush of the configurable processor emits, in any schedule, is about the messages received up to some moment between its start and now: the value of a counter or gauge is the latest one at that moment, and the total of a meter is the total at that moment.
  - `C103_default`: everything a flush of the default processor emits, in any schedule, is about the messages received up to some moment between its start and now.

### C104 Timers of the configurable processor under overlapping flushes - proved

In every schedule the accepted durations of a timer and the reports asked of it make up one history: what was emitted or is under way for the timer is exactly the reports of that history (each about the durations since the report before, its count about all), and the stored timer is what the history leads to.

* Quantified over: every schedule, any number of flushes.
* Modelled (Model/Generator, Processor, Configurable): the flush generators advanced in any order, interleaved with arrivals.
* Proof: an invariant of the store, the received messages and the emitted or pending points of one key, kept by each visit, each message and each step of the schedule.
* Theorems:
  - `C104_timers`: in every schedule, the accepted durations of a timer of the configurable processor and the reports asked of it by the flushes make up one history; what was emitted or is under way for the timer is exactly the reports of that history, and the stored timer is what the history leads to. (The key is not used for a counter or a meter as well, and its durations are finite.)

### C105 One timestamp per flush - proved

In every schedule all datapoints of one flush (but for those of plugins) carry the same timestamp: the whole seconds of the clock at the moment the flush was first advanced, however long the flush takes and whatever happens meanwhile.

* Quantified over: every schedule.
* Modelled (Model/Generator): as C102.
* Proof: the timestamp fixed at the first advance is a component of the generator's state; induction over schedules.
* Theorems:
  - `C105_default`: in any schedule, all datapoints of one flush of the default processor (but for those of plugins) carry the same timestamp: the whole seconds of the time at which the flush was first advanced.
  - `C105_configurable`: the same for the configurable processor.

### C106 Flushes of the configurable processor in schedules - proved

An uninterrupted flush does what the atomic flush does; a flush advanced again and again ends; while no arrival adds a name or type, a flush that runs alone never fails with RuntimeError or KeyError, even if gauges change; the first reading of a counter, timer, gauge or meter that arrives while a flush is going through that kind aborts it: it emits at most the rest of the group it is handing out and ends with RuntimeError when advanced once more.

* Quantified over: every schedule.
* Modelled (Model/Generator, Processor, Configurable): as C102.
* Proof: the size remembered by a phase against the size of the dictionary, which never shrinks; induction over schedules.
* Theorems:
  - `C106_uninterrupted`: an uninterrupted flush of the configurable processor does exactly what the atomic `flush` does.
  - `C106_terminates`: whatever else happens, a flush of the configurable processor that is advanced again and again ends.
  - `C106_no_abort`: if no arrival adds a name or a type of message while the flush is running (and it is the only flush running), it never fails with `RuntimeError` or `KeyError`, unless a plugin raises that itself. Gauges that change do not matter.
  - `C106_new_name_aborts`: if the first reading of a counter, timer, gauge or meter arrives while a flush is going through the counters, timers, gauges or meters, that flush emits at most the rest of the group it is handing out, in every continuation, and ends with `RuntimeError` as soon as it is advanced once more.

### C107 Readings that abort a flush of the default processor - proved

Any gauge reading at all that arrives while a flush is handing out the gauges, and the first reading of a timer or meter that arrives while a flush is going through the timers or meters, aborts that flush: it emits at most the rest of the group it is handing out and ends with RuntimeError when advanced once more.

* Quantified over: every schedule.
* Modelled (Model/Generator, Processor, Configurable): as C102.
* Proof: the size remembered by a phase against the size of the dictionary, which never shrinks; induction over schedules.
* Theorems:
  - `C107_reading_aborts`: in the default processor any gauge reading at all that arrives while a flush is handing out the gauges, and the first reading of a timer or meter that arrives while a flush is going through the timers or meters, aborts that flush.

### C108 Standard deviation in doubles - proved

In double arithmetic, with all its rounding, the running variance never turns negative: for any stream of durations that are not negative (infinity included) std_dev returns a value that is not negative, nan only if a duration was infinite, so math.sqrt never raises; the running mean stays between the durations. Hence a flush of a configurable processor without plugins completes whatever was sent to timers, gauges and meters, if the last value of each counter is finite.

* Quantified over: every stream of doubles, every arithmetic with the laws of IEEE 754.
* Modelled (Model/Ieee, Histogram, Reporters, Configurable): `update_variance`, `variance`, `std_dev` with every operation rounded; the flush of the configurable processor.
* Proof: induction over the stream with the laws of rounding (monotone, odd, identity on doubles): each addend of the sum of squares is a product of factors of equal sign; `binary64_ieee` proves the laws for the doubles.
* Theorems:
  - `C108_doubles`: The doubles of IEEE 754 obey the laws that the theorems below use.
  - `C108_std_dev`: `std_dev` never takes the root of a negative number: after any stream of durations (doubles that are not negative, or infinity) it returns a value, which is not negative, and is nan only if some duration was infinite.
  - `C108_running_mean`: the running mean of `update_variance` stays between the least and the greatest duration.
  - `C108_survives`: in double arithmetic a flush of a configurable processor without plugins completes, whatever was sent to timers, gauges and meters (nan, infinities, negative and huge numbers included), provided that the last value of every counter is finite (see C26) and the clock reads doubles.

### C109 Percentiles in doubles - proved

In double arithmetic percentiles never raises; each percentile lies between the least and the greatest value held, and percentiles do not decrease with the quantile.

* Quantified over: every stream of doubles, every list of quantiles.
* Modelled (Model/Ieee, Histogram): `percentiles` with every operation rounded.
* Proof: monotonicity of rounding, interpolation between neighbours.
* Theorems:
  - `C109_percentiles`: in double arithmetic `percentiles` succeeds for every list of quantiles; each score lies between the least and the greatest value held, and the scores do not decrease with the quantile.

### C110 Means in doubles - proved

In double arithmetic the mean of n durations differs from the exact mean by at most n units in the 52nd bit; the timer section of a flush of the default processor never raises and its summaries are right up to that error; the number of durations kept for upper_PERCENT is the nearest to PERCENT percent up to rounding. That the mean does not exceed the greatest duration is refuted: three durations 0.1 have the mean 0.10000000000000002.

* Quantified over: every stream of doubles, every history of messages and flushes.
* Modelled (Model/Ieee, Histogram, Processor): `mean`, `flush_timer_metrics` with every operation rounded.
* Proof: error bound of sequential summation by induction; the timer section as in C12; refutation by computing with doubles.
* Note: All parts are proved; the further claim 'the mean does not exceed the greatest duration' is refuted in doubles (C110_mean_at_most_upper_refuted).
* Theorems:
  - `C110_mean`: the mean of `n` durations kept by a timer of the configurable processor (their sum divided by their number, in double arithmetic) differs from the exact mean by at most `n` units in the 52nd bit (and half the smallest double).
  - `C110_timer_section`: the timer section of a flush of the default processor in double arithmetic: one summary for each timer that received durations since the last flush. It never raises, whatever the durations.
  - `C110_mean_at_most_upper_refuted`: "the mean that a flush of the default processor reports does not exceed the greatest duration" is false in double arithmetic: the mean of three times 0.1 is reported as 0.10000000000000002.

### C111 Histogram bins in doubles - proved

In double arithmetic, if the sample holds two different values, histogram never computes a bin outside of the list: it succeeds and counts every held value in exactly one bin.

* Quantified over: every sample of doubles, every number of bins up to 2^53.
* Modelled (Model/Ieee, Histogram): `histogram` with every operation rounded.
* Proof: quotient at most 1 by monotonicity of rounding, so the bin index is at most bins - 1.
* Theorems:
  - `C111_bins`: in double arithmetic `histogram` never falls outside of its bins: when the sample holds two different values it succeeds, and every held value is counted in exactly one bin.

### C112 Counter totals in doubles (refuted) - partial

A counter of the default processor reports the sum of its increments. Refuted in double arithmetic: ten increments of 0.1 are reported as 0.9999999999999999. Partial: the reported count differs from the exact sum of the n contributions by at most n - 1 units in the 52nd bit of the sum of their sizes.

* Quantified over: every list of increments.
* Modelled (Model/Ieee, Processor): `compose_counter_metric`, `flush_counter_metrics` with every operation rounded.
* Proof: error bound of sequential summation; witness by computing with doubles.
* Note: The full statement (the reported count is the sum) is false in double arithmetic: C112_total_exact_refuted. The _partial theorems bound the error; they assume that the contributions value * (1 / rate) are finite doubles with a sum of sizes at most 2^1000.
* Theorems:
  - `C112_total_partial`: the total of a counter in double arithmetic: if the contributions `value * (1 / rate)` are the doubles `cs`, the total differs from their exact sum by at most one unit in the 52nd bit of the sum of their sizes for each addition but the first.
  - `C112_unsampled`: without sampling the contributions are the values themselves.
  - `C112_count_partial`: the count that a flush of the default processor reports.
  - `C112_total_exact_refuted`: "the total of a counter is the sum of its increments" is false in double arithmetic: ten increments of 0.1 add up to 0.9999999999999999.

### C113 Paths of the web site - proved

Every path is read in exactly one way as a list of percent-encoded parts. A path whose first part is not status, metrics or list_metrics is answered 404 for every method. /status and everything below it shows the two durations and the interval, with 200 for OK and 500 for ERROR. /list_metrics lists the names the processor gives; below it nothing is found. /metrics alone is 405; /metrics/NAME and everything below it is the page of the metric, and 404 for every method if it has none. Other methods than GET and HEAD never get a page; HEAD gets the code of GET (500 for 405) without a body. Without a port there is no site. On the configurable processor, after any history, a metric's page is 404 exactly if no duration was accepted for it and no plugin gives it a page; on the default processor /list_metrics lists exactly the names received, and timers have no pages.

* Quantified over: every path, method and history.
* Modelled (Model/Site, Http): the resource tree, the traversal and the choice of a renderer (of twisted.web), all `render_GET`s, `getChild`, `makeService`.
* Proof: case analysis on the path; composed with C21 and the stored timers of the configurable processor.
* Note: The traversal of the resource tree is modelled after twisted.web 11.1-15.4; bodies are kept as the data given to json.dumps. C113_methods and C113_unknown hold for every view of the processor.
* Theorems:
  - `C113_path`: every path has exactly one reading as a list of parts.
  - `C113_unknown`: a path whose first part is not one of the three pages is not found, whatever the method.
  - `C113_status`: `/status` and everything below it is the status page: the two durations, the interval, and OK with code 200 or ERROR with code 500.
  - `C113_list`: `/list_metrics` lists the names the processor gives, or fails when it does; below it nothing is found.
  - `C113_metrics`: `/metrics` alone has no page; `/metrics/NAME`, and everything below it, is the page of the metric: not found (for every method) if it has none, and otherwise the plugin's answer or the timer's, which fails if the histogram cannot be made.
  - `C113_methods`: for every path, encoded or not. A method other than GET and HEAD is never answered with a page. HEAD is answered without a body and with the code of GET, except that 405 becomes 500.
  - `C113_port`: without a configured port there is no site.
  - `C113_timers`: on the configurable processor, after any history, a metric's page is not found exactly if no duration was accepted for it and no plugin's metric of that name has a page.
  - `C113_default`: on the default processor, after any history, `/list_metrics` lists exactly the names received, each once; and no metric has a page unless a plugin gives it one.

### C114 The page of a timer can be read (refuted) - partial

The page of a timer that received a duration is answered with 200. Refuted: after a single duration it fails with 500 (division by zero). Partial, in double arithmetic: it is answered with ten zeros if no duration came since the last flush; with bins that add up to the number of values held, min(1028, n), and the greatest and least duration of the period, if two different values are held; and it fails whenever all values held are equal.

* Quantified over: every history of messages and completed flushes.
* Modelled (Model/Site, Configurable, Histogram, Ieee): `TimerResource.render_GET` on the timers of a processor after any history.
* Proof: the histogram of a timer run holds the durations of the period; C111, C34, held values of the reservoir; witness by computing with doubles.
* Note: C114_page_partial gives the exact answer in every case of a history with finite durations and completed flushes; the claim that it is always 200 is refuted (C114_refuted: one duration). Held values are those of the reservoir, all of the period if there are at most 1028.
* Theorems:
  - `C114_page_partial`: after any history with completed flushes, the page of a timer that received a (finite) duration has code 200 if no duration came since the last flush (ten empty bins, extremes 0), or if the reservoir holds two different values: then the bins hold as many durations as the reservoir, at most 1028, and the extremes are the greatest and the least duration of the period. It fails if the values held are all equal. Missing for the full claim (`C114_refuted`): that case.
  - `C114_refuted`: refuted: one duration, and the page fails.

### C115 Times of the status page - proved

With a clock that never goes back, the flush and process times on the status page are never negative and their sum never exceeds the time since the processor started, on both processors and after any history; the page says ERROR exactly if the sum exceeds 700 flush intervals, hence not before 700 intervals have passed. Before the first flush both times are 0.

* Quantified over: every history, every clock that never goes back.
* Modelled (Model/Site, Processor, Configurable): the timing of `process_message` and of the phases of `flush`.
* Proof: invariant over histories: every duration is a difference of clock readings, disjoint in time.
* Note: Exact arithmetic for the durations; monotone clock. Threshold of C76.
* Theorems:
  - `C115_default`: with a clock that never goes back, the two times shown are never negative and never add up to more than the time since the processor started; on the default processor.
  - `C115_configurable`: the same on the configurable processor.
  - `C115_start`: before the first flush the page shows two zeros, on either processor.

### C116 Texts of floats (refuted) - partial

A float put into a message with %s is read back as itself. Refuted: 0.1 + 0.2 is written 0.3, another double. Partial: it is read back as the double of the nearest decimal number of twelve digits, at most 5 in the twelfth digit away; nan and the infinities, every number of at most twelve digits and the double nearest to one survive; a second passage changes nothing; order is preserved; the text is always a number for the server and contains no separator; it is a plain decimal if the number it shows is 0 or from 0.0001 to below 1e11, has an exponent otherwise, and no digit of it could be left out.

* Quantified over: every float.
* Modelled (Model/FloatStr, Text): CPython 2.7's `str(float)` (twelve digits, `%g` with `.0`), and `float(text)`.
* Proof: the digits of the nearest decimal number; parsing of the printed layout; distance of decimals of twelve digits against the spacing of doubles; witness by computing with doubles.
* Note: That every double survives the text is refuted (C116_refuted, computed with the doubles of binary64); the other theorems are the part that holds.
* Theorems:
  - `C116_shape`: the text is a plain decimal where the number shown is zero or from 0.0001 to below 10^11, and has an exponent elsewhere; in both shapes no digit could be left out.
  - `C116_value`: the text of a finite float is read as the nearest decimal number of twelve digits (as a float).
  - `C116_special`: the others are read as themselves.
  - `C116_close`: such a number differs by at most five in the twelfth digit.
  - `C116_exact`: a number of at most twelve digits (an integer below 10^12, say) survives.
  - `C116_accepted`: the text is always a number for the server and contains no separator.
  - `C116_decimal`: the double nearest to a decimal number of at most twelve digits survives.
  - `C116_idempotent`: what has passed through a text once survives from then on.
  - `C116_monotone`: order is preserved.
  - `C116_refuted`: refuted: not every double survives: 0.1 + 0.2 is printed as 0.3.

### C117 Sample rates as printed - proved

A sample rate from 0.0001 up to 1, printed by the client, is read by the server as the double of the nearest decimal number of twelve digits. A positive rate of at most 0.0001 - 1e-16 is printed with an exponent, which the server ignores: it takes the rate to be a number from 1 to 10, so that the count is not scaled up at all.

* Quantified over: every rate, every legal name, every count.
* Modelled (Model/FloatStr, Processor): the sampling annotation of `Metric.send` with a printed float, the server's rate pattern.
* Proof: C70 applied to the printed layout.
* Theorems:
  - `C117_rate`: a sample rate from 0.0001 on, printed by the client, is read by the server as the nearest decimal number of twelve digits.
  - `C117_small`: a sample rate below 0.0001 is printed with an exponent, which the server ignores: it takes the rate to be a number from one to ten, and so counts at least a thousand times too little.

### C118 Floats reported by clients - proved

A gauge, meter reading or timing of a float reported unsampled under a new name by a connected client is read by the server under the qualified name, and the value is the double of the nearest decimal number of twelve digits (for timings of the product with 1000). The same holds of every float in the reports of a service about itself.

* Quantified over: every client state, legal name and float.
* Modelled (Model/FloatStr, Client, Report): `Metrics.gauge/meter/timing`, the gauges of the reports of a service.
* Proof: C66 and C99 with C116.
* Theorems:
  - `C118_reading`: a gauge, meter reading or timing of a float reported under a new name by a connected client is read by the server under the qualified name; the value is the nearest decimal number of twelve digits (for timings, of the product with 1000).
  - `C118_self`: what a service reports about itself: a float in a report ends up in the gauge of its name as the nearest decimal number of twelve digits.

### C119 A service with routing rules - proved

In every schedule of a service whose rules cannot raise, keep keys legal and set only built-in types, every text taken in is processed once or still scheduled; state, flushes and datapoints are those of a server without rules to which, instead of each text, the messages the rules make of it arrived, up to the first that raises; what was redirected is what the rules send away for the processed texts. With exact arithmetic, and if no plugin raises on a text that the rules make a counter of the name of, the counts sent, under way and stored and the increments still scheduled add up to the increments among the messages the rules make of everything taken in. Refuted: that the copies of a message are processed independently (a raising copy suppresses the later ones).

* Quantified over: every rule set, every schedule of datagrams, lines, turns, reports, ticks and flush steps.
* Modelled (Model/App, Router, Generator, Processor): the running service with rules: `Router.process` in front of the processor, the listeners, the cooperator.
* Proof: simulation by the server of the schedules: every routed metric is processed as the text that carries its type; C22.
* Theorems:
  - `C119_served`: in every schedule of a service with rules, the texts taken in are processed once each or still scheduled. The state, the running flushes and the datapoints are those of a server without rules to which the messages made by the rules arrived instead, each text's up to the first that raises. What was redirected is what the rules send away for the processed texts.
  - `C119_no_loss`: with exact arithmetic and plugins that do not raise on texts that the rules make counters of, at every moment of every schedule of a service with rules, the counts sent to carbon, those under way, the stored count and the increments still scheduled add up to the increments among the messages the rules make of all texts taken in.
  - `C119_copies_refuted`: refuted: the copies the rules make of a message are not processed independently: if the first raises (a counter with the rate 0), the others are lost.

### C120 Two services in a row - proved

A service that redirects the counters of a condition to a second service and drops them itself shares the work: with exact arithmetic and no datagram lost, what both have counted and the increments still scheduled in either add up to all increments the first took in; the first counts nothing under a name the condition holds of, the second nothing under the others. Without the drop the work is doubled: either counts all increments of such a name.

* Quantified over: every pair of schedules, every order of delivery between the two.
* Modelled (Model/App, Router, Generator, Processor): two running services connected by `redirect_udp`/`redirect_tcp` without loss; the clients' queues are not part of the chain (they are in C60, C61, C77-C79).
* Proof: C119 on both, round trip of rebuilt messages (C04).
* Theorems:
  - `C120_shared`: a service that redirects the metrics of a condition to a second service and drops them itself shares the work with it: with exact arithmetic and no lost datagrams, what the two have counted and the increments still scheduled in either add up to all increments taken in by the first.
  - `C120_mirrored`: a service that redirects the metrics of a condition to a second one and goes on processing them doubles them: the first counts all its increments, and the second as well, those of a condition that holds of the name. Both are right when nothing is scheduled any more.

### C121 Life of a TCP redirect (refuted in two points) - partial

Through starts, stops, failed attempts, lost connections and full buffers: a line redirected while a connection is open and has room is appended, ended by CRLF, to that connection; after a first connection a line that cannot be sent is counted as dropped and never sent later; nothing else sends or counts. The ready callback is scheduled once, with the first connection. After a stop nothing is sent and no attempt is made until the next start. A lost connection is tried again through any number of failures. Refuted: that every line not sent is counted (before the first connection it is not) and that a started service always tries to connect (after a stop and another start it gives up at the first failure).

* Quantified over: every history of starts, stops, connections, failures, losses, pauses, resumptions and writes.
* Modelled (Model/Redirect, Tcp): `TCPRedirectService`, `TCPRedirectClientFactory` and `TCPRedirectProtocol` as one machine; of Twisted: connecting, reconnecting, `stopTrying`, `resetDelay` and `stopProducing` at the end of a connection are taken from its documentation.
* Proof: invariant over histories: a connection is up or its protocol is paused.
* Note: That every line not sent is counted, and that a started service always tries to connect, are refuted by witnesses; the rest is proved of every history.
* Theorems:
  - `C121_fate`: where a redirected line goes. While a connection is open and has room, the line, ended by CRLF, is appended to what that connection takes and nothing is counted. If there was a connection but it is gone or full, the line is counted as dropped and nothing is sent, now or later. Before the first connection the line leaves no trace.
  - `C121_only_writes`: nothing else moves lines or counts: connections, losses, starts and stops send nothing and drop nothing, so a line that was not sent at once is never sent.
  - `C121_ready`: the ready callback is scheduled once, with the first connection, and never again.
  - `C121_stopped`: after the service is stopped nothing is sent any more and no attempt to connect is made, until it is started again.
  - `C121_recovers`: an outage heals. When an open connection is lost the factory tries again, however many attempts fail, and the next success opens a connection; the lines written in between are on no connection.
  - `C121_persists_partial`: what never fails to hold without a stop: a started service is connected or tries to connect.
  - `C121_counted_refuted`: C121 is false in two points. A line that was not sent need not be counted as dropped: one that comes before the first connection is not.
  - `C121_persists_refuted`: And a service that was stopped and started again gives up at the first failing attempt.

### C122 SLI metrics under overlapping flushes - proved

In every schedule of messages and overlapping flushes of the default processor with the shipped plugins, the events of an SLI metric can be cut into consecutive blocks such that what was emitted or is under way for it is exactly one report of each block, all counts right, and the stored metric would report the rest. The counts emitted, under way and stored add up to the number of events.

* Quantified over: every configuration with labels without dots, every name, every schedule.
* Modelled (Model/Sli, Plugins, Generator, Processor): the SLI plugin inside the schedule machine of flush generators.
* Proof: watch invariant: blocks reported so far, the open block stored.
* Theorems:
  - `C122_sli`: in every schedule of messages and overlapping flushes, the events of an SLI metric can be cut into consecutive blocks such that what was emitted or is under way for the metric is exactly one report of each block, with all counts right, and the stored metric would report the rest.
  - `C122_counts`: the reported counts, emitted or under way, and the stored count add up to the number of events, at every moment of every schedule.

### C123 Distinct counts under overlapping flushes - proved

In every schedule of messages and overlapping flushes of the default processor with the shipped plugins and a clock that never goes back, everything emitted or under way for a distinct metric is one report for each of a list of moments; each report gives the four estimates for a non-empty beginning of the stream of items, all seen not later than the report, through 32 hash tables that never change; the stored metric would report the whole stream. With no item seen nothing is reported.

* Quantified over: every name, every schedule, every clock that never goes back.
* Modelled (Model/Distinct, Plugins, Generator, Processor): the distinct plugin inside the schedule machine of flush generators; its hash tables are drawn from the world at creation.
* Proof: watch invariant: stored counter is the feed of the stream (C40), every report that of a prefix.
* Theorems:
  - `C123_distinct`: in every schedule of messages and overlapping flushes, with a clock that never goes back, what was emitted or is under way for a distinct metric is one report for each of a list of moments: each report gives the estimates for a beginning of the stream of items, each item seen not later than the report, through the same 32 hash tables all the time; flushing loses no sighting. The stored metric would report the whole stream.
  - `C123_silent`: with no item ever seen nothing is reported.

### C124 When a router is ready (refuted in one point) - partial

Router.ready, the Deferred the service waits for, has a result with no callback left exactly if every redirect built so far is up: a UDP redirect once its host is resolved, a TCP redirect once it was connected and the reactor has run since. The expected companion, that the Deferred of a redirect is fired at most once, is false: the client of a UDP redirect to an IP address is resolved by its constructor and again by create, so AlreadyCalledError is raised once for each such redirect and never otherwise. The error leaves the client in the state it would have without it; a client whose connect callback does not raise, such as the documented hello message, has that callback run twice.

* Quantified over: every history of redirects built, names resolved, connections made and reactor turns, in any order; every host and every list of messages the callbacks write.
* Modelled (Model/Model/Ready): the Deferreds of the redirects, the callbacks of `Router.ready` that wait for them one after the other, the errors of a second callback, and the constructor and `create` of a UDP client.
* Proof: invariant over histories: where `ready` waits, all redirects before have fired; each redirect follows its own course, which depends only on its own events.
* Note: The expected companion, that no Deferred is fired twice, is false for UDP redirects to IP addresses: C124_fired_once_refuted; C124_errors says exactly when; C124_fired_once_partial holds without them. The readiness itself is proved in full (C124_ready).
* Theorems:
  - `C124_ready`: after every history of redirects built, names resolved, connections made and reactor turns, in any order, the router is ready exactly if every redirect built so far has been resolved or connected.
  - `C124_errors`: the error of a Deferred fired twice is raised once for each UDP redirect to an IP address, and never otherwise.
  - `C124_fired_once_refuted`: the expectation: no Deferred is fired twice.
  - `C124_fired_once_partial`: without UDP redirects to IP addresses it holds.
  - `C124_harmless`: the error does no harm: the client of a redirect to an IP address is in the state of one whose address was resolved twice without an error, of which C60 to C62 speak.
  - `C124_hello_twice`: what the connect callback writes is written twice, if the host is an IP address.

### C125 Counts add up in doubles - proved

At every moment of every schedule, the stats_counts values sent for a counter, those under way in running flushes and the stored one are finite and add up to the sum of value/rate over the accepted increments, up to the error of the float arithmetic: none for whole increments without sampling whose sizes add up to at most 2^53, and at most n + 2 units of the 52nd bit of the sum of the sizes for n increments of moderate values and rates. The same holds for a whole service, with or without routing rules, counting also the increments still scheduled, and for two services in a row, counting also the increments of datagrams lost between them.

* Quantified over: every schedule of arrivals, flushes and reactor turns; every list of increments; every arithmetic with the laws of IEEE doubles; every selection of lost datagrams.
* Modelled (Model/App, Router, Generator, Processor, Ieee): the counters of the default processor inside the schedule machine and inside one or two running services; `AddsUp c` says that the arithmetic at hand adds any selection of the increments with a relative error of at most c, and is proved for whole increments (c = 0) and for doubles.
* Proof: the blocks of C22 with the error of each block; the errors add up because the sizes do.
* Theorems:
  - `C125_whole`: whole increments without sampling add up exactly in any arithmetic that represents the integers up to 2^53, as doubles do, as long as their sizes add up to at most that.
  - `C125_moderate`: any increments of moderate values and rates add up, in the arithmetic of doubles, to within `n + 2` units of the 52nd bit of the sum of their sizes, `n` being their number.
  - `C125_schedule`: in every schedule of arrivals and overlapping flushes, at every moment, the counts sent, those under way and the stored one are finite and add up to the sum of value/rate over all accepted increments, to within the error of the arithmetic.
  - `C125_integers`: for whole increments without sampling, in doubles, exactly.
  - `C125_service`: at every moment of every schedule of a service without rules, the counts sent to carbon, those under way, the stored one and the increments still scheduled add up to the increments of all texts taken in, to within the error of the arithmetic.
  - `C125_rules`: the same of a service with rules and plugins that do not raise on texts that the rules make counters of, for the increments among the messages that the rules make of all texts taken in.
  - `C125_shared`: a service that redirects the metrics of a condition to a second one and drops them itself, with the texts `lost` on the way: what the two have counted, the increments scheduled in either and those lost add up to all increments taken in by the first.

### C126 Timers of the default processor in doubles under overlapping flushes - proved

In every schedule of at most 2^52 messages, in double arithmetic, the accepted durations of a timer are cut into consecutive blocks, each summarised once, and the rest is stored: no duration is lost or used twice. Each summary is the five statistics with one timestamp; the count is exact always; for durations that are finite, not negative and add up to at most 2^1000, the least, the greatest and the greatest kept are exact, the number kept is right within a half and the error of one multiplication, and the mean of the kept ones is right up to one unit in the 52nd bit per duration. The counts sent, under way and stored add up to the number of accepted durations.

* Quantified over: every schedule of arrivals and flush steps with at most 2^52 messages; every threshold from 50 to 100; every arithmetic with the laws of IEEE doubles.
* Modelled (Model/Generator, Processor, Ieee): as C102, with float arithmetic that satisfies the laws of IEEE doubles instead of exact arithmetic.
* Proof: the watch invariant of C102, generalised over what is required of a summary; the summary of a block from C110.
* Theorems:
  - `C126_timers`: in every schedule with at most 2^52 messages, in double arithmetic, the accepted durations of a timer can be cut into consecutive blocks such that what was emitted or is under way for the timer is exactly one summary of each block, made by one of the flushes, and the rest is stored.
  - `C126_counts`: in double arithmetic too, the reported counts, emitted or under way, and the number of stored durations add up to the number of accepted durations.

### C127 Timers of the configurable processor in doubles under overlapping flushes - proved

In every schedule, in double arithmetic, the accepted durations of a timer of the configurable processor and the reports asked of it by the flushes make up one history, and what was emitted or is under way for the timer is exactly the reports of that history. A report never fails. It gives the number of all durations and the greatest and least of the period; the two percentiles lie between them, in order; the mean is right up to one unit in the 52nd bit per duration; the rate is the number of durations of the period divided by its rounded length, or 0 for an empty length; the standard deviation is not negative; all are rounded to six decimals.

* Quantified over: every history of a timer whose durations are doubles, every schedule with finite durations, every prefix; statements about the numbers for at most 2^52 durations that add up to at most 2^1000.
* Modelled (Model/Generator, Configurable, Reporters, Histogram, Ieee): as C104, with float arithmetic that satisfies the laws of IEEE doubles.
* Proof: what a timer holds after a history, by induction; its parts from C34, C108, C109 and C110; the watch invariant of C104, generalised over what is required of a report.
* Theorems:
  - `C127_report`: whatever happened to a timer of the configurable processor before, in double arithmetic a report succeeds and says what it should.
  - `C127_timers`: in every schedule, in double arithmetic, the accepted durations of a timer of the configurable processor and the reports asked of it by the flushes make up one history; what was emitted or is under way for the timer is exactly the reports of that history. (The key is not used for a counter or a meter as well, and its durations are finite.)

### C128 Totals of meters in doubles under overlapping flushes - proved

In any schedule, every total of a meter that a flush emits, of the default or the configurable processor, is the sum of the readings accepted up to some moment between the start of the flush and now: exactly if the readings are whole numbers whose sizes add up to at most 2^53; in doubles up to one unit in the 51st bit of the sum of the sizes per reading, then rounded to six decimals.

* Quantified over: every schedule, every flush, every key and prefix; every list of finite readings (at most 2^51, sizes adding up to at most 2^1000, for the statement about doubles).
* Modelled (Model/Generator, Processor, Configurable, Reporters, Ieee): as C103.
* Proof: C103, whose meter clause carries the total in exact arithmetic, in doubles and for whole numbers; names decide which clause applies.
* Theorems:
  - `C128_default`: in any schedule, every total of a meter that a flush of the default processor emits is the sum of the readings accepted up to some moment between its start and now: exactly for whole numbers, nearly in doubles.
  - `C128_configurable`: the same for the configurable processor. (The key is not used for a counter or a timer as well, and the total is not among the processor's own statistics.)

### C129 The life of a plugin metric of the configurable processor - proved

In every schedule of messages and overlapping flushes of the configurable processor, the plugin metric of a name goes through one life: it is built, with the configured prefix, by the plugin registered for the type of the first message under the name, and is then handed every later message of a plugin type under the name, in the order of arrival, between flushes at later and later readings of the clock. What was emitted or is under way for the name is exactly what those flushes made; without such a message nothing is stored or emitted.

* Quantified over: every set of plugins whose metrics name their points after their own name, every prefix, every name without readings of built-in types, every schedule.
* Modelled (Model/Generator, Processor, Configurable): `process_plugin_metric`, `flush_plugin_metrics` and `get_message_prefix` of the configurable processor, for any plugin objects.
* Proof: watch invariant: every stored plugin metric is the outcome of a life with exactly the messages of its name (`Lives`).
* Theorems:
  - `C129_plugin_life`: in every schedule of messages and overlapping flushes of the configurable processor, a plugin metric goes through one life: it is built with the configured prefix by the plugin of the type of its first message, is handed exactly the messages of plugin types under its name, in the order of their arrival, and what was emitted or is under way for the name is exactly what its flushes made. The plugins may be any whose metrics name their points after their own name.

### C130 SLI metrics of the configurable processor - proved

In every schedule of the configurable processor with the shipped plugins and a prefix that does not end in a dot, the events of an SLI metric can be cut into consecutive blocks such that what was emitted or is under way under prefix and name is exactly one report of each block, all counts right, and the stored metric would report the rest. The counts emitted, under way and stored add up to the number of events.

* Quantified over: every configuration with labels without dots, every prefix that does not end in a dot, every name, every schedule.
* Modelled (Model/Sli, Plugins, Generator, Configurable): the SLI plugin inside the configurable processor.
* Proof: C129; the reports of a life by induction over it.
* Theorems:
  - `C130_sli`: in every schedule of the configurable processor with the shipped plugins, the events of an SLI metric can be cut into consecutive blocks such that what was emitted or is under way for the name is exactly one report of each block, named prefix, dot, key, with all counts right, and the stored metric would report the rest.
  - `C130_counts`: the reported counts, emitted or under way, and the stored count add up to the number of events, at every moment of every schedule.

### C131 Distinct counts of the configurable processor - proved

In every schedule of the configurable processor with the shipped plugins, a prefix that does not end in a dot and a clock that never goes back, everything emitted or under way under prefix and name of a distinct metric is one report for each of a list of moments; each report gives the four estimates for a non-empty beginning of the stream of items, all seen not later than the report, through 32 hash tables that never change; the stored metric would report the whole stream.

* Quantified over: every prefix that does not end in a dot, every name, every schedule, every clock that never goes back.
* Modelled (Model/Distinct, Plugins, Generator, Configurable): the distinct plugin inside the configurable processor.
* Proof: C129; the reports of a life by induction over it.
* Theorems:
  - `C131_distinct`: in every schedule of the configurable processor with the shipped plugins, with a clock that never goes back, what was emitted or is under way for a distinct metric is one report for each of a list of moments, named prefix, dot, key: each report gives the estimates for a beginning of the stream of items, through the same 32 hash tables all the time. The stored metric would report the whole stream.

### C132 Names under the prefix of the configurable processor (refuted) - partial

Everything that a flush of the configurable processor with the shipped plugins emits is named prefix, dot, the key of a message received, dot and a word, or is one of the processor's own statistics. Refuted for prefixes that end in a dot: with the prefix 'p.' the SLI plugin names the metric a 'p.a.count', whereas all other metrics are named 'p..a.count'. Partial: it holds for all other prefixes, in every schedule.

* Quantified over: every prefix, every configuration with labels without dots, every schedule of arrivals and flush steps.
* Modelled (Model/Sli, Distinct, Plugins, Generator, Configurable): the names that the two plugins and the four built-in metrics give under a configured prefix.
* Proof: C103 and the names of the points of metrics that can come about; a concrete schedule with the prefix p. for the refutation.
* Note: Refuted for prefixes that end in a dot; proved for all others.
* Theorems:
  - `C132_names_partial`: everything that a flush of the configurable processor with the shipped plugins emits, in any schedule, is named prefix, dot, the key of a message, dot and a word, or is one of the processor's own statistics, if the prefix does not end in a dot. (For other prefixes SLI metrics are named otherwise, see `C132_refuted`.)
  - `C132_refuted`: the full statement, for any prefix, is false: with the prefix "p." the SLI metric `a` is reported as "p.a.count", though every other kind of metric under that prefix is named "p..a.count".

### C133 Exponentially decaying samples in doubles (order refuted) - partial

An ExponentiallyDecayingSample in double arithmetic never raises, whatever the times of the updates, if random() does not return 0. It always holds as many values as fit, those of the highest priorities, where the priority of a value is exp(alpha * (time - landmark)) / random() when it is added, multiplied by exp(-alpha * shift) whenever the landmark moves. Refuted: that a value never leaves before another one of the same time with a lower priority; after a gap of 14 hours all priorities are 0 and the smallest value leaves first. Partial: moving the landmark never inverts the order of priorities (it can only make them equal).

* Quantified over: every capacity from 1, every alpha in [0, 1], every sequence of updates and clears with times within 30000 years of the epoch, every exponential function on doubles with exp(0) = 1, exp(x) at most 1 for x at most 0, at most 2^900 for x at most 602 and 0 for x at most -746.
* Modelled (Model/DecayFloat): `ExponentiallyDecayingSample` in doubles, with any exponential function that satisfies five laws; `bisect.insort` on pairs.
* Proof: invariant: the sorted list and the values dropped are the aged entries, and no dropped entry is above a held one; multiplying by a factor of at most 1 and rounding is monotone. A three-call history for the refutation.
* Note: Order of equal times refuted (underflow); never raises and keeps the highest aged priorities for all histories.
* Theorems:
  - `C133_never_raises`: a decaying sample never raises, whatever the times of the values, as long as the clock stays within 30000 years of the epoch and `random()` does not return 0.
  - `C133_no_room`: a sample with no room at all raises an IndexError with every value, and holds none.
  - `C133_top`: it holds as many values as fit, each as often as it was added at most, and those of the highest priorities, where the priority of a value is the one it got when added, multiplied (in doubles) whenever the landmark moved. It lists them in the order of the priorities.
  - `C133_ties`: the values are listed in the order of their priorities, and values of equal priorities in their own order, unless there are NaNs among them.
  - `C133_move_partial`: moving the landmark keeps the values. It keeps their order as well if it tells the priorities apart: if no two different ones become equal.
  - `C133_order_refuted`: refuted: with whatever exponential function, values added at the same time do not leave the sample in the order of their priorities: after a gap of 14 hours all old priorities are 0, and the least value leaves first.

### C134 Histograms over decaying samples, accessors of timers, reports of histograms (refuted) - partial

The least and greatest value, the mean and the standard deviation of a histogram over a decaying sample are those of all values since the last clear, whatever the times and the random draws; its percentiles always exist, lie between values held, and are ordered as the quantiles. The same holds of the accessors of a timer for the durations since the last report that are not negative. Refuted: that a histogram can be reported; HistogramMetricReporter.report never returns. Partial: it always fails with a TypeError when all values were durations.

* Quantified over: every sequence of updates and clears with times within 30000 years of the epoch; every history of durations and reports of a timer; every histogram for the refutation.
* Modelled (Model/DecayFloat, Histogram, Reporters): `HistogramMetricReporter` over a decaying sample, its `report`, and `max`, `min`, `mean`, `std_dev`, `percentiles`, `get_values` of a timer.
* Proof: the numbers equal those of a uniform histogram fed the same values, then C34, C108, C110; scores as in C109; `report` by cases.
* Note: report of a histogram never returns; all numbers, percentiles and timer accessors proved.
* Theorems:
  - `C134_numbers`: the numbers of a histogram over a decaying sample do not depend on times and random draws: least, greatest, and how many; the standard deviation exists and is not negative; the mean is right up to one unit in the 52nd bit per value.
  - `C134_percentiles`: the percentiles of a histogram over a decaying sample are found for every list of quantiles. Each lies between two of the values held, which are among those added; a greater quantile never has a smaller score.
  - `C134_report_refuted`: refuted for every histogram: `report` never returns.
  - `C134_timer`: what the accessors of a timer of the configurable processor return between reports, after any durations and reports: the numbers of the durations since the last report that are not negative.
  - `C134_report_type_error_partial`: the report of a histogram that received durations fails with a `TypeError`.

### C135 Texts that are not ASCII (refuted) - partial

Every name, value and type given to a client is sent in UTF-8, and the server counts it under the name's normal form. Refuted: a call with a byte string that has a byte above 127, such as a name already in UTF-8, raises UnicodeDecodeError and sends nothing. Partial: unicode strings and ASCII byte strings may be mixed freely; the connection gets the UTF-8 bytes of the qualified name, a colon and the data, and the server takes these bytes apart as if they were the characters, with a key in which all characters outside ASCII have been left out. Without a connection nothing is sent.

* Quantified over: every namespace and name, present or not, every value, type and extra text, unicode or bytes, every sample rate text, every text received.
* Modelled (Model/PyText, Metrics, Text): `fully_qualify_name`, `send`, `write` and the formatting of `mark` for Python 2 byte and unicode strings; UTF-8.
* Proof: the encoder equals Lean's; joining and formatting keep the characters or raise (`Stands`, `Spoilt`); strip, split and normalisation commute with the encoding.
* Note: Refuted for byte strings with bytes above 127 (C135_refuted, C135_raises); proved for all mixtures of unicode and ASCII byte strings (C135_sends_partial), and for the server's side.
* Theorems:
  - `C135_sends_partial`: if the namespace, the name and the other texts of a call are unicode strings or ASCII byte strings, in any mixture, the connection gets the UTF-8 bytes of the qualified name, a colon, the data of the call and the sampling annotation.
  - `C135_raises`: one byte string with a byte above 127 among the texts makes the call raise `ValueError` (`UnicodeDecodeError`), and nothing is sent.
  - `C135_refuted`: C135 fails: a name given as a byte string in UTF-8 cannot be reported.
  - `C135_server`: the server takes the bytes apart as if they were the characters. A text that follows the grammar is accepted with its type and fields encoded. Its key is the normalised name, in which no character outside ASCII is left.
  - `C135_refused`: the bytes of any other text are refused.
  - `C135_unconnected`: without a connection nothing is sent, whatever the texts.
  - `C135_counted`: from the call to the key: incrementing a counter under a name without a colon, not beginning with white space, is counted under the name's normal form.

### C136 Chances of items in the distinct counter (refuted) - partial

With a random hash table, every item has the chance one half to fall into the first bucket of a hash function. Refuted: an item in which every byte occurs an even number of times (such as '1212') has an even hash whatever the table. Any number of such items is counted like an empty window, as 1, unless one of the hashes is 0. Partial: if some byte occurs an odd number of times, flipping the lowest bit of its table entry decides between an odd and an even hash, so exactly half of all tables of 32-bit numbers give an odd hash.

* Quantified over: every item, every table of 32-bit numbers, every number of hash functions, every history of items under a clock that never goes back, every window.
* Modelled (Model/Distinct): `SBoxHash.hash`, `zeros`, the buckets.
* Proof: the lowest bit of the hash is the parity of the sum of the entries; counts of bytes for the sum; C40 for the estimate.
* Note: Refuted for items in which every byte occurs an even number of times (C136_refuted, C136_paired, C136_unseen); the chance of one half is proved for all other items (C136_half_partial). Tables are pairs of arbitrary 32-bit tables; random.randint(0, 0xFFFFFFFE) leaves out one value.
* Theorems:
  - `C136_level0`: an item falls into the first level exactly if its hash is 0 or the sum of the table entries of its bytes is odd.
  - `C136_half_partial`: if some byte occurs an odd number of times, the chance is one half. The tables come in pairs that differ in the lowest bit of the entry of this byte, and the hash is odd for exactly one of the two.
  - `C136_paired`: an item in which every byte occurs an even number of times has an even hash, whatever the table.
  - `C136_unseen`: so any number of such items is counted like an empty window, unless one of them has the hash 0.
  - `C136_refuted`: C136 fails: not every item has a chance to fall into the first level by an odd hash.

### C137 Collisions and bounds of the distinct counter - proved

Two items that differ in one byte have the same hash exactly if the table gives the two bytes the same entry. Two items have the same hash after the same text is appended to both exactly if they had it before. A window with k different items is never counted as less than 1 nor as more than 2 ** k / 0.77351, nor as more than 2 ** n / 0.77351 with n buckets.

* Quantified over: every table of 32-bit numbers, all items; every number of hash functions and buckets, every history of items under a clock that never goes back, every window, every monotone function with value 1 at 0 standing for 2 ** v.
* Modelled (Model/Distinct): `SBoxHash.hash`, the estimate.
* Proof: a step of the hash is injective (xor, and multiplication by 3 modulo 2^32); levels of different items are an injection.
* Theorems:
  - `C137_one_byte`: two items that differ in one byte get the same hash exactly if the table has the same entry for the two bytes.
  - `C137_suffix`: items with the same hash have the same hash after anything appended to both; otherwise they differ after it.
  - `C137_bound`: `k` different items are never counted as more than `2 ** k / 0.77351`.

### C138 Moving averages in doubles - proved

With float arithmetic as well, the rate of a moving average lies between the least and the greatest rate of the completed intervals and no tick raises; with the same number of events in every interval it is that rate, rounded once; with nothing to count it never rises, stays positive if it was, and loses at least alpha/2 of itself with each tick until it is below 2^-900. An interval of zero makes every tick raise after the count has been dropped. The constants of the one, five and fifteen minute averages lie between 1/256 and 1/4.

* Quantified over: every double alpha in the stated ranges, every whole interval and counts up to 2^53, every sequence of updates and ticks, every rounding with the properties of IEEE 754 doubles.
* Modelled (Model/EwmaFloat): `Ewma` with every operation in floats.
* Proof: induction over the operations: the state is determined by the totals of the intervals; a step between two doubles stays between them (`step_between`); decay by bounds on two roundings; the constants by bounds on the exponential function.
* Theorems:
  - `C138_hull`: in doubles too the moving average lies between the smallest and the greatest rate of the completed intervals, and no tick raises.
  - `C138_constant`: with the same number of events in every interval the average is the rate, rounded once.
  - `C138_idle`: intervals without events after a tick: the average only falls, never reaches zero if it was positive, and loses at least `alpha / 2` of itself each time until it is below `2^-900`.
  - `C138_zero_interval`: with an interval of zero every tick raises and forgets the events; the rate stays zero.
  - `C138_alphas`: the constants of the class (before rounding) are in the range of the theorems.

### C139 Durations, lines and thresholds in doubles - proved

Where the clock reads doubles within a factor of two of the starting time, the durations that timing() reports add up exactly to the elapsed time, each rounded only when it is turned into milliseconds. The SLI conditions above and below decide correctly all values that are not within a relative 2^-51 of their line, exactly where the line can be computed without rounding, and a greater size never turns below into not below when the slope is not negative. The status page says ERROR when the two times exceed 0.7 times the interval by a relative 2^-51, and does not when they are a relative 2^-53 short of it.

* Quantified over: every sequence of calls, all doubles and whole numbers in the stated ranges, every rounding with the properties of IEEE 754 doubles.
* Modelled (Model/Metrics, Sli, Http): `timing` without a duration, `AboveCondition`, `BelowCondition`, the status page, with a rounding of IEEE 754.
* Proof: Sterbenz's lemma on differences of doubles; error bounds of one rounding, added up; monotonicity of rounding.
* Theorems:
  - `C139_tiling`: differences of clock readings within a factor of two are not rounded, so that in doubles too the durations reported by `timing` add up exactly to the time from `reset_timing` to the last call: each is only rounded when it is turned into milliseconds.
  - `C139_lines`: in doubles `above` and `below` compare with the line `v + s * q` correctly, except perhaps for values within a relative distance of `2^-51` of it (relative to `|v| + |s * q|`).
  - `C139_lines_exact`: where the line can be computed without rounding, as with whole numbers below `2^53`, the comparisons are exact.
  - `C139_lines_mono`: with a slope that is not negative a greater size only moves the line upwards, whatever is rounded: what is below the line stays below, what is above the line of the greater size is above that of the smaller.
  - `C139_status_sound`: in doubles the page says ERROR only if the two durations together exceed 0.7 times the interval (as numbers, the interval in milliseconds), but for a relative `2^-53`.
  - `C139_status_complete`: and it does say ERROR if they exceed it by more than a relative `2^-51`.

### C140 The distinct counter in doubles - proved

With float arithmetic as well, the mean of the runs of hit levels is not rounded, and the limits of the last minute, hour and day are computed exactly from a double clock reading between one day and 2^53 seconds. The estimate is 2 ** mean / 0.77351 rounded down, but for a relative error of 2^-51 before rounding down; where the mean is a whole number up to 33 it is exactly the greatest whole number not above 2^k / 0.77351. A window that begins earlier never counts less. Counting never raises.

* Quantified over: every number of hash functions that is a power of two up to 2^30 (the reporter has 32), up to 1000 buckets, every table and history, every rounding with the properties of IEEE 754 doubles, every monotone power function that is right at whole numbers.
* Modelled (Model/DistinctFloat, Distinct): `distinct` and `flush` of the distinct counter with every operation in floats; `2 ** v` as a monotone function that is exact at whole numbers.
* Proof: sums of whole numbers and quotients by powers of two are exact; a whole number taken from a greater double is exact; 77351 does not divide 2^k * 10^5, so that the estimate keeps away from whole numbers by more than the error.
* Theorems:
  - `C140_value`: in doubles too the count comes from the unbroken runs of hit levels: their mean `m` is not rounded at all, and the estimate is the quotient of `2 ** m` by 0.77351 rounded down, but for a relative error below `2^-51` before the rounding down.
  - `C140_whole`: if the mean of the runs is a whole number `k`, as when all hash functions agree, the estimate is the exact one: the greatest whole number that is at most `2^k / 0.77351`.
  - `C140_windows`: a window that begins earlier never counts less in doubles either, and counting does not raise.
  - `C140_flush`: with a clock that reads doubles, between a day after the epoch and `2^53`, the limits of the windows are computed without any rounding, so that a flush reports the counts of exactly the last minute, hour and day, none smaller than the one before.

### C141 The reactor inspector as a service (restart refuted) - partial

However often the inspector's service is started, it never runs more than one thread. As long as nobody stops it, its readings are those of the loop alone, whatever further starts happen. After a stop there is at most one more reading. A dump of the frames has one message for every other thread, in order, and marks exactly the thread that called start last. Refuted: that a service which was stopped and started again goes on inspecting; it never makes a reading again.

* Quantified over: every sequence of starts and stops of the service, acts of the inspector's thread and executions by the reactor, at any times; every set of threads.
* Modelled (Model/Inspector, Report): `ReactorInspectorService`, `start`, `stop`, the flags and the condition of the loop, `dump_frames`.
* Proof: invariant on the flags; simulation of the loop by induction; a measure (readings made plus those under way) that no event raises after a stop. A four-event history for the refutation.
* Note: A stopped and restarted inspector never inspects again (C141_restart_refuted).
* Theorems:
  - `C141_one_thread`: however often the service is started, there is never more than one thread, and one as soon as it was started once.
  - `C141_service`: the service counts as running exactly after a start that no stop followed.
  - `C141_loop_partial`: as long as nobody stops the service, further starts change nothing: from the moment its thread begins, the readings are those of the loop alone (C74, C90). Missing for the full claim (`C141_restart_refuted`): after a stop.
  - `C141_after_stop`: after the service was stopped there is at most one more reading - the one of a round that had begun - whatever happens later, further starts included.
  - `C141_restart_refuted`: refuted: a service that was stopped and started again should go on inspecting: with the service up, a request answered by the reactor and a check should make a reading. They do not.
  - `C141_dump`: an unresponsive reactor makes a dump of every other thread, once, in order, and the one that started the inspector is the one marked as the reactor's.

### C142 Reports from files (recovery refuted) - partial

A text is cut into exactly its lines. The reports of SYSTEM_STATS do not disturb each other, and no two standard reports ever report the same name. The reports about memory and load give what the file says at that moment, whatever failed before, and fail when it cannot be read. The traffic reported for a device adds up to the difference between the last and the first count in /proc/net/dev, if no device appears. Refuted: that the traffic report gives something whenever its file is in order; after one failure, such as a device that appears, it never gives anything again.

* Quantified over: every sequence of calls of the four reports at moments with arbitrary files and CPU times; all readings of psutil for the names.
* Modelled (Model/Files, System): `splitlines`, `load_file`, `report_file_stats`, `SYSTEM_STATS` with its generators, the reports about thread pools and reactors.
* Proof: equivalence of cutting and the grammar of lines; projection of a run to one report; C73, C89 and C72 carried to the text of the file; prefixes of names that exclude each other. A three-call history for the refutation.
* Note: The counter reports end for good at their first failure (C142_recovery_refuted).
* Theorems:
  - `C142_lines`: a text is cut into exactly its lines.
  - `C142_alone`: the reports do not disturb each other: what one of them returns over any sequence of calls is what it would return alone.
  - `C142_memory_partial`: whatever was called and failed before, the report about the memory gives what the file says at that moment. Missing for the full claim (`C142_recovery_refuted`): the reports behind a generator.
  - `C142_load_partial`: likewise the load averages.
  - `C142_missing`: a file that cannot be read makes its report fail, then and only then.
  - `C142_traffic`: over any number of readings of `/proc/net/dev`, between which no device appears, what is reported for a device adds up to the difference between the last and the first count in the file.
  - `C142_stuck`: after its first failure the traffic report never gives anything again, whatever the file says.
  - `C142_names`: the standard reports share no name: no two of them ever report the same metric, whatever they read.
  - `C142_pools`: a thread pool and a reactor are reported under their four and two names.
  - `C142_recovery_refuted`: refuted: a report should give something whenever its file is in order. The traffic report does not: a device that appears ends it for good.

### C143 The pages are JSON (infinite durations refuted) - partial

The text that json.dumps makes of the status page, of the list of metrics and of a timer's page is a JSON text by the grammar of RFC 8259, whatever the order in which the dictionary is iterated, and a reader gets from it exactly the data of the page: names character by character, whole numbers exactly, floats to the last bit. A JSON text has one meaning only. The list names exactly the metrics received. Refuted: that every page answered with 200 is JSON; a timer that once received inf and has since lost it from its reservoir shows Infinity as its maximum.

* Quantified over: every history of messages and flushes on either processor, every world, every order of the members, all names; for timers, histories with finite durations and completed flushes.
* Modelled (Model/Json, Site): `json.dumps` of the three pages: numbers, strings with escapes, arrays, objects in any order of iteration.
* Proof: the text built follows the grammar rule by rule; determinism of the grammar by induction on derivations (what follows a number, string or value begins with a character that cannot continue it); invariant that the times shown are doubles; C113, C114 for the data. A history of 1029 durations for the refutation, by lemmas on the reservoir.
* Note: A timer that lost an infinite duration from its reservoir shows Infinity, which is not JSON (C143_refuted).
* Theorems:
  - `C143_text`: the text of a page without infinities and nan is a JSON text (RFC 8259) of the data of the page, whatever the order of the members.
  - `C143_unambiguous`: a JSON text has one meaning only, so that nothing else can be read from a page.
  - `C143_status_default`: the status page of the default processor, after any history, unless one of its times is infinite or nan.
  - `C143_status_configurable`: the same of the configurable processor.
  - `C143_names`: the list of the default processor, after any history, is a JSON text with exactly the names received, each once.
  - `C143_timer_partial`: the page of a timer that received finite durations only, and whose flushes were completed, is a JSON text of its histogram and extremes whenever it is answered with 200. Missing (`C143_refuted`): infinite durations.
  - `C143_refuted`: C143 is refuted for infinite durations: a timer that received `inf` and has since lost it from its reservoir is answered with 200 and a text with `Infinity` in it, which is no JSON.

### C144 Floats in the pages - proved

A float in a page is written with the fewest digits that are read back as the same float, at most 17, and among those with the number closest to it; nan and the infinities are read back by float() too, but are not JSON. Different floats have different texts. From 0.0001 to below 10^16 the text is digits with a point, otherwise it has an exponent.

* Quantified over: all IEEE 754 doubles.
* Modelled (Model/Json, FloatStr): `repr` of a float: the fewest digits, the closest of these, point or exponent.
* Proof: binary64 rounds to the nearest, so that the numbers rounded to a double are an interval around it; the three candidates for n digits are the only ones that can lie in it closest; 17 digits always suffice; layout shared with C116.
* Theorems:
  - `C144_shortest`: the text of a float is a number that is read as that float; it has at most 17 digits, no decimal number that is read as that float has fewer digits, and none with as many digits is closer.
  - `C144_roundtrip`: a float written in full and read by `float` is the same float, unlike with `str` (`C116_refuted`).
  - `C144_injective`: different floats have different texts.
  - `C144_shape`: the shape of the text, by the number it denotes: digits with a point from 0.0001 to below 10^16 and for zero, otherwise a digit, perhaps more after a point, and an exponent.
  - `C144_special`: nan and the infinities have texts that are no JSON.

### C145 How long the server worked - proved

A completed flush reports what passed on the server's clock: receive.<type>.duration is 1000 times the sum, over the messages of the type handled since the last completed flush, of the time between the readings before and after, and is absent if there were none; flush.<kind>.duration is 1000 times the time between two readings, and the stretches of the five kinds follow each other within the flush, so that on a clock that never goes back they add up to no more than the flush took. The status page shows the sums of the same times in seconds.

* Quantified over: every history of messages and flushes on either processor, every clock, any plugins (on the default processor: that report no names of the server's own), exact arithmetic.
* Modelled (Model/Processor, Configurable, Site): `process` with its two readings of the clock, `timings`, the parts of `flush` with their readings, the status page.
* Proof: invariant: the stored pairs are the count and the sum of the readings since the last flush; the parts of a flush cut the time from start to end into adjoining pieces; linear arithmetic.
* Note: Exact arithmetic (Rounding with Exact); default processor with plugins whose names are not the server's own (Quiet).
* Theorems:
  - `C145_receive`: a completed flush reports `statsd.receive.<t>.duration` once: in milliseconds, the time spent on the messages of type `t` handled since the last completed flush; and not at all if there were none.
  - `C145_flush`: and `statsd.flush.<kind>.duration` once for each kind: in milliseconds, the time between two readings of the clock; the stretches of the five kinds follow each other, from the second reading of the flush to its last.
  - `C145_configurable`: on the configurable processor the last datapoints of these names are the ones of the summary, with the same contents; the counts are those of the messages handled.
  - `C145_status`: after a completed flush the status page shows the sums of these times, in seconds; on the default processor.
  - `C145_status_configurable`: the same on the configurable processor.
  - `C145_within`: with a clock that never goes back, the stretches of a flush add up to no more than the time it takes.

### C146 Which calls of the client raise - proved

In any history of calls of Metrics or ExtendedMetrics the first call for a name decides what later calls for it may be: a call raises exactly if its kind does not fit that of the first (AttributeError where the object has no such method, TypeError where it takes another number of arguments) or if a text is to be counted (TypeError). A call that raises sends nothing. If each name is used with calls of one kind and only numbers are counted, nothing ever raises; reset_timing and clear never do. sli and sli_error send <name>:<duration>|sli[|<size>] and <name>:error|sli.

* Quantified over: every history of calls, all arguments and clocks, both classes.
* Modelled (Model/Metrics): every call of `Metrics` and `ExtendedMetrics`, `sli`, `sli_error`, the table of metric objects.
* Proof: the object a call finds has the class of the first call for its name (C66); case analysis over calls and classes against a separate table; induction over the history.
* Note: Arguments are numbers or texts; tuples and objects with their own formatting are not modelled.
* Theorems:
  - `C146_first_decides`: in any history of calls, the first call for a name decides what the later ones may be: whether a call raises, and what, depends on the first call for its name and on its own arguments alone; a call that raises sends nothing.
  - `C146_never`: `reset_timing` and `clear` never raise.
  - `C146_consistent`: if each name is used with calls of one class only and only numbers are counted, no call raises.
  - `C146_sli`: what `sli` and `sli_error` send, for a name not used otherwise before.

### C147 Gauges and counters on their own - proved

A gauge reporter reports the value marked last, 0 before the first, under <prefix>.<name>.value; a counter reporter reports the count marked last without its fraction, 0 before the first, under <prefix>.<name>.count, and raises ValueError for a NaN and OverflowError for an infinity.

* Quantified over: all names, prefixes, sequences of marks and timestamps.
* Modelled (Model/Reporters): `CounterMetricReporter`, `GaugeMetricReporter`.
* Proof: induction over the marks; floor and ceiling.
* Note: The reporters as such; inside the configurable processor see C28.
* Theorems:
  - `C147_gauge`: a gauge reports the last value it was given, 0 before the first.
  - `C147_counter`: a counter reports the last count it was given, without its fraction; 0 before the first. An infinite count or a NaN makes the report raise.

### C148 Datagrams out of order or repeated - proved

The datagrams of an interval may arrive in any order. The statistics reported for a timer and the list of metrics do not depend on it, in any arithmetic; a count does not depend on it in exact arithmetic nor for whole unsampled increments up to 2^53, and otherwise differs by at most twice the rounding error of the additions; the readings of a gauge are reported in the order of arrival, none lost; the total of a meter does not depend on it for whole readings, and in exact arithmetic it is the sum rounded to six decimals, whatever flushes were under way. On the configurable processor repeated datagrams make no difference to counters and gauges. Beyond that the order matters (refuted with witnesses): a count in doubles, the last reading of a gauge, and repetitions on the default processor.

* Quantified over: every history before, every permutation of the datagrams after it, all worlds and plugins that keep off the names concerned, all names.
* Modelled (Model/Processor, Configurable): `process`, `flush` and the parts of it for timers, counters and gauges, `get_metric_names`.
* Proof: permuted messages store permuted durations, and sorting forgets the order (nan excluded, since it does not sort); additions commute when exact, otherwise both sums are near the exact one (C125); marking the same value twice is marking it once.
* Note: C148_counters_refuted, C148_gauges_refuted and C148_repeated_refuted mark where the statement ends: counts in doubles, the order of gauge readings, repetitions on the default processor.
* Theorems:
  - `C148_timers`: the statistics of a timer do not depend on the order in which the messages since any earlier moment arrive, in every arithmetic. (No duration is nan, both flushes complete, and no counter is called `timers.…`.)
  - `C148_counters`: in exact arithmetic the totals of the counters do not depend on the order either.
  - `C148_counters_near`: in floating point the totals of finite increments in two orders differ by at most twice the error of the arithmetic (`AddsUp`: nothing for whole increments, C125_whole; a few units of the last place otherwise, C125_moderate).
  - `C148_counters_whole`: whole unsampled increments are counted alike in every order in doubles.
  - `C148_gauges`: the readings of a gauge are reported in the order of their arrival, so another order of arrival permutes them.
  - `C148_listing`: neither does the listing of the names, in any arithmetic.
  - `C148_repeated`: on the configurable processor it makes no difference to the counters and gauges how often a datagram is repeated.
  - `C148_counters_refuted`: in doubles the order of the datagrams can change the total of a counter.
  - `C148_gauges_refuted`: the order of the datagrams can change which reading of a gauge is the latest reported.
  - `C148_repeated_refuted`: on the default processor a repeated datagram changes the counters.
  - `C148_meters`: whatever flushes were under way before, the total of a meter that a flush reports after the same messages in another order is the same: in doubles for whole readings, in exact arithmetic up to the six decimals it is rounded to. (Its rate depends on when the meter was created.)
  - `C148_metersC`: the same of the configurable processor. (The key is not used for a counter, a timer or a plugin as well, no other metric of a plugin has a point of this name, and it is not among the processor's own statistics.)

### C149 Counting behind a sharded client - proved

If a client writes through a ConsistentHashingClient to several servers, and each server gets its datagrams in any order and flushes when it likes, the counts all servers report for a name, together with what they still hold, add up to what was written, within the rounding error of the additions; if the name was always written in the same way, all of it is counted by a single server, which its name alone determines. The same holds of timers and gauges: one server reports the statistics of the timer, or the readings of the gauge (if the order is kept), that a single server would report that got everything, and the others report nothing of it. And of meters: one server reports the total of all readings, exactly for whole readings and rounded to six decimals in exact arithmetic, in any order and whatever flushes were under way, and no other server has a point of that name. On servers with the configurable processor, if the order is kept, one server reports the latest value written of a counter or gauge in every completed flush, and no other server ever receives a value of it. Two names that the servers normalise to the same key can go to different servers (refuted with a witness).

* Quantified over: all hash functions, sets of servers, sequences of writes, schedules of each server, all names.
* Modelled (Model/Hashing, Client, Processor, Configurable, Service): `ConsistentHashingClient.write`, the ring, and one service per client with its schedule of datagrams and flushes.
* Proof: the datagrams of the servers together are a permutation of the writes (C59); the balance of one server (C125) summed over the servers; a datagram of a key written under one name has the owner of that name; C103 and C128 for the totals of meters, C25 for the latest values.
* Note: C149_one_refuted: "/x" and "-x" are one counter at the server but two names for the ring.
* Theorems:
  - `C149_total`: clients that write to several servers through consistent hashing: whatever the network does to the order, all the increments of a counter that can be sent are counted, once, on the servers together (up to the error of the arithmetic), in any schedule of each server.
  - `C149_one`: if all the increments of a counter are written under one name, one server counts them all, and every other server has nothing but zeros for it.
  - `C149_one_refuted`: without that, a counter may be split: names that the server takes for the same one can belong to different servers.
  - `C149_latest`: on servers with the configurable processor, whose datagrams arrive in the order they were written: one server reports, in every completed flush, the latest value written for a counter or gauge, and no other server ever receives a value of it.
  - `C149_meters`: the same for a meter, whatever the network does to the order and whatever flushes were under way: one server reports the total of all readings that can be sent (in doubles for whole readings, in exact arithmetic up to the six decimals it is rounded to), and no other server has a point of that name.
  - `C149_timers`: if the durations of a timer are written under one name, one server reports of it what a single server would report that got everything, and the other servers report nothing of it; the texts may arrive in any order.
  - `C149_gauges`: the same for a gauge, if the texts arrive in the order they were written.

### C150 The server's durations in doubles - proved

With a clock of doubles that never goes back and has not doubled its first reading, the durations the server reports of its own work are finite, not negative and near the exact ones: one rounding off for each kind of metric flushed, n + 1 for n messages of a type received. The times on the status page are too, and the page decides by their exact sum unless that is within 2n + 9 roundings of the threshold.

* Quantified over: every history of messages (fewer than 2^49) and flushes, every such clock, any plugins; the status page on either processor, the datapoints on the default one.
* Modelled (Model/Processor, Configurable, Site, Ieee): as C145, with every addition, subtraction and multiplication rounded.
* Proof: differences of readings are exact (Sterbenz); k roundings of numbers that are not negative have a relative error of (1 + 2^-53)^k - 1, since sums and multiples of doubles do not underflow; invariants over the history as in C145.
* Theorems:
  - `C150_receive`: `statsd.receive.<t>.duration` in doubles: a finite number of milliseconds that is not negative, within n + 1 roundings of the time spent on the n messages of type `t` since the last completed flush.
  - `C150_flush`: `statsd.flush.<kind>.duration` in doubles: finite, not negative, and one rounding off the time between the two readings.
  - `C150_page`: the status page after a completed flush, on the default processor: the two times are finite, not negative, and near the exact ones; and the page decides by their exact sum, except within `2n + 9` roundings of the threshold.
  - `C150_page_configurable`: the same on the configurable processor.

### C151 How often the distinct counter is far off - proved

Over all tables of 256 32-bit numbers, an item with a byte that occurs an odd number of times gets every hash value equally often, and two items get every pair of values equally often if some byte occurs an odd number of times in the two together (otherwise both hashes are odd or both even, whatever the table). So if m such items were seen in the window, the run of levels counted for a hash function ends at or before level j with less than 2^(j+2)/m of the tables, and goes beyond level j with at most m/2^(j+1) of them.

* Quantified over: all lists of items pairwise so, all sequences of sightings and windows, all levels below 32.
* Modelled (Model/Distinct): `SBoxHash.hash`, `zeros`, `add` and `distinct`, counted over all tables (entries up to 2^32 - 1, of which `randint` never draws the last).
* Proof: with all entries fixed but those of two bytes whose counts in the two items are independent modulo 2, the two entries and the two hashes determine each other: the lowest bit in which entries differ shows in the hashes (the steps never carry downwards); pairwise independence; Chebyshev's inequality for the shares missed.
* Theorems:
  - `C151_value`: an item in which some byte occurs an odd number of times has each of the 2^32 hash values with as many tables.
  - `C151_values`: the hashes of two unalike items are independent: each pair of values is had with as many tables.
  - `C151_alike`: the hashes of two items that are alike are odd or even together, with every table.
  - `C151_missed`: a set of hash values is met by none of `m` unalike items with a share of at most `(2^32 - K) / (m * K)` of the tables, where `K` is the size of the set.
  - `C151_met`: and by some of `m` items with a share of at most `m * K / 2^32`.
  - `C151_level`: among `m` unalike items none falls into level `j` with a share of less than `2^(j + 1) / m` of the tables.
  - `C151_run_short`: if `m` unalike items were seen in a window, the run of hit levels stops at or before level `j` with a share of less than `2^(j + 2) / m` of the tables.
  - `C151_run_long`: if no more than `m` items were seen, in each of which some byte occurs an odd number of times, the run goes beyond level `j` with a share of at most `m / 2^(j + 1)` of the tables.

### C152 The distinct counter is seldom far off - proved

Over all tables of k = 2^j hash functions, with at most 2^l items seen in the window, each with a byte that occurs an odd number of times, the number reported is above 2^(l+d)/0.77351 with a share of at most (2 (2/3)^d)^k; with at least 2^(x+d+2) items, pairwise with a byte that occurs an odd number of times in the two, it is below 2^x/0.77351 - 1 with a share of at most that. For the counter of a reporter (32 buckets, 32 hash functions) and the tables that randint can draw: of m such items it reports more than 21 m, or e with m > 50 (e + 1), with less than one in a million of the draws. Computed in doubles.

* Quantified over: all lists of up to 2^32 such items, all sequences of sightings, all windows.
* Modelled (Model/Distinct, DistinctFloat): `SBoxHash.hash`, `add`, `distinct` with its roundings, counted over all choices of the tables, and over those `randint` can draw.
* Proof: C151 bounds the tails of the run of one hash function; the mean of (3/2)^run over the tables is then bounded, that of the product over independent tables is a product, and Markov's inequality bounds the sum; the report is monotone in the sum (C140); the numbers not drawn are a small share (Bernoulli).
* Theorems:
  - `C152_long`: if at most `2^l` items were seen, each with a byte that occurs an odd number of times, the runs of `k` hash functions have a mean of `l + d` or more with a share of at most `(2 (2/3)^d)^k` of the tables.
  - `C152_short`: if at least `2^l` unalike items were seen, the runs have a mean of `l - 2 - d` or less with a share of at most `(2 (2/3)^d)^k`.
  - `C152_above`: if at most `2^l` items were seen, each with a byte that occurs an odd number of times, the number reported is above `2^(l + d) / 0.77351` with a share of at most `(2 (2/3)^d)^k`.
  - `C152_below`: if at least `2^(x + d + 2)` unalike items were seen, the number reported is below `2^x / 0.77351 - 1` with a share of at most `(2 (2/3)^d)^k`.
  - `C152_million`: the counter of a reporter, with 32 buckets and 32 tables drawn at random: if the `m` items seen in the window are unalike, it reports more than `21 m`, or so little that `m > 50 (e + 1)`, with fewer than one in a million draws.
  - `C152_reports`: and it does report a number, only one, whatever the tables.

### C153 Random hashes (partly refuted) - partial

Each SBoxHash makes 256 draws of its own; the tables of a counter are the consecutive draws, each choice of tables coming from exactly one sequence of draws. Two instances hash differently: they do if their tables differ in an entry, and on an item with a byte that occurs an odd number of times they agree with exactly one in 2^32 of the pairs of tables; but they can draw equal tables, and the empty text has the hash 0 with all (refuted). The module's hash draws a table for each call, so it is no function of the data (refuted).

* Quantified over: all sequences of draws, numbers of hash functions and buckets, all items.
* Modelled (Model/SBoxDraw, Distinct): `SBoxHash.__init__`, `hash`, `SlidingDistinctCounter.__init__` on a sequence of draws.
* Proof: recursion over the hash functions; 3 is invertible modulo 2^32; the pairs counted by the value of one hash (C151); witnesses by evaluation.
* Note: refuted: equal tables can be drawn; hash(data) draws a new table for every call
* Theorems:
  - `C153_draws`: the hash functions of a counter use draws of their own: entry `b` of the table `i` is the draw `256 i + b` after those made before, and the counter makes 256 draws for each hash function.
  - `C153_choices`: each choice of tables comes from exactly one sequence of draws, so that the shares of C151 and C152 are those of the draws.
  - `C153_fresh`: the hash of the module draws a table for every call, and so does not depend on the data alone: whatever numbers are drawn, the empty text has the hash 0; a text of one character has three times the number drawn for it, modulo `2^32`.
  - `C153_two`: two instances give an item in which some byte occurs an odd number of times the same hash with one in `2^32` of their tables.
  - `C153_refuted`: refuted: "Two instances of this class will hash differently." They can draw the same table, and the empty text has one hash with all.
  - `C153_refuted_function`: refuted: the hash of the module gives the same data the same hash.
  - `C153_partial`: the part that holds: two instances with tables that differ in an entry hash differently.

### C154 Newer values are likelier to be in a decaying sample - proved

If the results of random() are independent and uniform on the interval from 0 to 1, and exp and divisions exact: of two different values the newer one is at least as likely to be held as the older one, and values of the same time are equally likely, whatever else was offered in whatever order; once as many values as fit are newer by d seconds, the old value is held with a chance of at most exp(-alpha d), which is below 1.2 percent after five minutes with the settings of histograms; of two values, a sample for one holds the older with a chance of exactly exp(-alpha d)/2.

* Quantified over: all sizes, factors, numbers of values, times (in any order), landmarks.
* Modelled (Model/ExpDecay): `ExponentiallyDecayingSample` over the real numbers with the real exponential; the draws are points of the unit cube with the Lebesgue measure.
* Proof: the sample holds the values of the greatest weights (C37); exchanging the draws of two values keeps volumes and turns draws that hold the older one into draws that hold the newer one, except where weights are equal, which is a union of hyperplanes; an old value that is held had a small draw; the area of a triangle.
* Theorems:
  - `C154_certain`: The draws are certain to be in the cube: chances are probabilities.
  - `C154_newer`: of two different values offered, the newer one is at least as likely to be held as the older one, whatever else was offered and in whatever order.
  - `C154_equal`: values of the same time are equally likely to be held, whatever the order in which they were offered.
  - `C154_decay`: once `n` values (as many as fit) have been offered that are newer by `d` seconds, the chance that the old value is still held is at most `exp(-alpha * d)`.
  - `C154_five_minutes`: with the factor and the size that histograms use, a value is held with a chance of at most 1.2 percent once as many values as fit are newer by five minutes.
  - `C154_two`: of two values, a sample for one holds the older one with a chance of exactly half of `exp(-alpha * d)`, where `d` is how much older it is.

### C155 How evenly a ring spreads the keys (refuted) - partial

If the positions of the replicas are random, each of c nodes owns a given key with the same chance. Refuted: where two nodes have the same position the one that comes first in the order of nodes gets the key, so the first node has a strictly greater chance than any other, and no node a smaller one than a later node. Up to (c - 1) * replicas / positions the chances are those of a fair share; with 1024 replicas and 2^32 positions that is (c - 1) / 4194304.

* Quantified over: all sets of nodes, numbers of replicas and positions, keys and positions of the key, all sequences of operations leading to the ring.
* Modelled (Model/HashRing): `ConsistentHashRing` with the positions of the replicas as a finite choice for each node and replica.
* Proof: exchanging the positions of two nodes exchanges the owners, except where the owner shares its position with another node; such a shared position is determined by the other replicas, so that its share is one in the number of positions.
* Note: Exact equality of the chances is refuted (ties go to the node that comes first); proved up to (c - 1) * replicas / positions.
* Theorems:
  - `C155_share_partial`: if the positions of the replicas are random, the chance of a node to own a key is the same for all nodes up to `(nodes - 1) * replicas / positions`: no more than that over a fair share, and no more than that under it. `G` gives a hash for each way to place the replicas.
  - `C155_pair`: any two nodes differ by no more than that.
  - `C155_order`: a node that comes earlier in the order of nodes owns the key at least as often as a later one.
  - `C155_first`: the chances are never quite the same. The first node in the order of nodes owns a key strictly more often than any other: where two nodes have the same position, it is always the earlier one that gets the key.
  - `C155_default_partial`: with 1024 replicas and positions of 32 bits, as in the code, the shares of `c` nodes are fair up to `(c - 1) / 4194304`.
  - `C155_refuted`: two nodes do not have quite the same chance to own a key.

### C156 Starting and stopping the flushing (refuted) - partial

From a start at s to the next stop, with p > 0 whole seconds in the interval, flushes begin at readings of the clock only, none before s + p, at most one in each period counted from s, and one in each period in which the clock is read, so that they do not drift; on time they begin exactly at s + p, s + 2p, ... Each call hands one flush to the cooperator. With an interval below a second a flush begins at every reading. Starting a running service fails an assertion and a negative interval is a ValueError, both without effect; stopping never fails. From a stop to the next start no flush begins. Refuted: that nothing is sent while stopped; flushes that had begun go on sending.

* Quantified over: all runs: starts, stops, readings of the clock, datagrams, scheduled calls, advances of flushes; all intervals.
* Modelled (Model/FlushTask, App): `StatsDService` with its `LoopingCall` as a step machine around the service of C92; `_reschedule` as the next multiple of the period after the start.
* Proof: the next call is always due at a multiple of the period; induction over the run, with the readings of the clock singled out; a witness by evaluation.
* Note: Refuted as stated: C156_refuted sends a datapoint after stopService, from a flush that had begun. C156_stopped_partial has the part that holds: no flush begins while stopped.
* Theorems:
  - `C156_times`: from a start at `s` to the next stop, with a period of `p` seconds, flushes begin at readings of the clock only, none in the first period, and no two in the same period after `s`; however late the reactor is, the flushes do not drift.
  - `C156_on_time`: when the clock is looked at on time, the flushes begin exactly one period after the start, two periods after it, and so on.
  - `C156_zero`: with an interval below a second a flush begins whenever the reactor looks at the clock.
  - `C156_one_flush_per_call`: every call of the loop hands one flush to the cooperator, and nothing else does.
  - `C156_errors`: a start of a running service fails an assertion, one with a negative interval raises ValueError, and both change nothing; any other start succeeds. Stopping never fails, whether the service runs or not.
  - `C156_stopped_partial`: from a stop to the next start no flush begins; and if none had begun before, no datapoint gets out. Missing for the full claim (`C156_refuted`): flushes that had begun go on sending.
  - `C156_refuted`: the expectation: once the service is stopped, it sends no datapoint until it is started again. False: the cooperator goes on with the flushes handed to it.

### C157 The statistics of the machine, from its files to the flushes - proved

In every history of reports, messages and flushes of a service that reports about its machine, a completed flush shows for each label of /proc/meminfo the bytes that the file gave at the last report of the memory (up to 2^53), on either processor; for each load average the double nearest to the decimal in the file (at most twelve digits), although it is printed and read once more on its way; and for each device readings that add up to its traffic between the first report and the last. (Messages from outside are no readings of these gauges.)

* Quantified over: all histories of reports, messages and flushes; all files, instance names, plugins and clocks.
* Modelled (Model/SysService, Files, SelfReport, FloatStr): the reports of `SYSTEM_STATS` wired to the gauges of the client and these to either processor.
* Proof: a history of reports is one of `C99` with the results of the functions (C142); only one kind of report has a given name (C142_names), so the last value for it is that of the last report of the kind; texts of integers and of doubles with few digits are read back exactly (C116); the differences of the traffic are integers that add up (C142_traffic).
* Theorems:
  - `C157_load_configurable`: the load on the configurable processor.
  - `C157_memory`: in every history of reports, messages and flushes, a completed flush shows the bytes that `/proc/meminfo` gave for a label at the last report of the memory.
  - `C157_memory_configurable`: likewise on the configurable processor.
  - `C157_load`: likewise the load, for numbers as the kernel writes them (at most twelve digits): what arrives is the double nearest to the text, although it passed through a second text on its way.
  - `C157_traffic`: the readings of a device's traffic in a completed flush add up to what has passed since the first report of it.

### C158 A uniform sample is seldom far off - proved

The share of a reservoir sample of n that has some property is on average over the draws that of the whole stream, and differs from it by e or more with chance at most 1/(4 n e^2), whatever the stream and its length. So a reported percentile of a histogram is seldom wrong by much: if a share p + p/n + e of all values are at most x, a score above x has at most that chance, and the same below. (For the usual sample of 1028: less than one in ten for e = 5%.)

* Quantified over: all streams of at least n values, all n, properties, percentiles and e; all equally likely sequences of draws.
* Modelled (Model/Sample, Histogram): `UniformSample.update` on all draw sequences; `HistogramMetricReporter.percentiles` on top.
* Proof: every set of n positions is kept by equally many draw sequences (C36); first and second moments of the number held by counting sets through one and two positions; Chebyshev's inequality over lists; the rank of a score in the sorted sample.
* Theorems:
  - `C158_mean`: on average over the draws, the share of a sample that has a property is that of the whole stream.
  - `C158_seldom`: the chance that the two shares differ by `ε` or more is at most `1 / (4 n ε²)`, for every stream of at least `n` values.
  - `C158_percentile_above`: a percentile reported from a sample of `n` is seldom too great: for a share `p + p/n + ε` of the stream at or below `x`, the chance of a score above `x` is at most `1 / (4 n ε²)`.
  - `C158_percentile_below`: and seldom too small: for a share of at most `p - (1 - p)/n - ε` of the stream below `x`, the chance of a score below `x` is at most `1 / (4 n ε²)`.

### C159 A sampled count is seldom far off - proved

Increments of one name at a rate r below one: what the texts sent add to the counter, each divided by its rate, differs from the sum of the increments by t or more (beyond the tiny bias of C98) in a share of at most (sum of squares) (1-r) (1 + 1/(rN)) / (r t^2) of all sequences of draws from the multiples of 1/N.

* Quantified over: all lists of increments, rates below one, t, and grids of draws.
* Modelled (Model/Metrics, Processor): `Metric.send`'s sampling, the client's text (as C98).
* Proof: the variance over all draw sequences by induction over the increments, the mixed terms vanishing; Chebyshev's inequality over lists; the bias of C98.
* Theorems:
  - `C159_seldom`: increments `zs` of one name through a new `Metrics` object at a rate below one (conditions as in `C98_expectation`). What the texts written add to the counter differs from the sum of the increments by more than its `1/(rate N)`-th part plus `t` in a share of at most `Σ zs² (1 - rate) (1 + 1/(rate N)) / (rate t²)` of the sequences of draws from the multiples of `1/N`.

### C160 The statistics of the process, from psutil to the flushes - partial

In every history of reports of all kinds that the service can be told to send (about the machine, the process, its counters, its connections, the reactor), messages and flushes, a completed flush shows for the process the memory and the number of threads that psutil gave at the last report, on either processor; percentages as the nearest numbers of twelve digits; and for what was read and written readings that add up to the difference between the last report and the first. No report disturbs another. For each state of connections it shows how many streams were in it at the last report. Refuted: when the last connection has left a state, nothing is reported about it and its gauge keeps the old number.

* Quantified over: all histories of reports of all kinds, messages and flushes; all readings of psutil, instance names, plugins and clocks.
* Modelled (Model/HostService, SysService, System, SelfReport): all reports of `process.py` that `createService` schedules, wired to the gauges of the client and these to either processor.
* Proof: as C157; each report sees only its own generator, so what it returns is what it would return alone; only one kind of report has a given name (C142_names); the differences add up (C72); a witness by evaluation.
* Note: The claim about states of connections is refuted (C160_connections_refuted): a state that no connection is in is not reported, so its gauge keeps the old number. Proved for states that some connection is in; what is shown in every other case is C160_connections_last and C160_connections_none; all other parts are proved in full.
* Theorems:
  - `C160_percent_configurable`: the percentages of the process on the configurable processor.
  - `C160_memory_configurable`: the memory of the machine on the configurable processor, among all the other reports.
  - `C160_connections_configurable`: the number of streams in a state at the last report at which there were any, on the configurable processor.
  - `C160_alone`: the reports do not disturb each other: what one of them returns over any sequence of calls is what it would return alone.
  - `C160_process`: in every history of reports (of all kinds), messages and flushes, a completed flush shows the memory and the number of threads that `psutil` gave at the last report about the process.
  - `C160_process_configurable`: likewise on the configurable processor.
  - `C160_percent`: the percentages of the process arrive as the nearest numbers of twelve digits.
  - `C160_percent_exact`: exactly, if they have no more digits.
  - `C160_memory`: the report of the memory of the machine arrives as in C157, among all the others.
  - `C160_connections_partial`: a completed flush shows how many streams were in a state at the last report of the connections, if there were any. The full claim, without `hp`, is refuted below: when the last connection has left a state, its gauge keeps the old number.
  - `C160_connections_last`: in general, a completed flush shows how many streams were in a state at the last report of the connections at which there were any.
  - `C160_connections_none`: and nothing about a state that no stream was in at any report.
  - `C160_io`: what is read and written since the first report of it: the readings in a completed flush add up to it.
  - `C160_connections_refuted`: refuted: the gauge of a state should show how many streams are in it at the last report. Nothing is reported about a state that no connection is in, so that its gauge keeps the number from before.

### C161 When the reports are made, and how old the statistics in a flush are - proved

From a start at s to the next stop, a scheduled report with a period of p > 0 seconds is made at readings of the clock only, not before s + p, at most once in each period counted from s, and once in each in which the clock is read; on time exactly at s + p, s + 2p, ... From a stop to the next start no report is made. Starting reports that run, or stopping ones that do not, fails an assertion without effect. So if the clock has been read at x, s + p or later, a completed flush shows the memory and threads of the process, and the memory of the machine, as they were at a moment later than x - p.

* Quantified over: all runs: starts, stops, readings of the clock, messages, flushes; all lists of reports with periods; all machines changing over time, instance names, plugins.
* Modelled (Model/ReportLoop, HostService, FlushTask): the `LoopingCall`s of the scheduled reports, started and stopped together, over a machine that changes with time.
* Proof: all loops run or none does, so each evolves by itself; a loop that has made its call at u is next due at most one period after u; the history of operations that results is one of C160.
* Theorems:
  - `C161_process`: the service is started at `s` (perhaps not for the first time) and not stopped since; its report about the process has a period of `p` seconds. If the clock has been read at `x`, at least one period after the start, a completed flush shows memory and threads as `psutil` gave them at a moment later than `x - p`.
  - `C161_process_configurable`: likewise on the configurable processor.
  - `C161_memory`: and the memory of the machine as `/proc/meminfo` gave it at a moment later than `x - p`.
  - `C161_times`: from a start at `s` to the next stop, a report with a period of `p` seconds is made at readings of the clock only, not in the first period, and not twice in the same period after `s`; a reading in a period without a report so far makes one. What the reports say and what arrives meanwhile is all that happens to the service.
  - `C161_on_time`: when the clock is looked at on time, the report is made exactly one period after the start, two periods after it, and so on.
  - `C161_stopped`: from a stop to the next start no report is made.
  - `C161_errors`: starting reports that run fails an assertion, and so does stopping reports that do not; neither changes anything.

### C162 Reports that take their time (refuted) - partial

A scheduled function may return a Deferred. Each call of it has one outcome: what it returns is reported as soon as it is there, or its failure is logged, or it is still awaited. The function is not called again before the result is there, at readings of the clock only, not before s + p after a start at s and not twice in a period; a slow result skips the periods that it takes. From a stop to the next start it is not called. Refuted: after a stop and a start while a result is awaited, the function is called a second time meanwhile; when the awaited result then comes, two calls are planned, and the next stop cancels only one of them. A result that comes after a stop is reported.

* Quantified over: all runs: starts, stops, readings of the clock, arrivals of results; all functions, immediate or not; all periods.
* Modelled (Model/SlowReport, FlushTask): one task of a `ReportingService` whose function may return a Deferred; the loop plans its next call when the result is there; a call that is planned over is no longer known to `stop`.
* Proof: invariant: one result awaited and nothing planned, or nothing awaited and one call planned if the loop runs; every call is accounted for; witnesses by evaluation.
* Note: C162_refuted, C162_stopped_refuted: a start while a result is awaited makes the function overlap itself, and a later stop cancels only one of the planned calls
* Theorems:
  - `C162_one_at_a_time_partial`: unless the service is started again while a result is awaited, the function is never called before the result of its call before is there. Missing for the full claim (`C162_refuted`): runs with such a start.
  - `C162_outcomes`: in every run each call has one outcome: something reported, a failure logged, or a result that is still awaited.
  - `C162_arrival`: a result that is awaited is reported as soon as it arrives, and a failure is logged, whether the service still runs or not.
  - `C162_times`: from a start at `s` to the next stop, with a period of `p` seconds, the function is called at readings of the clock only, not in the first period and not twice in the same period after `s`, however long the results take.
  - `C162_stopped_partial`: from a stop to the next start the function is not called.
  - `C162_refuted`: refuted: the function should not be called before the result of its call before is there. After a stop and a start the loop does not know any more of the call that it was waiting for.
  - `C162_stopped_refuted`: refuted: nothing should be called or reported while the service is stopped. A result that comes after the stop is reported. And if one came after a stop and a start, the loop has planned two calls, and the next stop cancels only one of them: the function is called while the service is stopped.

### C163 CPU times, from psutil to the flushes - proved

If the CPU times that psutil gives do not decrease from one report to the next (and are below 2^53 seconds), a completed flush shows one reading for every report but the first: the time spent since the report before, to eleven digits; so the readings add up to the time spent between the first report and the last, to the same precision. This holds for the user and system times of the process and for every mode of the times of the machine.

* Quantified over: all histories of reports of all kinds, messages and flushes; all non-decreasing times as doubles; all modes, instance names, plugins and clocks.
* Modelled (Model/HostService, System): reports of CPU times among all others, doubles to twelve digits of text and back.
* Proof: each kind of report on its own (C160), differences of consecutive readings, rounding error of the difference and of its text (C116), sums telescope.
* Theorems:
  - `C163_process`: the CPU times of the process. If they do not decrease, a completed flush shows one reading for each report but the first: the time spent since the report before, to eleven digits; so that the readings add up to the time spent since the first report.
  - `C163_machine`: likewise those of the machine, for each mode that `psutil` knows.

### C164 Samples with the draws the code makes (refuted) - partial

With the draws the code makes, randint(1, maxint) reduced modulo the number of values seen, each of N >= n values is in a sample of n with chance n / N. Refuted: residues of such ints are not quite uniform (of two values, a sample of one holds the second less often). Partial: every chance about the positions held differs from that with uniform residues by at most N (N + 1) / (2 maxint), so each value is held with a chance within that of n / N, and the share of the sample with a property is still seldom far from that of the stream.

* Quantified over: every capacity, stream, maxint and question about the positions held.
* Modelled (Model/Sample): `UniformSample` with draws from `randint(1, M)`, all sequences equally likely.
* Proof: residues of one draw by periodic sums; a hybrid argument over the draws; the sample depends on residues only; the counterexample by the exact count.
* Note: Exact equality of the chances is refuted for 64-bit ints (C164_refuted); C164_close bounds the difference for every question about the held positions, C164_positions_partial and C164_seldom are its consequences. The draws are taken as independent and uniform on 1..maxint.
* Theorems:
  - `C164_outcomes`: the outcomes counted below are all the sequences of `N` numbers from 1 to `M`, each once.
  - `C164_close`: whatever is asked of the positions that a sample holds after `N` values, its chance with the draws of the code, `randint(1, M) % k`, differs by at most `N (N + 1) / (2 M)` from that with uniform residues.
  - `C164_positions_partial`: so each of the `N ≥ n` positions is held with a chance within that of `n / N`.
  - `C164_seldom`: and the share of a sample that has a property is seldom far from that of the stream (cf. C158).
  - `C164_refuted`: refuted: with the ints of a 64-bit machine the chances are not equal: of two values, a sample of one holds the second less often.

### C165 From the arguments to the options (abbreviations refuted) - partial

Options written in any of the usual ways - by long name, by an abbreviation that fits one option only, or by letter, with the value in the same argument or the next, whatever the value - are taken as they are meant, in order; unknown options, missing values and operands are refused; an option last given by its long name or an abbreviation of it wins over the configuration file. Refuted for abbreviations of options that have a method, such as --conf: the list of long options has them twice. Partial: abbreviations of all other options work.

* Quantified over: every sequence of written options, values and operands; every table of options.
* Modelled (Model/Getopt, Options): Python's `getopt.getopt` (from its source), the lists of options as `usage.Options` gathers them, `parseOptions`.
* Proof: one step per written option, induction over the command line; the table of the server by evaluation; composition with C71.
* Note: Refuted for abbreviations of config and of the carbon-cache options (C165_refuted), which usage.Options gathers both as parameter and as method; everything else is proved. getopt is modelled from Python's source, the gathering from Twisted's; leaving the program on --help and --version is an error in the model.
* Theorems:
  - `C165_reads`: options in any of the ways to write them, with any values, followed by any operands, are read as they are meant, in order.
  - `C165_declared`: whatever the arguments are, only declared options are taken, and the operands are the last of the arguments.
  - `C165_options`: so the server takes the options as they are meant.
  - `C165_operands`: and it takes no operands.
  - `C165_unknown_long`: a long name that is the beginning of no option is refused, wherever it stands among the options.
  - `C165_unknown_short`: likewise a letter that is none of the options'.
  - `C165_missing`: an option whose value is missing at the end is refused.
  - `C165_all`: every option of the server can be written by its full name and by its letter.
  - `C165_wins_partial`: C165 with C71: an option last given by its long name, or by an abbreviation of it, keeps that value, whatever the file says.
  - `C165_abbreviation_partial`: an abbreviation that fits one option only stands for it, if the option has no method of its own and the abbreviation fits neither `help` nor `version`. Missing for the full claim (`C165_refuted`): the options with a method.
  - `C165_refuted`: refuted: an abbreviation that fits one option only is not always understood: `--conf`, since `config` is gathered twice.

### C166 From the text of the configuration file to the options (comments refuted) - partial

A configuration file with sections and options as one may write them - either separator, any spacing, capitals in names, values of several lines, comments and blank lines - is read as these sections and options, the lines of each value joined; with repeated sections and options and with defaults, the value given last counts, and a section goes before the defaults. Routing rules may thus be written one to a line. A line outside of sections, one without separator, or an indented one that follows no option of its section makes reading fail, and so does a file that cannot be opened; the program then does not start. Together with C165 and C71: an option not given by its long name has the value of the file. Refuted: a value of one line is not always read as written; it is, exactly if it is not a pair of quotes and its first ; (if any) does not follow white space.

* Quantified over: every file that follows the grammar; every place of an unreadable line; every value.
* Modelled (Model/Ini, Getopt, Options, Router): Python 2.7's `RawConfigParser.read`, `sections` and `items` (from its source), `postOptions`, and `parseOptions` as a whole.
* Proof: one step per kind of line; induction over the grammar of files; dictionaries as folds of assignments; composition with C165 and C71.
* Note: A value of one line is not always read as written (C166_refuted: the text after a first ; that follows white space is a comment, and a pair of quotes is empty); C166_plain_partial says exactly which values are.
* Theorems:
  - `C166_reads`: a file with sections and options as one may write them - with either separator, any spacing, capitals in the names, values of several lines, comments and blank lines - is read as these sections and options, the lines of each value joined.
  - `C166_last`: also if sections and options are repeated, and with defaults: each section of the file is there, and an option has the value given last in the sections of that name, or else the one given last in the sections `DEFAULT`.
  - `C166_headless`: a file in which something else than a comment or a section header comes first cannot be read.
  - `C166_garbage`: nor can one with a line in a section that is no comment, begins without white space, begins no section and has no separator, wherever it is.
  - `C166_indented`: nor one with an indented line that is no comment, when no option of its section came before it: it continues nothing, not even the last option of the section before.
  - `C166_rejected`: options are not taken from a file that cannot be read so: the program does not start.
  - `C166_routing`: routing rules may be written one to a line: they are the lines of the value.
  - `C166_start`: the server takes the options as the arguments and the file give them.
  - `C166_absent`: without an option `config` the file is not looked for; if it cannot be opened the server does not start.
  - `C166_file_wins`: an option of one value that the arguments do not give by its long name has the value the file gives in the section `statsd`, its lines joined, unless a section for a carbon cache has it too.
  - `C166_plain_partial`: what holds: a value of one line, without white space around it, is read as it was written exactly if it has no `;` that follows white space and is the first, and is not `""`. Missing for the full claim (`C166_refuted`): the other values.
  - `C166_refuted`: refuted: not every value is read as it is written: `monitor-message = a ;b` is `a`.

### C167 A configurable processor reports each handled message once - partial

In a processor with configured prefixes, in every interleaving of arrivals and any number of flushes, the messages of a type that were handled are those whose count is stored and those whose count was wiped, and whenever no flush is reporting the receive statistics, the counts reported for the type under the processor's own prefix are the counts that flushes read; if one flush at a time reports, those counts, the count stored and the messages that arrived between the reading and the end of a flush make up the messages handled. The last two hold unless something that arrives makes a datapoint of the same name, which cannot be when the processor's names do not start with the message prefix and a dot. With the internal prefix that the processor makes itself they do start so, and a client's counter can be reported under the name of a receive count.

* Quantified over: all prefixes, plugins, clocks, message types and schedules.
* Modelled (Model/Generator, Configurable): schedules of arrivals and of the points of any number of flushes of the configurable processor; the name of a count from the prefixes.
* Proof: the invariants of C24 for any processor whose visits leave the receive statistics alone and make no point of that name; for the configurable processor from the relation between its stores and the messages so far; the counterexample is evaluated by the kernel.
* Note: False of the code as C24 is, and also because a counter that a client sends can be reported under the name of a receive count (C167_refuted). Proved: C167_wiped (every schedule), C167_read (every schedule, if names do not collide), C167_missed (what is missed, exactly), C167_partial (nothing is missed if nothing arrives meanwhile), C167_apart (when names cannot collide).
* Theorems:
  - `C167_wiped`: in every schedule: the messages of a type handled are those whose count is stored and those whose count was wiped.
  - `C167_missed`: under arrivals: if nothing that arrives makes a datapoint called like the count, then whenever no flush is reporting the receive statistics, the reported counts of a type, the count stored and the messages of that type that arrived between a flush's reading of the count and its end make up the messages handled.
  - `C167_partial`: the exact balance: if, besides, nothing arrives and no other flush advances while a flush reports the receive statistics, then nothing is missed.
  - `C167_read`: in every schedule, of any number of flushes at the same time, completed or not: if nothing that arrives makes a datapoint called like the count, then whenever no flush is reporting the receive statistics, the reported counts of a type are the counts that flushes read.
  - `C167_apart`: when the names are apart: nothing that arrives makes a datapoint called like a count if there is a message prefix and the processor's own names do not start with it and a dot.
  - `C167_refuted`: refuted: with the internal prefix that the processor makes itself, a client can send a counter that is reported under the name of the count.

### C168 How long a TCP redirect waits before it connects again - partial

A TCP redirect that was started and not stopped is connected, or is attempting to connect, or has an attempt scheduled within an hour, up to the jitter. A lost connection is tried again after e seconds, however long the outages before it were, because making a connection resets the delay. In an outage the wait before the n-th attempt is at least (e(1 - jZ))^n or an hour less jZ of it, whichever is smaller, and at most an hour plus jZ of it, where j is the jitter and Z bounds the normal draws in standard deviations. Otherwise the redirect lives as in C121. The first part is false for a draw far below the mean, which makes the wait negative: scheduling it fails and nothing but a restart of the service connects again.

* Quantified over: all histories of connections, failures, losses and waits, all draws.
* Modelled (Model/Backoff, Redirect): the reconnecting factory's `retry`, `resetDelay` and `stopTrying` (from Twisted's source) around the redirect of C121, with exact times and any numbers for the normal draws.
* Proof: an invariant over all histories that bounds the delay by the number of scheduled attempts; a simulation for C168_life.
* Note: Refuted for draws more than 1/j standard deviations (about 8.4) below the mean (C168_refuted, C168_stuck); proved for draws within Z standard deviations with e(1 - jZ) >= 1, that is, up to Z = 5.28. Factor, jitter and largest delay are Twisted's defaults, which the factory inherits; times are exact.
* Theorems:
  - `C168_life`: without its times, a redirect lives as described in C121: some of the attempts that the reactor was said to end were none.
  - `C168_first`: a connection that is lost is tried again after `e` seconds, whatever came before it, up to the draw.
  - `C168_wait`: the wait before the next attempt grows with the number of attempts scheduled since the last connection, and at most to an hour, up to the draws.
  - `C168_next_partial`: a service that was started and not stopped is connected, or an attempt is under way, or one will be after an hour at most, up to the draws.
  - `C168_stuck`: a draw far enough below the mean makes the wait negative; the assertion of `callLater` fails, and nothing but a restart of the service connects again.
  - `C168_refuted`: C168 is false without a bound on the draws.

### C169 From the command line to the running service - proved

Whatever the arguments and the configuration file, the options accepted are of the declared kinds, and a service is created from them exactly if the rules of the SLI plugin and the routing rules can be read and, if the dump mode is on, no dump mode was set up before in the same process (the log has no attribute info yet). It listens for datagrams on listen-port, for connections on listen-tcp-port and for requests on http-port if these are given, and on nothing else; it has one flushing service with the given interval, one carbon service with the given destinations, and the redirects that the rules name; a port or interval given by its long name on the command line is the one used, whatever the file says. The processor has the prefix and the name given. The defaults and the example file give the service one expects, but an empty report option, as in the example file, adds the reactor's statistics. Created with exact sums, the default processor and no rules, such a service never loses or doubles an increment.

* Quantified over: all argument vectors, all files, all accepted options, all regular expression engines, all plugins of the tree.
* Modelled (Model/Create, App, Ini, Getopt, Options, Router, Sli): `createService` with `httpinfo.makeService`, from the options that `parseOptions` returns to the list of child services; what the children do is in the other models.
* Proof: every operation on the options keeps each value of its declared kind, so the conversions in `createService` cannot fail; its result in closed form; C54 and C18 for the texts of rules; C165 and C166 for the options; the example file by evaluation; composition with C92.
* Theorems:
  - `C169_options`: whatever the arguments and the files are, options that are accepted hold what the declarations say.
  - `C169_creates`: a service is created exactly when its texts are accepted: the rules of the SLI plugin, if that is there, and the routing rules; and no dump mode was asked for after an earlier one. Nothing else about accepted options can fail.
  - `C169_parts`: the service has the parts that the options ask for. It listens for datagrams on the port `listen-port`, for connections on `listen-tcp-port` if that is given, for requests on `http-port` if that is given, and on no other; it flushes every `flush-interval`; it redirects where the rules say.
  - `C169_once`: the parts are once each: one listener for datagrams, at most one for connections, one flushing service.
  - `C169_kind`: the processor. With compliance it is the default one; without, it is the configurable one with the prefix and the name of the instance; in dump mode it is a logging one.
  - `C169_reports`: the reports. Without the option `report` only carbon's own statistics are reported; an option that is given, also an empty one as in the example file, brings the statistics of the reactor.
  - `C169_given`: an option given by its long name on the command line has that value in the end, whatever the file says.
  - `C169_listens`: so the ports and the interval given on the command line are those of the service.
  - `C169_wiring`: the options reach what uses them. The interval, the message and answer of the monitor and the rules of the router are those of the options; the plugins are those found, and each SLI plugin has the rules of the section `plugin_sli` read into it, if there are any.
  - `C169_default`: without arguments, and with `statsd.tac`, the service is the one of the defaults.
  - `C169_example`: with the file that comes with the program, read from any path, the service is the same except for the port of the carbon cache and the statistics of the reactor, which the empty option `report` brings.
  - `C169_no_loss`: end to end: whatever the command line and the configuration file, if the service is created with the default processor, without rules and with an interval of a second or more, no increment is ever lost or counted twice.

### C170 The example client - partial

Every step of a walker, every duration and every reading of the process is written by the example client once and in order, under the host's name and the name example-client; nothing waits in its queue, and a report fails only if psutil gives other than two numbers for the memory. At every moment the counts that a service without rules has made for a walker, with what it has yet to process and what was lost or is yet to be sent, are exactly the walker's position. Expected besides: that the service shows the process's size as last reported (false: the client passes metrics.increment to the reports, so each interval shows the sum of its reports).

* Quantified over: all draws, readings, event orders, write results, losses and reorderings of datagrams, all schedules of the service.
* Modelled (Model/Demo, Client, Metrics, Report, App): example-stats-client.tac: the Twisted client, `Metrics` and the reporting service it makes, driven by any draws, readings and turns of the reactor; together with the whole service that receives.
* Proof: an invariant that the datagrams sent and scheduled are the texts so far; the increments of a key among them; C125 for the service, exact for whole numbers.
* Note: proved: what the client writes, its failures, and that the counts make up a walker's position, exactly, at every moment. C170_levels_partial: the counts for the process's size make up the sum of the sizes reported. The expectation that the size shown is the one last reported is false: C170_levels_refuted
* Theorems:
  - `C170_sent`: everything that happens is written once and in order, as it is meant: the datagrams sent, followed by those that the reactor has yet to send, are the texts of the events. Nothing waits in the queue.
  - `C170_failures`: a report fails only if `psutil` gives other than two numbers for the memory.
  - `C170_walkers`: at every moment of every schedule of a service without rules, the counts that the service sent to carbon for a walker, with those under way and the stored one, the steps that it has yet to process, and those in datagrams that were lost or are still to be sent, make up the position of the walker: its steps up less those down. In doubles, exactly.
  - `C170_levels_partial`: the counts for the size of the process make up the sum of the sizes reported: a report adds the whole size, however little it changed.
  - `C170_levels_refuted`: the expectation: when all datagrams of the client have been sent and processed, the next flush shows the size of the process as it was reported last.

### C171 Counters of the machine on the configurable processor - partial

On a processor with prefixes, a completed flush shows, for what the process read and wrote, for its CPU times and for the traffic of a network device, the difference between the last two reports. Expected besides: that the differences shown add up to what passed since the first report, as they do on the default processor (false: the reports send differences as gauges, of which this processor keeps the last, so that the differences of earlier reports in an interval are lost), and that nothing is shown twice (false: a gauge is shown again at every flush, also if nothing was reported in between).

* Quantified over: all histories of reports of all kinds, messages and flushes, all readings, prefixes and plugins.
* Modelled (Model/HostService, System, Files, Configurable): all reports of a service on the configurable processor, from `psutil` and `/proc` to the flushes.
* Proof: the values said about a name as differences of consecutive readings; the last of them through C25; the counterexamples are evaluated by the kernel.
* Note: C171_io_partial, C171_cpu_partial and C171_traffic_partial: each completed flush shows the difference between the last two reports. That the differences add up, and that none is shown twice, is false: C171_refuted, C171_twice_refuted
* Theorems:
  - `C171_io_partial`: what the process has read and written. On the configurable processor every completed flush shows the difference between the last two reports of it: neither differences before it, which are lost if several reports fall between two flushes, nor nothing, if none does.
  - `C171_cpu_partial`: likewise the CPU times of the process, to eleven digits.
  - `C171_traffic_partial`: likewise the traffic of a network device, if every reading of `/proc/net/dev` has the same devices.
  - `C171_refuted`: the expectation that C160_io meets for the default processor: the readings in the flush add up to what was read since the first report. False for the configurable processor: of the 150 bytes read, the flush shows the last 100.
  - `C171_twice_refuted`: a second expectation: what is read is shown at most once. False: two flushes after a report both show the difference.

### C172 From the command line to what carbon gets - partial

Whatever the arguments and the file, every point that the created service ever sends is about messages that it received, except the monitor's, or that it wrote to itself, or that the routing rules made of these, each used at most once: a counter, timer, gauge or meter among them, one of the processor's own statistics, or a point of a metric of a shipped plugin. Without compliance every name begins with the prefix of the options; with it, with stats., stats_counts. or statsd. whatever the prefix. With compliance and no rules the counts add up to the increments received, up to the error of doubles. Expected besides: that no name begins with a dot if no message has such a name (false: with an empty prefix, as in the example file, and without compliance, the processor's own statistics are named by a dot, the instance and another dot).

* Quantified over: all argument vectors, all files, all accepted options, all readable rules, all schedules of datagrams, lines, reports and interleaved flushes, all clocks.
* Modelled (Model/Create, App, Router, Processor, Configurable, Plugins): the service that `createService` returns, with the shipped plugins as the options configure them, in any schedule.
* Proof: every point sent was emitted by a flush that began in the schedule; C103 for flushes, C92 and C119 for what arrives at the processor, C169 for what the options decide, C125 for the sums.
* Note: The expectation that no name begins with a dot is refuted by C172_dot_refuted (empty prefix without compliance); C172_dot_partial has the part that holds. Rules are assumed to be sound, as in C119. Everything else is proved.
* Theorems:
  - `C172_default`: a service made of a command line and files, with compliance and without rules: every point that it ever sends is about messages that it received (but for the monitor's) or wrote to itself, each used once: a counter, timer, gauge or meter among them, one of its own statistics, or a point of a plugin's metric made of them.
  - `C172_configurable`: the same without compliance, in dump mode or not: the value of a counter or gauge is the latest accepted one, the total of a meter is the sum, and the names are made with the prefix of the options.
  - `C172_rules`: with rules, in either case, the same is so of the messages that the rules make of those taken in.
  - `C172_prefix`: without compliance, every name that is sent begins with the prefix of the options, and with the prefix and a dot if it is not empty and does not end in one.
  - `C172_dot_partial`: the part that holds of the expectation that no name begins with a dot: with a prefix that does not, none does. (Without a prefix it is false, see `C172_dot_refuted`.)
  - `C172_names`: with compliance, every name begins with `stats.`, `stats_counts.` or `statsd.`, whatever the prefix.
  - `C172_counts`: with compliance and without rules, the counts that were sent, are under way or stored and the increments still scheduled add up to all increments taken in, up to the error that the doubles make when these are added up.
  - `C172_dot_refuted`: one would expect that no name begins with a dot if no message has such a name. It is not so without a prefix: the processor's own statistics then begin with a dot and the name of the instance.

### C173 One value per name in each flush - partial

No two points of one flush have the same name, so that carbon, which keeps one value per name and time, loses nothing. This holds on the default processor if no name was read as a gauge twice and no counter is called timers., gauge., meter., SLI. or pdistinct. and something; and on the processor with prefixes if no name is used for two of counters, timers, meters and plugins and no name begins like the processor's own statistics. Either all plugins are unused, or they are the two that come with the program, used in any way, labels without dots, and a prefix that does not end in a dot. Without these conditions it is false: a gauge read twice is reported twice by the default processor, now and in every later flush; a counter can have the name of a gauge's or a meter's statistic; and on the other processor a counter and a meter (or timer) of one name have the same name for their counts; a label with a dot makes two SLI metrics meet.

* Quantified over: all histories of messages and flushes, all intervals, percentiles, prefixes and clocks.
* Modelled (Model/Processor, Configurable, Reporters, Plugins, Sli, Distinct): `flush` of both processors after any history, with all sections and the own statistics.
* Proof: a completed flush in closed form, with a group for each stored plugin metric; what builders, messages and flushes keep of these metrics holds in all histories; the groups of a section are told apart by key, since suffixes have no dot inside; sections by their prefixes and kinds; the counterexamples are evaluated by the kernel.
* Note: Refuted in general by C173_default_refuted, C173_configurable_refuted, C173_shipped_refuted and C173_shippedC_refuted; the other theorems have the conditions under which it holds: C173_default_partial and C173_configurable_partial for any plugins while they are unused, C173_shipped_partial and C173_shippedC_partial for the two plugins that come with the program, used in any way. C173_created_partial and C173_createdC_partial need no hypothesis about labels, since C175 gives it.
* Theorems:
  - `C173_created_partial`: in every service made of a command line and files, with the plugins that come with it.
  - `C173_createdC_partial`: the same of the configurable processor.
  - `C173_default_partial`: whatever was received, if no plugin was used, no name was read as a gauge twice and no counter is called `timers.…`, `gauge.…` or `meter.…`, then no two datapoints of a flush that completes have the same name.
  - `C173_configurable_partial`: the configurable processor. Whatever was received, if no plugin was used, no name is used for two of counters, timers and meters, and no name of a metric begins like those of the processor's own statistics, then no two datapoints of a flush that completes have the same name. (Gauges may be read any number of times.)
  - `C173_shipped_partial`: the default processor with the two plugins that come with it, used in any way. If no name was read as a gauge twice, no counter is called `timers.…`, `gauge.…`, `meter.…`, `SLI.…` or `pdistinct.…`, and no label of the SLI plugin contains a dot, then no two datapoints of a flush that completes have the same name.
  - `C173_shippedC_partial`: the configurable processor with the two plugins that come with it. If no name is used for two of counters, timers, meters and plugins, no name begins like those of the processor's own statistics, the prefix does not end in a dot and no label of the SLI plugin contains a dot, then no two datapoints of a flush that completes have the same name.
  - `C173_default_refuted`: in general names are repeated: a gauge that was read twice is reported twice; and a counter may be called like a statistic of a gauge or a meter.
  - `C173_configurable_refuted`: the configurable processor reports a counter and a meter of one name under one name, and its own statistics under the name of a metric.
  - `C173_shipped_refuted`: with the plugins, names are repeated if a counter is called like a metric of theirs, or if labels contain dots.
  - `C173_shippedC_refuted`: of the configurable processor also if a name is used for a counter and a plugin, or if the prefix ends in a dot.

### C174 What carbon keeps of the counts - partial

Carbon keeps the last value for a name and a second. If the flushes of the default processor begin at least a second apart, it keeps every count of every counter, and what it keeps and what the processor holds add up to the increments received; of the readings of a gauge that a flush of the default processor repeats, it keeps the last one received; under the conditions of C173 it keeps every point of both processors. The loop of the service begins its flushes in different seconds counted from its start, so that they have different timestamps if it was started at a whole second. Expected besides: that they always have (false: after a delay the next flush may begin in the same second as the late one; its counts, mostly zeros, then replace those of the late flush, and the increments are lost).

* Quantified over: all histories of messages and flushes, all clocks, all delays of the reactor, all starting times.
* Modelled (Model/Processor, Configurable, FlushTask): `flush` of both processors over any history, the timestamps they take from the clock, and the loop that begins the flushes; carbon itself is outside the repository and appears as a store with one value per name and timestamp.
* Proof: by induction over the history, a name and timestamp are said once if flushes are apart; C08 for the sums, C173 for the names, C156 for the loop; the counterexamples are evaluated by the kernel.
* Note: That flushes always have different timestamps is refuted by C174_begun_refuted, and that carbon keeps every count in any case by C174_counts_refuted; the conditions under which it does are in the other theorems. How carbon stores points is an assumption, stated as carbonKeeps. C174_shipped_partial, C174_shippedC_partial and C174_created_partial say the same with the shipped plugins in use.
* Theorems:
  - `C174_counts`: if flushes begin at least a second apart, carbon keeps every count of every counter.
  - `C174_balance`: then, in exact arithmetic, what carbon keeps of a counter and what the processor holds of it add up to the increments received.
  - `C174_gauges`: of the readings of a gauge that a completed flush repeats, carbon keeps the last one received, and nothing else under the name.
  - `C174_everything_partial`: under the conditions of C173, and if no flush raises and flushes begin at least a second apart, carbon keeps everything.
  - `C174_everythingC_partial`: the same of the processor with prefixes.
  - `C174_shipped_partial`: with the two plugins that come with the program, used in any way, under the conditions of C173.
  - `C174_shippedC_partial`: the same of the processor with prefixes.
  - `C174_begun_partial`: while the service runs, flushes begin in different seconds counted from its start; so they get different timestamps if it was started at a whole second.
  - `C174_begun_refuted`: otherwise not: a flush that comes late may be followed in the same second by the next.
  - `C174_counts_refuted`: two flushes in one second: carbon keeps 0 of the increment received, and the processor holds 0.
  - `C174_created_partial`: in every service made of a command line and files, with the plugins that come with it.

### C175 What the rules of the SLI plugin can contain - proved

Whatever text is given as rules, accepted or not, the patterns that get into the configuration are different, non-empty and of letters, digits and _.*?-, and the labels of a pattern are different, non-empty words; so matching a name against them never fails and asks for the shell match. If no rule asks for the condition metric, every metric gets conditions that can be evaluated (such a rule is accepted, and the metrics it matches refuse every number). Every service made of a command line and files with the plugins that come with it has such a configuration, so the counts of an SLI metric in it add up to its events.

* Quantified over: all texts of rules, all earlier configurations, all command lines and files, all schedules.
* Modelled (Model/Sli, Fnmatch, Create, Plugins): `configure` and `build_metric` of the SLI plugin, and the service that `createService` returns with it.
* Proof: an invariant of the loop over the rules, from what the regular expression matches; fnmatch of patterns without brackets; C122 and C130 for the counts.
* Theorems:
  - `C175_labels`: whatever the rules are, accepted or not, and whatever was configured before, only proper patterns and labels get into the configuration.
  - `C175_patterns`: so matching a name against such a pattern never fails, and asks for the shell match.
  - `C175_conditions`: if no rule asks for the condition `metric`, every metric gets conditions with different labels which can be evaluated.
  - `C175_metric`: a rule may ask for `metric`; it is accepted, and the metrics that it matches refuse every number.
  - `C175_created`: every service made of a command line and files, with the plugins that come with it, has a configuration of proper patterns and labels, without dots in labels; and if no rule asks for `metric`, every SLI metric has conditions which can be evaluated.
  - `C175_counts`: in every service made of a command line and files in which no rule asks for `metric`, the counts of an SLI metric that were sent or are under way and the stored one add up to the number of its events, at every moment of every schedule.
  - `C175_countsC`: the same of the configurable processor.

### C176 Counting on several services made of command lines - proved

A client writes to several services through consistent hashing; each service is made of its own command line and files (compliant, without dump mode and routing rules, flushing at most once a second), receives what was sent to it in any order and runs in any schedule. Then at every moment the counts of a counter that the services sent to carbon, have under way or hold, and the increments still scheduled in them, add up to the increments in the texts that can be sent: up to the error of adding them in doubles, and exactly for whole unsampled increments. So, for any number of programs, each with its own namespace and order of listing the services, that call increment, decrement, gauge, meter and timing with legal names and without sampling, the counts on all services together are what their calls added; one service has all of them, and no other one is ever sent an increment of that counter; and every point that a service, compliant or not, sends to carbon is about texts that these programs wrote under names of this service, or that the service wrote to itself.

* Quantified over: all hash functions and sets of services, all texts and programs, command lines, files, orders of arrival and schedules.
* Modelled (Model/Client, Hashing, Create, App, Processor, Plugins): the sharded client's writes, and for each service everything from its command line to what carbon gets.
* Proof: C149 for what goes where, C169 and C172 for each service; what holds of each part holds of the sum, by induction over the services; C65's invariant of the client for what programs write, C59 for writers that list the services in different orders.
* Theorems:
  - `C176_total`: a client writes to several services through consistent hashing, each made of its own command line and files; whatever the network does to the order, and in any schedule of each service, the counts of a counter that were sent to carbon, are under way or stored, and the increments still scheduled, of all services together, add up to the increments that can be sent.
  - `C176_whole`: exactly, in doubles, for whole unsampled increments.
  - `C176_calls`: from the calls to carbon. A program calls `increment`, `decrement`, `gauge`, `meter` and `timing` with legal names and without sampling, on a `Metrics` object behind a sharded client; then the counts for a name on all services together are, at every moment, what the calls added to it.
  - `C176_programs`: and with several programs, each with its own `Metrics` object, namespace and sharded client for the same services, which each may list in its own order, the counts are what the calls of all of them added.
  - `C176_one`: one of the services has it all; no other one is ever sent an increment of the counter.
  - `C176_points`: every point that a service sends to carbon is about texts that some of the programs wrote, each under a name that belongs to this service, or that the service wrote to itself; no text is used more often than it was taken in.
  - `C176_pointsC`: the same of services without compliance.

## 6. Axioms per theorem

No axioms (6): C121_persists_refuted, C52_reconnect, C52_resume_raises, C52_unconnected, C86_default, C91_left_running.

propext (26): C100_counters_partial, C100_memory_refuted, C100_memory_swapped, C100_more_fields, C124_fired_once_refuted, C124_harmless, C135_refuted, C135_unconnected, C165_all, C30_logger, C51_empty, C53_literal, C63_unresolved, C77_line, C86_all_partial, C86_refuted, C88_configurable_partial, C88_default, C89_netdev_alias, C91_refuted, C91_start_aborts, C91_stop_aborts, C93_again, C97_limit_refuted, C97_lost_refuted, C97_stranded_refuted.

Quot.sound, propext (64): C100_cpu_partial, C100_process_partial, C121_counted_refuted, C121_only_writes, C121_persists_partial, C121_ready, C121_recovers, C121_stopped, C124_hello_twice, C142_lines, C142_pools, C147_gauge, C165_missing, C165_operands, C165_options, C165_reads, C165_refuted, C165_unknown_short, C165_wins_partial, C166_absent, C166_refuted, C166_rejected, C166_routing, C169_given, C169_options, C39_idle, C42_add, C42_no_buckets, C46_build_fresh, C49_not, C50_refuted, C52_refuted, C52_stuck, C53_class, C53_prefix, C54_lines, C58_refuted, C60_queue, C62_callbacks, C62_once, C63_result, C63_sends, C71_long_kept_partial, C71_long_partial, C71_unknown, C73_connections, C75_calls, C75_each_once, C75_failure, C77_datagrams, C80_refuted, C82_unique, C87_ambiguous, C87_report, C88_only, C88_refuted, C91_stop_partial, C95_always, C95_groups, C95_inspector, C95_known_partial, C95_refuted, C96_accepted, C96_reserved.

Classical.choice, Quot.sound, propext (612): C01_alphabet, C01_normalize_eq_spec, C02_fixes_legal, C02_idempotent, C03_dispatch, C03_parse_iff, C03_reject, C04_rebuild_roundtrip, C04_rebuild_text, C05_builtin_before_plugin, C05_unknown_type, C06_fractions, C06_integers, C06_rate_text, C07_count_unique, C07_counter_section, C07_exact_sum, C07_integer_sum, C08_conservation, C08_exact_balance, C08_idle_zero, C09_other_keys, C09_other_types, C09_reported, C100_percpu_partial, C101_once_partial, C101_refuted, C101_repeated, C102_counts, C102_timers, C103_configurable, C103_default, C104_timers, C105_configurable, C105_default, C106_new_name_aborts, C106_no_abort, C106_terminates, C106_uninterrupted, C107_reading_aborts, C108_doubles, C108_running_mean, C108_std_dev, C108_survives, C109_percentiles, C10_counter_timer, C10_gauge_meter, C10_gauge_meter_colon, C110_mean, C110_mean_at_most_upper_refuted, C110_timer_section, C111_bins, C112_count_partial, C112_total_exact_refuted, C112_total_partial, C112_unsampled, C113_default, C113_list, C113_methods, C113_metrics, C113_path, C113_port, C113_status, C113_timers, C113_unknown, C114_page_partial, C114_refuted, C115_configurable, C115_default, C115_start, C116_accepted, C116_close, C116_decimal, C116_exact, C116_idempotent, C116_monotone, C116_refuted, C116_shape, C116_special, C116_value, C117_rate, C117_small, C118_reading, C118_self, C119_copies_refuted, C119_no_loss, C119_served, C11_bad_rate, C11_no_rate, C120_mirrored, C120_shared, C121_fate, C122_counts, C122_sli, C123_distinct, C123_silent, C124_errors, C124_fired_once_partial, C124_ready, C125_integers, C125_moderate, C125_rules, C125_schedule, C125_service, C125_shared, C125_whole, C126_counts, C126_timers, C127_report, C127_timers, C128_configurable, C128_default, C129_plugin_life, C12_keep_90, C12_ordered, C12_timer_section, C130_counts, C130_sli, C131_distinct, C132_names_partial, C132_refuted, C133_move_partial, C133_never_raises, C133_no_room, C133_order_refuted, C133_ties, C133_top, C134_numbers, C134_percentiles, C134_report_refuted, C134_report_type_error_partial, C134_timer, C135_counted, C135_raises, C135_refused, C135_sends_partial, C135_server, C136_half_partial, C136_level0, C136_paired, C136_refuted, C136_unseen, C137_bound, C137_one_byte, C137_suffix, C138_alphas, C138_constant, C138_hull, C138_idle, C138_zero_interval, C139_lines, C139_lines_exact, C139_lines_mono, C139_status_complete, C139_status_sound, C139_tiling, C13_empty_after_flush, C13_stored_since_flush, C140_flush, C140_value, C140_whole, C140_windows, C141_after_stop, C141_dump, C141_loop_partial, C141_one_thread, C141_restart_refuted, C141_service, C142_alone, C142_load_partial, C142_memory_partial, C142_missing, C142_names, C142_recovery_refuted, C142_stuck, C142_traffic, C143_names, C143_refuted, C143_status_configurable, C143_status_default, C143_text, C143_timer_partial, C143_unambiguous, C144_injective, C144_roundtrip, C144_shape, C144_shortest, C144_special, C145_configurable, C145_flush, C145_receive, C145_status, C145_status_configurable, C145_within, C146_consistent, C146_first_decides, C146_never, C146_sli, C147_counter, C148_counters, C148_counters_near, C148_counters_refuted, C148_counters_whole, C148_gauges, C148_gauges_refuted, C148_listing, C148_meters, C148_metersC, C148_repeated, C148_repeated_refuted, C148_timers, C149_gauges, C149_latest, C149_meters, C149_one, C149_one_refuted, C149_timers, C149_total, C14_last_reading, C150_flush, C150_page, C150_page_configurable, C150_receive, C151_alike, C151_level, C151_met, C151_missed, C151_run_long, C151_run_short, C151_value, C151_values, C152_above, C152_below, C152_long, C152_million, C152_reports, C152_short, C153_choices, C153_draws, C153_fresh, C153_partial, C153_refuted, C153_refuted_function, C153_two, C154_certain, C154_decay, C154_equal, C154_five_minutes, C154_newer, C154_two, C155_default_partial, C155_first, C155_order, C155_pair, C155_refuted, C155_share_partial, C156_errors, C156_on_time, C156_one_flush_per_call, C156_refuted, C156_stopped_partial, C156_times, C156_zero, C157_load, C157_load_configurable, C157_memory, C157_memory_configurable, C157_traffic, C158_mean, C158_percentile_above, C158_percentile_below, C158_seldom, C159_seldom, C15_backlog, C15_once_partial, C15_refuted, C160_alone, C160_connections_configurable, C160_connections_last, C160_connections_none, C160_connections_partial, C160_connections_refuted, C160_io, C160_memory, C160_memory_configurable, C160_percent, C160_percent_configurable, C160_percent_exact, C160_process, C160_process_configurable, C161_errors, C161_memory, C161_on_time, C161_process, C161_process_configurable, C161_stopped, C161_times, C162_arrival, C162_one_at_a_time_partial, C162_outcomes, C162_refuted, C162_stopped_partial, C162_stopped_refuted, C162_times, C163_machine, C163_process, C164_close, C164_outcomes, C164_positions_partial, C164_refuted, C164_seldom, C165_abbreviation_partial, C165_declared, C165_unknown_long, C166_file_wins, C166_garbage, C166_headless, C166_indented, C166_last, C166_plain_partial, C166_reads, C166_start, C167_apart, C167_missed, C167_partial, C167_read, C167_refuted, C167_wiped, C168_first, C168_life, C168_next_partial, C168_refuted, C168_stuck, C168_wait, C169_creates, C169_default, C169_example, C169_kind, C169_listens, C169_no_loss, C169_once, C169_parts, C169_reports, C169_wiring, C16_flush, C16_nothing_lost, C16_report, C16_stored, C170_failures, C170_levels_partial, C170_levels_refuted, C170_sent, C170_walkers, C171_cpu_partial, C171_io_partial, C171_refuted, C171_traffic_partial, C171_twice_refuted, C172_configurable, C172_counts, C172_default, C172_dot_partial, C172_dot_refuted, C172_names, C172_prefix, C172_rules, C173_configurable_partial, C173_configurable_refuted, C173_createdC_partial, C173_created_partial, C173_default_partial, C173_default_refuted, C173_shippedC_partial, C173_shippedC_refuted, C173_shipped_partial, C173_shipped_refuted, C174_balance, C174_begun_partial, C174_begun_refuted, C174_counts, C174_counts_refuted, C174_created_partial, C174_everythingC_partial, C174_everything_partial, C174_gauges, C174_shippedC_partial, C174_shipped_partial, C175_conditions, C175_counts, C175_countsC, C175_created, C175_labels, C175_metric, C175_patterns, C176_calls, C176_one, C176_points, C176_pointsC, C176_programs, C176_total, C176_whole, C17_flush_counts, C18_receive_counts, C19_subsecond, C19_whole_second, C20_timestamp_and_prefix, C21_listing, C22_at_rest, C22_conservation, C22_exact_balance, C23_new_counter_aborts, C23_no_abort, C23_terminates, C23_uninterrupted, C24_balance, C24_missed, C24_read, C24_receive_partial, C24_refuted, C24_twice_refuted, C24_wiped, C25_latest, C26_poison, C26_refuted, C26_survives, C27_names, C28_listing_partial, C28_refuted, C29_flush, C29_report, C30_out_lines, C30_process, C30_transparent, C31_marker_refuted, C31_nonnegative, C31_variance, C32_percentiles, C33_bins, C33_equal_values, C33_sturges, C34_extremes, C34_mean, C35_positions, C36_kept, C36_outcomes, C36_subsets, C36_uniform, C37_errors, C37_top, C38_landmark_free, C38_rescale, C39_alphas, C39_constant, C39_hull, C39_weights, C40_no_hashes, C40_value, C40_window, C41_flush, C41_monotone, C41_set_only, C41_windows, C42_hash, C42_one_bucket, C42_reporter, C42_zeros, C42_zeros_unique, C43_empty_window_partial, C43_refuted, C44_accepted, C44_flush, C44_reset, C45_counted, C45_malformed, C46_above, C46_below, C46_between, C46_build, C46_exclusive, C46_nan, C47_calls, C47_first_exception, C47_inert_raises, C47_no_rules, C47_route, C48_drop, C48_dropped, C48_unmatched, C49_condition, C49_depth, C50_original_type, C50_redirect_type_partial, C51_not_doubled, C51_stream, C51_write, C52_flow_partial, C53_path_like, C53_plain, C54_count, C54_faults, C54_raises, C54_rules, C55_owner, C55_set_only, C56_add, C57_remove, C57_restore, C58_complete, C58_empty, C58_walk_partial, C59_errors, C59_sharding, C60_bound, C61_callback_overtakes_refuted, C61_conserved, C61_destination, C61_drained, C61_order, C64_cases, C64_injective, C64_qualified, C65_accepted, C65_counts, C66_no_connection, C66_sampling, C67_first_rate, C67_kind_refuted, C67_own_rate_partial, C67_refuted, C68_loss, C69_tiling, C70_exponent, C70_plain_rate_partial, C70_refuted, C70_text, C71_file_wins, C71_refuted, C72_difference, C72_failure, C72_first, C72_new_key, C72_sum, C73_meminfo, C73_meminfo_error, C73_meminfo_lines, C74_assertion, C74_late, C74_ok, C74_one_per_round, C76_lax, C76_refuted, C76_sound_partial, C76_threshold, C78_count_partial, C78_first, C78_other_names_partial, C78_owner, C78_refuted, C79_low_percentage, C80_first_line_only, C80_single_line_partial, C80_too_long, C81_client_sends, C81_plugin_type_partial, C81_refuted, C81_server_rejects, C82_conditions, C82_not_a_rule, C82_order, C82_rule, C82_senseless, C83_callable_partial, C83_metric_rule, C83_refuted, C84_server, C85_period, C85_refuted, C85_whole_seconds_partial, C85_zero, C86_count, C86_port, C86_ports, C87_total, C89_loadavg, C89_loadavg_error, C89_netdev, C89_netdev_error, C90_ages, C90_delay_partial, C90_refuted, C90_since, C92_no_loss, C92_processed_once, C93_compliant, C93_dump_partial, C93_refuted, C94_one_line_partial, C94_refuted, C94_two_lines, C97_conserved, C97_delivered_partial, C97_limit, C97_lost_forever, C97_undisturbed_partial, C98_bias_partial, C98_count, C98_expectation, C98_refuted, C99_backlog, C99_colon_refuted, C99_history, C99_latest.
