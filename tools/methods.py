"""Per property: (model files, what is modelled, how it is proved). Used by tools/design.py."""
M = {}
def m(ids, files, modelled, proof):
    for i in ids.split():
        M[i] = (files, modelled, proof)

m("C01", "Text", "`normalize_key` as three substitutions over a byte string (`subRuns`, `filter`)",
  "equality with the one-pass specification `Spec.normal` by strong induction on the length of the key; the alphabet follows from the filter")
m("C02", "Text", "as C01", "the specification fixes legal keys (induction); idempotence is that applied to the alphabet of C01")
m("C03", "Text, Processor", "`process` up to `process_message`, `fail`",
  "both directions against an existential decomposition of the stripped text (`Spec.Grammar`), using inversion lemmas of `split1`, `splitOn`, `strip`; uniqueness of the decomposition; the state equality is by computation for every class (`Impl`)")
m("C04", "Text", "`rebuild_message`", "the rebuilt text is the stripped message with its key normalised; parsing it again uses C02")
m("C05", "Processor", "the dispatch of `process_message`", "case analysis; the whole state is compared")
m("C06", "Text", "`float()` down to its grammar, `str(int)`, the `RATE` expression", "induction on digits (`natStr`/`digitsVal` are inverse)")
m("C07", "Processor", "`process`, `process_counter_metric`, `compose_counter_metric`, `flush`, `flush_counter_metrics`",
  "induction over message histories: the stored value is the left fold of the accepted increments read off the texts by `Spec.increments`; then the counter phase is computed for an arbitrary dict. Any rounding; exactness separately for exact arithmetic and for integers up to 2^53")
m("C08", "Processor", "histories of messages and flushes", "induction over histories with a ghost list of blocks; exact sums in `C08_exact_balance`")
m("C09", "Processor", "all handlers", "frame lemmas per handler over every state; `C09_reported` pushes them through `flush`")
m("C10 C11", "Processor", "the error branches of the four handlers", "computation of `process` on messages of the given shape, for every state and class-independent part")
m("C12", "Processor", "`flush_timer_metrics` with sort, threshold, slice, mean", "sortedness of `mergeSort`, order statistics over rationals, induction over histories for the durations held")
m("C13", "Processor", "timers over histories of messages and flushes", "induction over histories")
m("C14 C15", "Processor", "the gauge deque", "induction over histories: the deque is the list of accepted readings; the gauge phase emits it in order")
m("C16", "Reporters, Processor", "`MeterMetricReporter` and its use in the processor", "induction over mark/report sequences (ghost sums), and over histories of the processor for the stored meter")
m("C17", "Processor", "`flush`, `flush_metrics_summary`", "computation of all phases over an arbitrary reachable state; uniqueness of names by prefix arguments")
m("C18", "Processor", "`process_message` accounting and summary", "induction over histories of messages and flushes; `by_type` and `process_timings` have the same keys")
m("C19", "Processor", "`flush` with interval // 1000", "computation on every state")
m("C20", "Processor", "every datapoint constructor", "membership analysis of all phases, including aborted flushes")
m("C21", "Processor", "`get_metric_names`", "induction over histories; the names are read off the message texts by the specification")
m("C22", "Generator", "the `flush` generator as a step machine, any number of generators, arbitrary schedules", "invariant over all schedules with a ghost list of blocks per key; sums in exact arithmetic")
m("C23", "Generator", "as C22", "simulation between the atomic `flush` and the step machine; a termination measure; an invariant for the absence of resizing; a stuck-state argument for the abort")
m("C24", "Generator", "as C22", "invariant over all schedules with the stated restriction; the counterexample is evaluated by the kernel")
m("C25 C26 C27", "Configurable, Reporters", "`ConfigurableMessageProcessor`", "induction over histories for the last accepted values; the phases computed for arbitrary dicts")
m("C28", "Configurable", "`get_metric_names` on a dict of gauges", "induction over the keys")
m("C29", "Reporters, Histogram, Configurable", "`TimerMetricReporter`", "induction over update/report sequences on top of the histogram theorems C31-C34")
m("C30", "Configurable", "`LoggingMessageProcessor` (process and the wrapped generator)", "bisimulation over all schedules; the log is a function of the schedule's emissions")
m("C31 C32 C33 C34", "Histogram, Sample", "`HistogramMetricReporter` over a `UniformSample`", "Welford invariant (induction, field arithmetic); index arithmetic and interpolation over sorted lists; induction over updates and clears")
m("C35 C36", "Sample", "`UniformSample`", "a ghost list of stream positions, induction over draws; counting draw sequences by induction on the stream length")
m("C37 C38", "ExpDecay, Bisect", "`ExponentiallyDecayingSample`", "invariant: the entries are the top weights of the offered ones, priorities relative to the landmark; correctness of the binary search on sorted lists")
m("C39", "Ewma", "`Ewma`", "closed form by induction over ticks; convexity; the constants with `Real.exp`")
m("C40 C41 C42 C43", "Distinct", "`SBoxHash`, `zeros`, `SlidingDistinctCounter`, `DistinctMetricReporter`", "the bucket time is the time of the last sighting at that level (induction over sightings); runs of levels; bit arithmetic for `zeros` and the 32-bit mask")
m("C44 C45 C46 C82 C83", "Sli, Fnmatch", "`SLIMetricReporter`, the conditions, the rule lines of `sli_plugin.py`", "induction over events; exact rationals for the conditions; inversion of the line matcher against an independent grammar")
m("C47 C48 C49 C50 C53 C54", "Router, Fnmatch, Text", "`Router`: rules, conditions, targets, rule texts; `fnmatch`", "the nested loops are proved equal to the specification `Spec.route` by induction over rules and pending metrics; conditions by induction on nesting; glob matching, with `*`, `?` and bracket classes, against the relations `Reads`, `Fits` and `ShellMatch`")
m("C51 C52 C77 C80", "Tcp", "TCP redirect client, Twisted's `LineReceiver`, the server protocols", "invariants over all event schedules; splitting by CRLF proved independent of the chunking")
m("C55 C56 C57 C58 C59", "HashRing, Bisect", "`ConsistentHashRing`, `ConsistentHashingClient`; MD5 is an arbitrary function", "the ring is the sorted list of all replicas of the present nodes (invariant); `bisect_left` is the first entry at or after the position; owner as a minimum over entries")
m("C60 C61 C62", "Client", "`DataQueue`, `TransportGateway`, `TwistedStatsDClient`, the reactor's call queue", "invariant over all schedules of writes, connects, resolutions, disconnects and reactor turns")
m("C63", "Client", "`UdpStatsDClient`", "induction over operation sequences")
m("C64 C66 C67 C70", "Metrics", "`Metrics`, `ExtendedMetrics`, metric objects", "case analysis on calls; induction over call histories for the cached object")
m("C65 C68 C69", "Metrics, Processor, Configurable", "client calls end to end through `InternalClient`, or through a lossy network", "induction over call sequences with the integer text round trip of C06")
m("C71 C86", "Options", "`OptionsGlue`, `StatsDOptions`, the config file sections, `createService` destinations", "induction over parsed options and file items")
m("C72 C73 C89", "System", "process.py: counters, meminfo, loadavg, netdev, connections", "induction over the lines / readings; inversion of the field splitting")
m("C74 C90", "Report", "`ReactorInspector` as a step machine against an arbitrary reactor", "invariant over all histories")
m("C75 C91", "Report", "`ReportingService`, its tasks and `wrapped`", "induction over histories of runs, failures, starts and stops")
m("C76 C88", "Http, Service", "`httpinfo.py` status and metric pages", "computation; case analysis on the processor class")
m("C78 C81 C84", "Plugins, Sli, Distinct, Processor", "the shipped plugins inside the processor", "induction over message histories; computation of the parse of the client's text")
m("C79", "Processor", "as C12", "computation of the threshold index")
m("C85 C87", "Service", "the flush task's period; `report_client_manager_stats`", "integer arithmetic; induction over runs")
m("C92", "App, Processor, Generator", "the assembled service: receivers, scheduled calls, `InternalClient`, the flush task", "simulation of the service by the server of C22 with the processed texts as arrivals, up to a permutation; then C22")
m("C93", "App, Configurable", "the choice of the processor, `LoggingMessageProcessor` in the assembled service", "case analysis of the choice; the logging processor simulates the configurable one step by step")
m("C94", "Text, Processor", "`parse`, `process`", "inversion of the message grammar")
m("C95 C96", "App", "the scheduling of reports in `createService`; `accumulateClassList`, `OptionsGlue.__init__`", "induction over the list of names / over the class hierarchy")
m("C97", "Threads", "`TwistedStatsDClient` and `DataQueue` as a machine whose steps are the attribute accesses of `write` in any thread and of the reactor's calls", "invariants over all interleavings (conservation, queue bound, emptiness of forgotten lists); witnesses by computation")
m("C98", "Metrics, Processor", "`Metric.send`'s sampling, the client's text, the counter of the processor", "counting of draws; induction over the increments with linearity of the sum over all draw sequences")
m("C99", "SelfReport, Metrics, Report, Processor", "`wrapped`'s wrapper with `metrics.gauge` as report function, `InternalClient`, the processor", "induction over the history (each report equals its messages); then C14 and C15")
m("C100", "System", "`ProcessReport`, `report_system_stats`, from what psutil returns", "computation; injectivity of the padded CPU number; induction over the assignments")
m("C101", "System", "`report_counters` run several times on one reading", "C72 applied twice; witness by computation")
m("C102 C104", "Generator, Processor, Configurable", "the flush generators advanced in any order, interleaved with arrivals", "an invariant of the store, the received messages and the emitted or pending points of one key, kept by each visit, each message and each step of the schedule")
m("C103", "Generator, Processor, Configurable", "as C102", "provenance of each store as an invariant over all schedules; every visit emits about the store of that moment; pending points keep their moment")
m("C105", "Generator", "as C102", "the timestamp fixed at the first advance is a component of the generator's state; induction over schedules")
m("C106 C107", "Generator, Processor, Configurable", "as C102", "the size remembered by a phase against the size of the dictionary, which never shrinks; induction over schedules")
m("C108", "Ieee, Histogram, Reporters, Configurable", "`update_variance`, `variance`, `std_dev` with every operation rounded; the flush of the configurable processor", "induction over the stream with the laws of rounding (monotone, odd, identity on doubles): each addend of the sum of squares is a product of factors of equal sign; `binary64_ieee` proves the laws for the doubles")
m("C109", "Ieee, Histogram", "`percentiles` with every operation rounded", "monotonicity of rounding, interpolation between neighbours")
m("C110", "Ieee, Histogram, Processor", "`mean`, `flush_timer_metrics` with every operation rounded", "error bound of sequential summation by induction; the timer section as in C12; refutation by computing with doubles")
m("C111", "Ieee, Histogram", "`histogram` with every operation rounded", "quotient at most 1 by monotonicity of rounding, so the bin index is at most bins - 1")
m("C112", "Ieee, Processor", "`compose_counter_metric`, `flush_counter_metrics` with every operation rounded", "error bound of sequential summation; witness by computing with doubles")
m("C113", "Site, Http", "the resource tree, the traversal and the choice of a renderer (of twisted.web), all `render_GET`s, `getChild`, `makeService`", "case analysis on the path; composed with C21 and the stored timers of the configurable processor")
m("C114", "Site, Configurable, Histogram, Ieee", "`TimerResource.render_GET` on the timers of a processor after any history", "the histogram of a timer run holds the durations of the period; C111, C34, held values of the reservoir; witness by computing with doubles")
m("C115", "Site, Processor, Configurable", "the timing of `process_message` and of the phases of `flush`", "invariant over histories: every duration is a difference of clock readings, disjoint in time")
m("C116", "FloatStr, Text", "CPython 2.7's `str(float)` (twelve digits, `%g` with `.0`), and `float(text)`", "the digits of the nearest decimal number; parsing of the printed layout; distance of decimals of twelve digits against the spacing of doubles; witness by computing with doubles")
m("C117", "FloatStr, Processor", "the sampling annotation of `Metric.send` with a printed float, the server's rate pattern", "C70 applied to the printed layout")
m("C118", "FloatStr, Client, Report", "`Metrics.gauge/meter/timing`, the gauges of the reports of a service", "C66 and C99 with C116")
m("C119", "App, Router, Generator, Processor", "the running service with rules: `Router.process` in front of the processor, the listeners, the cooperator", "simulation by the server of the schedules: every routed metric is processed as the text that carries its type; C22")
m("C120", "App, Router, Generator, Processor", "two running services connected by `redirect_udp`/`redirect_tcp` without loss; the clients' queues are not part of the chain (they are in C60, C61, C77-C79)", "C119 on both, round trip of rebuilt messages (C04)")
m("C121", "Redirect, Tcp", "`TCPRedirectService`, `TCPRedirectClientFactory` and `TCPRedirectProtocol` as one machine; of Twisted: connecting, reconnecting, `stopTrying`, `resetDelay` and `stopProducing` at the end of a connection are taken from its documentation", "invariant over histories: a connection is up or its protocol is paused")
m("C122", "Sli, Plugins, Generator, Processor", "the SLI plugin inside the schedule machine of flush generators", "watch invariant: blocks reported so far, the open block stored")
m("C123", "Distinct, Plugins, Generator, Processor", "the distinct plugin inside the schedule machine of flush generators; its hash tables are drawn from the world at creation", "watch invariant: stored counter is the feed of the stream (C40), every report that of a prefix")
m("C124", "Model/Ready", "the Deferreds of the redirects, the callbacks of `Router.ready` that wait for them one after the other, the errors of a second callback, and the constructor and `create` of a UDP client", "invariant over histories: where `ready` waits, all redirects before have fired; each redirect follows its own course, which depends only on its own events")
m("C125", "App, Router, Generator, Processor, Ieee", "the counters of the default processor inside the schedule machine and inside one or two running services; `AddsUp c` says that the arithmetic at hand adds any selection of the increments with a relative error of at most c, and is proved for whole increments (c = 0) and for doubles", "the blocks of C22 with the error of each block; the errors add up because the sizes do")
m("C126", "Generator, Processor, Ieee", "as C102, with float arithmetic that satisfies the laws of IEEE doubles instead of exact arithmetic", "the watch invariant of C102, generalised over what is required of a summary; the summary of a block from C110")
m("C127", "Generator, Configurable, Reporters, Histogram, Ieee", "as C104, with float arithmetic that satisfies the laws of IEEE doubles", "what a timer holds after a history, by induction; its parts from C34, C108, C109 and C110; the watch invariant of C104, generalised over what is required of a report")
m("C128", "Generator, Processor, Configurable, Reporters, Ieee", "as C103", "C103, whose meter clause carries the total in exact arithmetic, in doubles and for whole numbers; names decide which clause applies")
m("C129", "Generator, Processor, Configurable", "`process_plugin_metric`, `flush_plugin_metrics` and `get_message_prefix` of the configurable processor, for any plugin objects", "watch invariant: every stored plugin metric is the outcome of a life with exactly the messages of its name (`Lives`)")
m("C130", "Sli, Plugins, Generator, Configurable", "the SLI plugin inside the configurable processor", "C129; the reports of a life by induction over it")
m("C131", "Distinct, Plugins, Generator, Configurable", "the distinct plugin inside the configurable processor", "C129; the reports of a life by induction over it")
m("C132", "Sli, Distinct, Plugins, Generator, Configurable", "the names that the two plugins and the four built-in metrics give under a configured prefix", "C103 and the names of the points of metrics that can come about; a concrete schedule with the prefix p. for the refutation")
m("C133", "DecayFloat", "`ExponentiallyDecayingSample` in doubles, with any exponential function that satisfies five laws; `bisect.insort` on pairs", "invariant: the sorted list and the values dropped are the aged entries, and no dropped entry is above a held one; multiplying by a factor of at most 1 and rounding is monotone. A three-call history for the refutation")
m("C134", "DecayFloat, Histogram, Reporters", "`HistogramMetricReporter` over a decaying sample, its `report`, and `max`, `min`, `mean`, `std_dev`, `percentiles`, `get_values` of a timer", "the numbers equal those of a uniform histogram fed the same values, then C34, C108, C110; scores as in C109; `report` by cases")
m("C135", "PyText, Metrics, Text", "`fully_qualify_name`, `send`, `write` and the formatting of `mark` for Python 2 byte and unicode strings; UTF-8", "the encoder equals Lean's; joining and formatting keep the characters or raise (`Stands`, `Spoilt`); strip, split and normalisation commute with the encoding")
m("C136", "Distinct", "`SBoxHash.hash`, `zeros`, the buckets", "the lowest bit of the hash is the parity of the sum of the entries; counts of bytes for the sum; C40 for the estimate")
m("C137", "Distinct", "`SBoxHash.hash`, the estimate", "a step of the hash is injective (xor, and multiplication by 3 modulo 2^32); levels of different items are an injection")
m("C138", "EwmaFloat", "`Ewma` with every operation in floats", "induction over the operations: the state is determined by the totals of the intervals; a step between two doubles stays between them (`step_between`); decay by bounds on two roundings; the constants by bounds on the exponential function")
m("C139", "Metrics, Sli, Http", "`timing` without a duration, `AboveCondition`, `BelowCondition`, the status page, with a rounding of IEEE 754", "Sterbenz's lemma on differences of doubles; error bounds of one rounding, added up; monotonicity of rounding")
m("C140", "DistinctFloat, Distinct", "`distinct` and `flush` of the distinct counter with every operation in floats; `2 ** v` as a monotone function that is exact at whole numbers", "sums of whole numbers and quotients by powers of two are exact; a whole number taken from a greater double is exact; 77351 does not divide 2^k * 10^5, so that the estimate keeps away from whole numbers by more than the error")
m("C141", "Inspector, Report", "`ReactorInspectorService`, `start`, `stop`, the flags and the condition of the loop, `dump_frames`", "invariant on the flags; simulation of the loop by induction; a measure (readings made plus those under way) that no event raises after a stop. A four-event history for the refutation")
m("C142", "Files, System", "`splitlines`, `load_file`, `report_file_stats`, `SYSTEM_STATS` with its generators, the reports about thread pools and reactors", "equivalence of cutting and the grammar of lines; projection of a run to one report; C73, C89 and C72 carried to the text of the file; prefixes of names that exclude each other. A three-call history for the refutation")
m("C143", "Json, Site", "`json.dumps` of the three pages: numbers, strings with escapes, arrays, objects in any order of iteration", "the text built follows the grammar rule by rule; determinism of the grammar by induction on derivations (what follows a number, string or value begins with a character that cannot continue it); invariant that the times shown are doubles; C113, C114 for the data. A history of 1029 durations for the refutation, by lemmas on the reservoir")
m("C144", "Json, FloatStr", "`repr` of a float: the fewest digits, the closest of these, point or exponent", "binary64 rounds to the nearest, so that the numbers rounded to a double are an interval around it; the three candidates for n digits are the only ones that can lie in it closest; 17 digits always suffice; layout shared with C116")
m("C145", "Processor, Configurable, Site", "`process` with its two readings of the clock, `timings`, the parts of `flush` with their readings, the status page", "invariant: the stored pairs are the count and the sum of the readings since the last flush; the parts of a flush cut the time from start to end into adjoining pieces; linear arithmetic")
m("C146", "Metrics", "every call of `Metrics` and `ExtendedMetrics`, `sli`, `sli_error`, the table of metric objects", "the object a call finds has the class of the first call for its name (C66); case analysis over calls and classes against a separate table; induction over the history")
m("C147", "Reporters", "`CounterMetricReporter`, `GaugeMetricReporter`", "induction over the marks; floor and ceiling")
m("C148", "Processor, Configurable", "`process`, `flush` and the parts of it for timers, counters and gauges, `get_metric_names`", "permuted messages store permuted durations, and sorting forgets the order (nan excluded, since it does not sort); additions commute when exact, otherwise both sums are near the exact one (C125); marking the same value twice is marking it once")
m("C149", "Hashing, Client, Processor, Configurable, Service", "`ConsistentHashingClient.write`, the ring, and one service per client with its schedule of datagrams and flushes", "the datagrams of the servers together are a permutation of the writes (C59); the balance of one server (C125) summed over the servers; a datagram of a key written under one name has the owner of that name; C103 and C128 for the totals of meters, C25 for the latest values")
m("C150", "Processor, Configurable, Site, Ieee", "as C145, with every addition, subtraction and multiplication rounded", "differences of readings are exact (Sterbenz); k roundings of numbers that are not negative have a relative error of (1 + 2^-53)^k - 1, since sums and multiples of doubles do not underflow; invariants over the history as in C145")
m("C151", "Distinct", "`SBoxHash.hash`, `zeros`, `add` and `distinct`, counted over all tables (entries up to 2^32 - 1, of which `randint` never draws the last)", "with all entries fixed but those of two bytes whose counts in the two items are independent modulo 2, the two entries and the two hashes determine each other: the lowest bit in which entries differ shows in the hashes (the steps never carry downwards); pairwise independence; Chebyshev's inequality for the shares missed")
m("C152", "Distinct, DistinctFloat", "`SBoxHash.hash`, `add`, `distinct` with its roundings, counted over all choices of the tables, and over those `randint` can draw", "C151 bounds the tails of the run of one hash function; the mean of (3/2)^run over the tables is then bounded, that of the product over independent tables is a product, and Markov's inequality bounds the sum; the report is monotone in the sum (C140); the numbers not drawn are a small share (Bernoulli)")
m("C153", "SBoxDraw, Distinct", "`SBoxHash.__init__`, `hash`, `SlidingDistinctCounter.__init__` on a sequence of draws", "recursion over the hash functions; 3 is invertible modulo 2^32; the pairs counted by the value of one hash (C151); witnesses by evaluation")
m("C154", "ExpDecay", "`ExponentiallyDecayingSample` over the real numbers with the real exponential; the draws are points of the unit cube with the Lebesgue measure", "the sample holds the values of the greatest weights (C37); exchanging the draws of two values keeps volumes and turns draws that hold the older one into draws that hold the newer one, except where weights are equal, which is a union of hyperplanes; an old value that is held had a small draw; the area of a triangle")
m("C155", "HashRing", "`ConsistentHashRing` with the positions of the replicas as a finite choice for each node and replica", "exchanging the positions of two nodes exchanges the owners, except where the owner shares its position with another node; such a shared position is determined by the other replicas, so that its share is one in the number of positions")
m("C156", "FlushTask, App", "`StatsDService` with its `LoopingCall` as a step machine around the service of C92; `_reschedule` as the next multiple of the period after the start", "the next call is always due at a multiple of the period; induction over the run, with the readings of the clock singled out; a witness by evaluation")
m("C157", "SysService, Files, SelfReport, FloatStr", "the reports of `SYSTEM_STATS` wired to the gauges of the client and these to either processor", "a history of reports is one of `C99` with the results of the functions (C142); only one kind of report has a given name (C142_names), so the last value for it is that of the last report of the kind; texts of integers and of doubles with few digits are read back exactly (C116); the differences of the traffic are integers that add up (C142_traffic)")
m("C158", "Sample, Histogram", "`UniformSample.update` on all draw sequences; `HistogramMetricReporter.percentiles` on top", "every set of n positions is kept by equally many draw sequences (C36); first and second moments of the number held by counting sets through one and two positions; Chebyshev's inequality over lists; the rank of a score in the sorted sample")
m("C159", "Metrics, Processor", "`Metric.send`'s sampling, the client's text (as C98)", "the variance over all draw sequences by induction over the increments, the mixed terms vanishing; Chebyshev's inequality over lists; the bias of C98")
m("C160", "HostService, SysService, System, SelfReport", "all reports of `process.py` that `createService` schedules, wired to the gauges of the client and these to either processor", "as C157; each report sees only its own generator, so what it returns is what it would return alone; only one kind of report has a given name (C142_names); the differences add up (C72); a witness by evaluation")
m("C161", "ReportLoop, HostService, FlushTask", "the `LoopingCall`s of the scheduled reports, started and stopped together, over a machine that changes with time", "all loops run or none does, so each evolves by itself; a loop that has made its call at u is next due at most one period after u; the history of operations that results is one of C160")
m("C162", "SlowReport, FlushTask", "one task of a `ReportingService` whose function may return a Deferred; the loop plans its next call when the result is there; a call that is planned over is no longer known to `stop`", "invariant: one result awaited and nothing planned, or nothing awaited and one call planned if the loop runs; every call is accounted for; witnesses by evaluation")
m("C163", "HostService, System", "reports of CPU times among all others, doubles to twelve digits of text and back", "each kind of report on its own (C160), differences of consecutive readings, rounding error of the difference and of its text (C116), sums telescope")
m("C164", "Sample", "`UniformSample` with draws from `randint(1, M)`, all sequences equally likely", "residues of one draw by periodic sums; a hybrid argument over the draws; the sample depends on residues only; the counterexample by the exact count")
m("C165", "Getopt, Options", "Python's `getopt.getopt` (from its source), the lists of options as `usage.Options` gathers them, `parseOptions`", "one step per written option, induction over the command line; the table of the server by evaluation; composition with C71")
m("C166", "Ini, Getopt, Options, Router", "Python 2.7's `RawConfigParser.read`, `sections` and `items` (from its source), `postOptions`, and `parseOptions` as a whole", "one step per kind of line; induction over the grammar of files; dictionaries as folds of assignments; composition with C165 and C71")
m("C167", "Generator, Configurable", "schedules of arrivals and of the points of any number of flushes of the configurable processor; the name of a count from the prefixes", "the invariants of C24 for any processor whose visits leave the receive statistics alone and make no point of that name; for the configurable processor from the relation between its stores and the messages so far; the counterexample is evaluated by the kernel")
m("C168", "Backoff, Redirect", "the reconnecting factory's `retry`, `resetDelay` and `stopTrying` (from Twisted's source) around the redirect of C121, with exact times and any numbers for the normal draws", "an invariant over all histories that bounds the delay by the number of scheduled attempts; a simulation for C168_life")
m("C169", "Create, App, Ini, Getopt, Options, Router, Sli", "`createService` with `httpinfo.makeService`, from the options that `parseOptions` returns to the list of child services; what the children do is in the other models", "every operation on the options keeps each value of its declared kind, so the conversions in `createService` cannot fail; its result in closed form; C54 and C18 for the texts of rules; C165 and C166 for the options; the example file by evaluation; composition with C92")
m("C170", "Demo, Client, Metrics, Report, App", "example-stats-client.tac: the Twisted client, `Metrics` and the reporting service it makes, driven by any draws, readings and turns of the reactor; together with the whole service that receives", "an invariant that the datagrams sent and scheduled are the texts so far; the increments of a key among them; C125 for the service, exact for whole numbers")
m("C171", "HostService, System, Files, Configurable", "all reports of a service on the configurable processor, from `psutil` and `/proc` to the flushes", "the values said about a name as differences of consecutive readings; the last of them through C25; the counterexamples are evaluated by the kernel")
m("C172", "Create, App, Router, Processor, Configurable, Plugins", "the service that `createService` returns, with the shipped plugins as the options configure them, in any schedule", "every point sent was emitted by a flush that began in the schedule; C103 for flushes, C92 and C119 for what arrives at the processor, C169 for what the options decide, C125 for the sums")
m("C173", "Processor, Configurable, Reporters, Plugins, Sli, Distinct", "`flush` of both processors after any history, with all sections and the own statistics", "a completed flush in closed form, with a group for each stored plugin metric; what builders, messages and flushes keep of these metrics holds in all histories; the groups of a section are told apart by key, since suffixes have no dot inside; sections by their prefixes and kinds; the counterexamples are evaluated by the kernel")
m("C174", "Processor, Configurable, FlushTask", "`flush` of both processors over any history, the timestamps they take from the clock, and the loop that begins the flushes; carbon itself is outside the repository and appears as a store with one value per name and timestamp", "by induction over the history, a name and timestamp are said once if flushes are apart; C08 for the sums, C173 for the names, C156 for the loop; the counterexamples are evaluated by the kernel")
m("C175", "Sli, Fnmatch, Create, Plugins", "`configure` and `build_metric` of the SLI plugin, and the service that `createService` returns with it", "an invariant of the loop over the rules, from what the regular expression matches; fnmatch of patterns without brackets; C122 and C130 for the counts")
m("C176", "Client, Hashing, Create, App, Processor, Plugins", "the sharded client's writes, and for each service everything from its command line to what carbon gets", "C149 for what goes where, C169 and C172 for each service; what holds of each part holds of the sum, by induction over the services; C65's invariant of the client for what programs write, C59 for writers that list the services in different orders")
