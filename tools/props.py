import json
P=[]
def p(title, statement, quantifier, why, anchors):
    P.append(dict(id="C%02d"%(len(P)+1), title=title, statement=statement, quantifier=quantifier, why_tests_cant=why, anchors=anchors))
PR="txstatsd/server/processor.py"; CP="txstatsd/server/configurableprocessor.py"; LP="txstatsd/server/loggingprocessor.py"
RT="txstatsd/server/router.py"; SP="txstatsd/server/protocol.py"; HI="txstatsd/server/httpinfo.py"; HA="txstatsd/hashing.py"
CL="txstatsd/client.py"; TP="txstatsd/protocol.py"; MM="txstatsd/metrics/"; ST="txstatsd/stats/"; SV="txstatsd/service.py"; PC="txstatsd/process.py"; RP="txstatsd/report.py"
# --- parsing
p("Normalised keys: exact description and alphabet",
  "For every key text, normalize_key replaces each maximal whitespace run by one '_' and each maximal '/' run by one '-', keeps letters, digits, '_', '-', '.', deletes everything else; so the result contains only characters graphite accepts.",
  "every byte string", "the input space is all byte strings; run boundaries and deleted characters interact", [PR+":normalize_key"])
p("Key normalisation is idempotent and fixes legal keys",
  "normalize_key(normalize_key(k)) == normalize_key(k) for every k, and a key made only of legal characters is returned unchanged.",
  "every byte string","idempotence over all strings",[PR+":normalize_key"])
p("Message grammar is decided exactly",
  "process(message) hands (type, normalised key, fields) to the processor iff the whitespace-stripped message is key ':' f0 '|' type ['|' f2] with no ':' in key and no '|' inside a field; every other message is logged as bad exactly once and changes no state.",
  "every message text and every processor state","all byte strings, including several colons, pipes, embedded whitespace",[PR+":BaseMessageProcessor.process", PR+":BaseMessageProcessor.fail"])
p("Forwarded messages re-parse to the same metric",
  "If a message is accepted with key, type and fields, then rebuild_message of these gives a text which process accepts again with the same key, type and fields (so UDP/TCP redirection to another txstatsd is lossless).",
  "every accepted message text","round-trip over all inputs",[PR+":BaseMessageProcessor.rebuild_message", RT+":Router"])
p("Unknown metric types have no effect",
  "A well-formed message whose type is neither built in (c, ms, g, m) nor a registered plugin type is logged as bad and leaves every aggregate, every receive statistic and every later flush unchanged; built-in types are never handed to a plugin registered under the same type.",
  "every state, key, field list and plugin table","all states and type strings",[PR+":MessageProcessor.process_message"])
p("Decimal integers survive the text protocol",
  "For every integer n, the text that the client writes for n is parsed by the server's float() to exactly n (before float rounding), and the rate regular expression reads back every decimal rate text.",
  "every integer","unbounded integers of both signs",[MM+"metrics.py:Metrics.increment", PR+":MessageProcessor.process_counter_metric"])
# --- counters
p("Counter aggregation is exact",
  "After any message history on a fresh MessageProcessor, flush reports for each key stats_counts.<key> equal to the sum of value/rate over exactly the accepted counter messages for that key, and stats.<key> equal to that sum divided by the interval in whole seconds.",
  "every message history (any interleaving of keys, types, malformed lines) and every flush interval of at least one second","all histories",[PR+":MessageProcessor.compose_counter_metric", PR+":MessageProcessor.flush_counter_metrics"])
p("Counters are never lost or double counted across flushes",
  "For any sequence of messages and completed flushes, the sum of all stats_counts.<key> datapoints emitted plus what the next flush would emit equals the sum of all accepted increments; a flushed counter keeps being reported, as 0, until incremented again.",
  "every sequence of process and flush calls","unbounded alternation of messages and flushes",[PR+":MessageProcessor.flush_counter_metrics"])
p("Metrics are isolated by key and type",
  "Processing a message for key k and type t does not change what is stored (and later reported) for any other key, nor for the same key under another built-in type.",
  "every state and every message","all pairs of keys and all states",[PR+":MessageProcessor.process_message"])
p("Malformed values leave aggregates untouched",
  "A counter, timer, gauge or meter message whose value is not a float literal changes no aggregate of any kind: counters and timers log a bad line (yet are still counted in receive statistics); gauges and meters log and then raise, without being counted.",
  "every state, key and non-numeric value text","all texts rejected by float()",[PR+":MessageProcessor.process_timer_metric", PR+":MessageProcessor.process_gauge_metric"])
p("Bad sample rates never corrupt a counter",
  "A counter message whose third field does not start with '@' followed by digits/dots is logged and discarded; one whose rate text is not a number or is zero raises, and in every such case no counter's value changes (at most the key starts existing with value 0).",
  "every state, key, value and third field","all texts",[PR+":MessageProcessor.process_counter_metric", PR+":MessageProcessor.compose_counter_metric"])
# --- timers
p("Timer summary is the order statistic it claims",
  "For any non-empty finite set of durations of a timer, flush(percent=90) reports count = number of durations, lower = least, upper = greatest, upper_90 = the greatest of the `index` smallest durations and mean = arithmetic mean of these, where index = count - round(count/10); lower <= mean <= upper_90 <= upper.",
  "every finite list of durations in any arrival order","all lengths and values",[PR+":MessageProcessor.flush_timer_metrics"])
p("Each duration is reported in exactly one flush",
  "After a flush a timer holds nothing: the next flush reports only durations received in between, and emits nothing at all for a timer that received none; the reported counts over all flushes plus the pending ones equal the accepted timer messages.",
  "every sequence of messages and flushes","unbounded histories",[PR+":MessageProcessor.flush_timer_metrics", PR+":MessageProcessor.compose_timer_metric"])
p("The last gauge datapoint of a flush is the latest reading",
  "In every flush, the last datapoint emitted for a gauge carries the most recently received value of that gauge; every gauge ever set is reported in every flush.",
  "every message history","all histories",[PR+":MessageProcessor.compose_gauge_metric", PR+":MessageProcessor.flush_gauge_metrics"])
p("Gauge readings are reported once (refuted: backlog grows forever)",
  "A user expects one datapoint per gauge per flush. The code instead emits, in every flush, one datapoint per gauge message received since start-up.",
  "every message history","needs all histories: the backlog is proportional to the whole past",[PR+":MessageProcessor.flush_gauge_metrics"])
p("Meters: lifetime count and interval rate",
  "Each meter report with a new timestamp emits count = sum of all marks so far and rate = marks since the previous report divided by the elapsed seconds (rounded to 6 digits); a report with an unchanged timestamp emits nothing and loses nothing.",
  "every sequence of marks and reports","unbounded histories",[MM+"metermetric.py:MeterMetricReporter"])
p("Flush self-accounting",
  "numStats equals the sum of the five flush.<kind>.count datapoints, and each flush.<kind>.count equals the number of metrics of that kind flushed.",
  "every reachable state","all states",[PR+":MessageProcessor.flush", PR+":MessageProcessor.flush_metrics_summary"])
p("Receive accounting",
  "statsd.receive.<type>.count in a flush equals the number of messages of that type that were dispatched without raising since the previous flush, and types with none are absent.",
  "every message history","all histories",[PR+":MessageProcessor.process_message", PR+":MessageProcessor.flush_metrics_summary"])
p("Sub-second flush intervals break the flush",
  "With an interval below 1000 ms (whole-second division gives 0) and at least one counter, flush raises ZeroDivisionError before emitting anything and the first counter's pending value is lost; with interval >= 1000 the counter phase never raises.",
  "every interval and state","all intervals and states",[PR+":MessageProcessor.flush", PR+":MessageProcessor.flush_counter_metrics"])
p("All datapoints of a flush share one timestamp and known prefixes",
  "Every datapoint a flush emits for counters, timers, gauges, meters and its own statistics carries the integer timestamp read when the flush began, and its name starts with the namespace of its kind.",
  "every reachable state and clock","all states",[PR+":MessageProcessor.flush"])
p("Metric listing is complete and sound",
  "get_metric_names returns, without repetition, exactly the keys for which a counter, timer, gauge, meter or plugin metric has been stored.",
  "every message history on a MessageProcessor","all histories",[PR+":MessageProcessor.get_metric_names"])
# --- interleavings
p("Counter conservation under every schedule",
  "When flush generators (any number, overlapping) are advanced step by step, interleaved arbitrarily with message arrivals, the emitted stats_counts.<key> values plus the stored value always equal the accepted increments: nothing is lost or counted twice.",
  "every schedule of arrivals and generator steps","interleavings cannot be enumerated",[SV+":StatsDService.flushProcessor", PR+":MessageProcessor.flush_counter_metrics"])
p("A flush completes unless a metric name appears under it",
  "An uninterrupted flush does exactly what the atomic one does; every flush that keeps being advanced ends; if no new metric name, gauge reading or message type is stored while it is running (alone), it never fails with RuntimeError or KeyError of its own; if a new counter key is stored while the counter phase is running, the flush emits at most the rest of the group it is handing out, aborts with RuntimeError, and the remaining phases emit nothing.",
  "every schedule","interleavings cannot be enumerated",[PR+":MessageProcessor.flush", SV+":StatsDService.flushProcessor"])
p("Receive statistics survive concurrent arrivals (refuted)",
  "A user expects every processed message to appear in some receive.<type>.count. A message processed while the summary is being emitted is dropped from the statistics by the final clear. Exactly those are missed that arrive between the flush's reading of their type's count and the end of the flush, if no two flushes report at once and no new type arrives meanwhile. In every schedule, what is handled is what is stored and what was wiped.",
  "every schedule","depends on the interleaving",[PR+":MessageProcessor.flush_metrics_summary"])
# --- configurable
p("Configurable counters and gauges report the latest value",
  "On a ConfigurableMessageProcessor each flush emits, for every counter key ever received, the integer part of the last accepted value, and for every gauge key the last accepted value, once each, under the configured prefix.",
  "every message history","all histories",[CP+":ConfigurableMessageProcessor", MM+"countermetric.py:CounterMetricReporter", MM+"gaugemetric.py:GaugeMetricReporter"])
p("One non-finite counter value poisons all later flushes",
  "A user expects flush to survive any accepted message. On a ConfigurableMessageProcessor a counter message with value nan or inf is accepted, and then every flush raises in the counter phase until a finite value for that key arrives; with finite values only, the counter phase never raises.",
  "every message history","all histories",[CP+":ConfigurableMessageProcessor.flush_counter_metrics", MM+"countermetric.py:CounterMetricReporter.report"])
p("Internal prefix rule",
  "The configurable processor's self statistics use internal_metrics_prefix if given, else message_prefix + '.statsd.', else 'statsd.'; metric names are prefix + '.' + key + suffix, with no leading dot for an empty prefix.",
  "every prefix pair and key","all strings",[CP+":ConfigurableMessageProcessor.__init__"])
p("Metric listing works on the configurable processor (refuted)",
  "A user expects get_metric_names (HTTP /list_metrics) to list gauges on the configurable processor. It raises ValueError whenever a gauge key's length is not 2, and otherwise lists the key's second character.",
  "every set of gauge keys","all key lengths",[PR+":MessageProcessor.get_metric_names", CP+":ConfigurableMessageProcessor", HI+":ListMetrics"])
p("Configurable timers report true statistics",
  "A timer report emits min, max and mean of exactly the non-negative durations since the last report, count = all durations ever received, rate = durations in this period / elapsed time (0 if none elapsed), then starts a new period; min <= mean <= max.",
  "every sequence of updates and reports","unbounded histories",[MM+"timermetric.py:TimerMetricReporter"])
p("Logging processor is transparent",
  "LoggingMessageProcessor emits exactly the datapoints and makes exactly the state changes of the configurable processor, and logs one 'In' line per dispatched message and one 'Out' line per emitted datapoint, in order.",
  "every message and state","all states",[LP+":LoggingMessageProcessor"])
# --- stats
p("Running variance is the sample variance",
  "For every non-empty sequence of non-negative values the histogram's variance is sum((x-mean)^2)/(n-1) (0 for n=1). For sequences with negative values this fails: the code uses mean == -1 as its 'unset' marker.",
  "every finite sequence of rationals","all lengths and values",[MM+"histogrammetric.py:HistogramMetricReporter.update_variance"])
p("Percentiles are safe, in range and monotone",
  "For every non-empty sample and every quantile p, percentiles returns without error a value between the sample's least and greatest values, and is non-decreasing in p.",
  "every sample and every rational quantile","all lengths, values and quantiles (index arithmetic)",[MM+"histogrammetric.py:HistogramMetricReporter.percentiles"])
p("Histogram bins account for every sample",
  "When the sample has at least two different values every value falls in an existing bin and the bins sum to the sample size; when all values are equal, histogram() (HTTP timer page) raises ZeroDivisionError.",
  "every sample and bin count >= 1","all samples",[MM+"histogrammetric.py:HistogramMetricReporter.histogram"])
p("Histogram extremes and mean",
  "min, max and mean of a histogram are those of all values since the last clear, whatever the reservoir kept.",
  "every sequence of updates and clears","unbounded",[MM+"histogrammetric.py:HistogramMetricReporter"])
p("Reservoir holds distinct stream positions",
  "A uniform sample of capacity n holds min(n, seen) values, at distinct positions of the stream; while at most n values were seen it is exactly the stream in order. This holds for every outcome of the random generator.",
  "every stream, capacity and random outcome","all random choices",[ST+"uniformsample.py:UniformSample"])
p("Reservoir sampling is uniform",
  "Among all equally likely sequences of draws, each of the N >= n stream positions is retained in exactly n/N of them.",
  "every capacity, stream length and position","statistical property: testing only estimates it",[ST+"uniformsample.py:UniformSample.update"])
p("Decaying sample keeps the highest priorities",
  "An exponentially decaying sample never exceeds its size, only holds values of the stream, keeps its entries sorted by priority, and holds the entries with the greatest priorities seen since the last clear.",
  "every stream, clock and random outcome","all schedules of updates and rescales",[ST+"exponentiallydecayingsample.py:ExponentiallyDecayingSample"])
p("Rescaling does not change the sample",
  "Rescaling to a new landmark keeps exactly the same multiset of values in the same priority order, and every stored priority becomes what it would have been had the landmark been used from the start.",
  "every state, landmark and alpha","all states",[ST+"exponentiallydecayingsample.py:ExponentiallyDecayingSample.rescale"])
p("Moving average stays in the hull of the rates",
  "For 0 <= alpha <= 1, the rate after any ticks lies between the least and greatest instantaneous rates; with a constant rate it equals it; after k idle ticks it is the previous rate times (1-alpha)^k.",
  "every sequence of updates and ticks","unbounded histories",[ST+"ewma.py:Ewma"])
# --- distinct
p("Distinct counter's window is exact",
  "With a non-decreasing clock, distinct(since) after any history equals distinct(since) of a fresh counter fed only the items seen after `since`: items outside the window have no influence.",
  "every history, hash tables and window start >= 0","unbounded histories",[MM+"distinctmetric.py:SlidingDistinctCounter"])
p("Distinct counts are order-insensitive, duplicate-insensitive and window-monotone",
  "Within the window, neither the order nor the repetition of items changes the estimate; the estimate never decreases when items are added, and count_1min <= count_1hour <= count_1day <= count.",
  "every history","unbounded histories",[MM+"distinctmetric.py:SlidingDistinctCounter", MM+"distinctmetric.py:DistinctMetricReporter"])
p("Distinct counter never indexes out of range",
  "The hash of every item is below 2^32, zeros(n) is the number of trailing zero bits of n (0 for n = 0), and add always hits an existing bucket.",
  "every item and table","all strings and tables",[MM+"distinctmetric.py:SBoxHash", MM+"distinctmetric.py:zeros", MM+"distinctmetric.py:SlidingDistinctCounter.add"])
p("Empty window is reported as zero (refuted)",
  "A user expects a window without items to count 0; the estimate is 1 whenever no bucket is inside the window.",
  "every counter state with an empty window","all states",[MM+"distinctmetric.py:SlidingDistinctCounter.distinct"])
# --- sli
p("SLI counts are exact and reset at flush",
  "Each flush of an SLI metric reports count = events since the previous flush, error = those that were errors, and count_<label> = the non-error events satisfying the label's condition; then all restart at 0.",
  "every sequence of events and flushes and every condition set","unbounded histories",[MM+"slimetric.py:SLIMetricReporter"])
p("Malformed SLI events change nothing",
  "An SLI message whose size or value is not a float raises before any count changes; 'error' is the only non-numeric value accepted.",
  "every state and field list","all texts",[MM+"slimetric.py:SLIMetricReporter.process"])
p("SLI conditions mean what they say",
  "above v s holds iff value > v + s*size, below iff value < v + s*size, between l h iff l < value < h; an event cannot satisfy above and below of the same line; build_metric gives a metric exactly the conditions of the matching patterns.",
  "every value, size and threshold","all numbers and patterns",[MM+"slimetric.py:BelowCondition", "twisted/plugins/sli_plugin.py:SLIMetricFactory"])
# --- router
p("Routing is sequential rewriting",
  "The list of metrics reaching the processor is obtained by applying the rules one after the other: each rule replaces each metric that matches its condition by the target's outputs and keeps the others, order preserved; with no rules, messages pass through unchanged.",
  "every rule list and message","all rule programs",[RT+":Router.process_message"])
p("Drop stops processing",
  "A metric that reaches a matching drop rule never reaches the processor, and no later rule (hence no later redirect) sees it; metrics that never match a rule arrive unchanged.",
  "every rule list","all rule programs",[RT+":Router.build_target_drop", RT+":Router.process_message"])
p("Condition algebra",
  "'any' holds of all metrics, 'metric_type t...' iff the type is listed, 'not c' iff c fails, to any nesting depth, as parsed from the rule text.",
  "every condition text","unbounded nesting",[RT+":Router.build_condition", RT+":Router.build_condition_not"])
p("set_metric_type is honoured by redirects (refuted)",
  "A user expects a message redirected after set_metric_type t to carry type t. The rebuilt text always carries the original type field; only the local processor sees the new type.",
  "every metric","all metrics",[RT+":Router.build_target_set_metric_type", PR+":BaseMessageProcessor.rebuild_message"])
p("TCP redirect framing",
  "Every non-empty line written by the TCP redirect leaves with a final CRLF and never a doubled terminator; a stream of written lines with no CRLF inside is split by the receiving line protocol into exactly these lines, for every chunking of the byte stream.",
  "every sequence of lines and every chunking","all chunkings",[RT+":TCPRedirectProtocol.write", SP+":StatsDTCPServerProtocol"])
p("TCP redirect resumes after back-pressure (refuted)",
  "A user expects writes to flow again after resumeProducing. resumeProducing calls the log module itself, raises TypeError first, and the connection stays paused: every later message is dropped and counted as dropped.",
  "every schedule of pause, resume and write","all schedules",[RT+":TCPRedirectProtocol.resumeProducing"])
p("Glob conditions",
  "Every pattern p has exactly one reading: '*' matches any text, '?' any one character, '[...]' one character of the listed characters and ranges, '[!...]' one character outside them (a ']' in front belongs to the list, a '[' that is never closed stands for itself), other characters themselves. path_like p holds of a key iff the key fits the reading; it raises iff a range is in the wrong order.",
  "every pattern and every key","all strings",[RT+":Router.build_condition_path_like"])
p("Rule texts are validated",
  "A rules text yields a router iff every non-empty line has exactly one '=>', a known condition and a known target with the right number of arguments; otherwise construction raises the exception the first wrong line calls for; the number of rules equals the number of non-empty lines.",
  "every rules text","all strings",[RT+":Router.build_rules"])
# --- ring
p("Ring lookup is total and order-independent",
  "On a ring with at least one node (and replica), get_node returns one of the ring's nodes, and depends only on the set of nodes, not on the order in which they were added.",
  "every node list, hash function and key","all node sets and orders",[HA+":ConsistentHashRing.get_node", HA+":ConsistentHashRing.add_node"])
p("Adding a node only attracts keys to it",
  "After add_node(n), get_node(k) is either what it was before or n, for every key.",
  "every ring, node and key","all keys",[HA+":ConsistentHashRing.add_node"])
p("Removing a node only moves its own keys",
  "After remove_node(n), every key that was not on n stays where it was, no key is on n, and removing a freshly added node restores every lookup.",
  "every ring, node and key","all keys",[HA+":ConsistentHashRing.remove_node"])
p("get_nodes lists all nodes starting at the owner (partly refuted)",
  "get_nodes(k) has no repetition, contains only ring nodes and, if the ring has at least two entries, starts with get_node(k). A user also expects every node to be listed; the loop never inspects the last ring entry, so a node whose only entry is there is missing, and a one-entry ring gives [].",
  "every ring and key","all rings",[HA+":ConsistentHashRing.get_nodes"])
p("Sharded client sends each metric to one fixed server",
  "Each write of a message containing ':' reaches exactly one client, unchanged, and all messages with the same metric name reach the same client as long as the node set is unchanged; a message without ':' raises and reaches none.",
  "every message sequence","all messages",[CL+":ConsistentHashingClient.write"])
# --- twisted client
p("Pending queue is bounded and FIFO",
  "Before the client is connected and resolved at most 1000 messages are retained, always the oldest ones, in order; later ones are dropped.",
  "every sequence of operations","all sequences",[TP+":DataQueue"])
p("No loss, duplication or reordering through connect/resolve",
  "For every schedule of write, connect, host resolution, disconnect and reactor turns, the messages handed to the transport followed by those still pending are a duplicate-free, order-preserving selection of the messages written, missing only those written while 1000 were already pending. (A connect callback that itself writes to the client can overtake queued messages; even then nothing is lost or duplicated.)",
  "every schedule","all schedules",[TP+":TwistedStatsDClient", TP+":TransportGateway"])
p("Completion callbacks",
  "Each message handed to the transport calls its callback exactly once with the byte count, or with None when the transport fails with a handled error - unless the callback itself raises one of these errors, in which case it is called a second time with None.",
  "every transport and callback behaviour","all behaviours",[TP+":TransportGateway._write"])
p("Plain UDP client never raises socket errors",
  "UdpStatsDClient.write before connect or after disconnect sends nothing; while connected it makes exactly one sendto to the resolved address and returns None instead of raising on socket errors.",
  "every sequence of connect, disconnect and write","all sequences",[CL+":UdpStatsDClient"])
# --- client metrics
p("Qualified names",
  "fully_qualify_name gives namespace + '.' + name for a non-empty namespace, name alone otherwise, and the namespace for a None name; distinct names stay distinct within a namespace.",
  "every namespace and name","all strings",[MM+"metrics.py:Metrics.fully_qualify_name"])
p("Client and server agree end to end",
  "For any legal metric names and integers, the messages written by Metrics.increment/decrement/gauge/meter/timing through an InternalClient are all accepted by a MessageProcessor, and the counter reported for a name is the sum of the increments minus the decrements.",
  "every sequence of calls","unbounded call sequences",[MM+"metrics.py:Metrics", CL+":InternalClient", PR+":MessageProcessor"])
p("Sampling decision and annotation",
  "A metric with sample rate r >= 1 sends every sample without annotation; with r < 1 it sends iff the random draw is at most r, appending '|@r'.",
  "every rate, draw and payload","all draws",[MM+"metric.py:Metric.send"])
p("Each call uses its own sample rate (refuted)",
  "A user expects the sample_rate argument of each call to apply. The metric object is cached by name, so the rate (and kind) of the first call for a name applies for ever.",
  "every call sequence","depends on the history",[MM+"metrics.py:Metrics"])
p("Extended counters tolerate message loss",
  "ExtendedMetrics counters send running totals: whatever subset of messages is lost, after the last one arrives a configurable processor reports exactly increments minus decrements since the last clear.",
  "every call sequence and loss pattern","all loss patterns",[MM+"extendedmetrics.py:ExtendedMetrics", MM+"countermetric.py:CounterMetric", CP])
p("timing() measures consecutive intervals",
  "With no explicit duration, successive timing() calls report intervals that exactly tile the time since reset_timing(): the durations sum to the elapsed time.",
  "every sequence of calls and clock readings","unbounded sequences",[MM+"metrics.py:Metrics.calculate_duration"])
p("Small sample rates are understood by the server (refuted)",
  "A user expects the server to scale by the client's rate. Rates printed in exponent notation ('1e-05') are read by the server's '@([\\d.]+)' as 1.",
  "every rate text","all rate texts",[MM+"metric.py:Metric.send", PR+":RATE"])
# --- service etc
p("Command line overrides the config file (refuted for short options)",
  "An option given on the command line by its long name is never changed by the config file; one given by its short name is overwritten by the config file.",
  "every option set and config file","all combinations",[SV+":OptionsGlue"])
p("Counter reports are differences",
  "report_counters returns {} first and then, per key, the difference to the previous reading: over any run the differences sum to last minus first. If a reading contains a key the previous one lacked it raises KeyError, and from then on every call raises StopIteration.",
  "every sequence of readings","unbounded sequences",[PC+":report_counters"])
p("System file parsers",
  "parse_meminfo reports exactly the seven known labels with their unit applied and ignores all other lines; get_net_stats counts each stream connection once under its lower-cased status.",
  "every file content and connection list","all inputs",[PC+":parse_meminfo", PC+":ProcessReport.get_net_stats"])
p("Reactor inspector bookkeeping",
  "Whatever the reactor's delays, the answer taken from the queue never has an id greater than the current probe (the assertion never fails), and 'ok' is logged only if the reactor executed the current probe.",
  "every schedule of reactor executions","all schedules",[RP+":ReactorInspector.run"])
p("Reporting service names and failures",
  "Each reported value is passed once to the report function, under the instance name prefix if set; a failing source reports nothing and does not stop later runs.",
  "every sequence of source outcomes","all sequences",[RP+":ReportingService.wrapped"])
p("HTTP status threshold",
  "The status page says ERROR (and code 500) iff processing plus flushing time exceeds 0.7 times the flush interval - as numbers: the interval is in milliseconds and the times in seconds, so the check is 1000 times laxer than meant.",
  "every interval and durations","all numbers",[HI+":Status.render_GET"])
p("Monitor pings are answered, not counted",
  "A datagram or line equal to the monitor message is answered with the monitor response and never reaches the processor; every other one is scheduled for processing exactly once, and gets no answer.",
  "every data and configuration","all inputs",[SP+":StatsDServerProtocol.datagramReceived", SP+":StatsDTCPServerProtocol.lineReceived"])
p("A metric name belongs to one plugin for ever (refuted isolation)",
  "A user expects plugin metrics of different types under one name to be independent. Plugin metrics are stored by name only: the first type seen owns the name and receives all later messages of every plugin type.",
  "every message history","depends on history",[PR+":MessageProcessor.process_plugin_metric"])
p("Low percentile thresholds abort the flush",
  "With a percentile threshold of at most 25 and exactly two durations buffered for a timer, the number of kept durations rounds to zero and the flush raises IndexError after the timer was cleared: nothing of it is reported and its durations are lost.",
  "every threshold up to 25 and every pair of durations","needs a particular combination of threshold and count",[PR+":MessageProcessor.flush_timer_metrics"])
p("The TCP listener processes every line (refuted)",
  "A user expects every line sent over a TCP connection, other than the monitor message, to be scheduled for processing. lineReceived returns the DelayedCall, a true value; LineReceiver.dataReceived stops at it and the reactor closes the connection: only the first such line of a connection is processed.",
  "every connection, list of lines and chunking", "all chunkings of the stream",
  ["txstatsd/server/protocol.py:StatsDTCPServerProtocol.lineReceived"])
p("Items sent with the client's distinct() reach the distinct counter (refuted)",
  "A user expects Metrics.distinct(name, item) to be counted by the distinct plugin shipped with the server. The client sends the type 'd' but the plugin registers 'pd': the server logs every such message as a bad line and counts nothing.",
  "every name, item and message history",
  "The client test checks the text 'd', the plugin test calls the reporter directly; no test joins the two ends.",
  ["txstatsd/metrics/distinctmetric.py:109-117", "txstatsd/metrics/metrics.py:152-157", "twisted/plugins/distinct_plugin.py:29-42", "txstatsd/server/processor.py:122-143"])

p("SLI rule lines are parsed exactly",
  "A configuration line 'pattern => label IF kind params' with numeric parameters stores that condition under that pattern and label and changes nothing else; any other line raises TypeError and changes nothing; rules are applied in order up to the first failing one.",
  "every configuration text and prior configuration",
  "Tests parse a handful of lines; the regular expression accepts infinitely many.",
  ["twisted/plugins/sli_plugin.py:56-94"])

p("Every accepted SLI rule can be evaluated (refuted)",
  "A user expects a rule that configure accepts to define a usable condition. The kind is looked up with getattr('build_' + kind), so the kind 'metric' finds build_metric: the rule is accepted and then every value event of a matching metric raises TypeError after being counted. All other accepted kinds are usable.",
  "every rule line and event",
  "Nobody would think of testing a kind named metric.",
  ["twisted/plugins/sli_plugin.py:43-54", "twisted/plugins/sli_plugin.py:77-85", "txstatsd/metrics/slimetric.py:75-82"])

p("SLI messages are counted end to end",
  "On a server with the shipped plugins, the SLI metric of a name exists iff an SLI message was sent to it, has the conditions of all configured patterns that match stats.SLI.<name>, and flushes to exactly the counts of its accepted messages, whatever other messages arrived (as long as none used the name with the type pd, see C78).",
  "every configuration, message history and name",
  "Tests drive the reporter, the factory and the processor separately.",
  ["txstatsd/server/processor.py:122-155", "txstatsd/metrics/slimetric.py:53-95", "twisted/plugins/sli_plugin.py:43-54"])

p("Flush period (refuted)",
  "The flush task runs every flush_interval milliseconds, the interval the rates are computed with. Refuted: integer division rounds the period down to whole seconds (and to zero below a second). Partial: it holds for whole seconds.",
  "every interval", "all intervals", ["txstatsd/service.py:StatsDService.startService", "txstatsd/service.py:StatsDService.flushProcessor"])

p("Every configured carbon cache is connected to (refuted)",
  "A connection is made to every carbon-cache-host given. Refuted: hosts beyond the number of ports or names given are silently dropped, because the defaults are lists of one element. Partial: it holds when every host comes with its port and name.",
  "every list of hosts, ports and names", "all combinations", ["txstatsd/service.py:createService"])

p("Carbon client statistics",
  "Each run of report_client_manager_stats reports exactly the statistics of destinations, with colons replaced by underscores, and sets all statistics to zero; over any number of runs what is reported is what carbon counted, unless two names become equal by the replacement.",
  "every sequence of counts and reports", "unbounded sequences", ["txstatsd/service.py:report_client_manager_stats"])

p("Every timer has a page (refuted)",
  "The page metrics/NAME shows the timer NAME. Refuted on the default processor, whose timers are lists: every such page is 404. Partial: it holds on the configurable processor.",
  "every processor state", "all states", ["txstatsd/server/httpinfo.py:Metrics.getChild", "txstatsd/metrics/timermetric.py:TimerMetricReporter.getResource"])

p("Load averages and network devices",
  "parse_loadavg reports the first three words as floats. parse_netdev reports for each device, from its last line, the numbers in the columns named bytes and packets of the receive and transmit parts of the header, whatever other columns there are; an interface alias (two colons) makes it fail.",
  "every file content", "all inputs", ["txstatsd/process.py:parse_loadavg", "txstatsd/process.py:parse_netdev"])

p("Delay of an unresponsive reactor (refuted)",
  "When the inspector finds no answer, the delay it reports is at least the age of every outstanding probe. Refuted: after a late answer the delay restarts although the current probe is still outstanding. Partial: it holds while no answer was late, with probes executed in order and a clock that does not go back. In every run, the delay is the time since the inspector was last done with an answer, late or not (or began); it covers every outstanding probe requested since then and is at most the age of the others.",
  "every schedule of the two threads", "all schedules", ["txstatsd/report.py:ReactorInspector.run"])

p("Stopping the reporting service (refuted)",
  "Stopping a running ReportingService stops all its tasks. Refuted: a function scheduled without report function that raised has stopped its task, and stopping that task again raises AssertionError, which leaves the tasks behind it running. Partial: it holds if all tasks have report functions.",
  "every history of the service", "unbounded histories", ["txstatsd/report.py:ReportingService.stopService", "txstatsd/report.py:ReportingService.schedule"])

p("Every datagram is processed once, end to end",
  "In the service assembled by createService without rules, in every schedule of arrivals, reactor turns (in any order), reports and flush steps, the processor has been given some of the texts taken in and the rest is still scheduled: none is lost, none is processed twice, monitor messages are not processed. With exact arithmetic the counts sent, under way, stored and scheduled add up to all increments received.",
  "every schedule of the service", "unbounded schedules, interleavings", ["txstatsd/service.py:createService", "txstatsd/service.py:StatsDService.flushProcessor", "txstatsd/server/protocol.py:StatsDServerProtocol.datagramReceived", "txstatsd/client.py:InternalClient.write"])

p("Dump mode changes nothing but the log (refuted)",
  "With dump-mode on, everything seen of the service but the log is as with dump-mode off. Refuted: with statsd-compliance (the default) the dump mode replaces the compliant processor by a configurable one with empty prefixes, and a second such service in one process cannot be created. Partial: it holds without statsd-compliance.",
  "all options and schedules", "option combinations and unbounded schedules", ["txstatsd/service.py:createService", "txstatsd/server/loggingprocessor.py:LoggingMessageProcessor"])

p("Several messages in one datagram (refuted)",
  "A datagram with several lines is processed as the messages on the lines. Refuted: if there is a bar behind the first line the whole datagram is one bad message and changes nothing. Partial: white space (a final newline) around a single message is ignored.",
  "all datagrams and states", "all texts", ["txstatsd/server/processor.py:BaseMessageProcessor.process", "txstatsd/server/protocol.py:StatsDServerProtocol.datagramReceived"])

p("Names of reports (refuted)",
  "Every name in the option report gets a report. Refuted: a misspelt name is ignored without a word. Proved exactly: a report of a group is scheduled every 60 seconds iff the group is listed, in any case of letters; the carbon client's statistics always; the reactor's iff the option is given; the inspector iff reactor is listed in small letters.",
  "every value of the option", "all texts", ["txstatsd/service.py:createService", "txstatsd/process.py"])

p("The reserved option",
  "OptionsGlue refuses a class of options iff a class of its hierarchy other than OptionsGlue itself declares a parameter named config or with short name c.",
  "every class hierarchy", "unbounded hierarchies", ["txstatsd/service.py:accumulateClassList", "txstatsd/service.py:OptionsGlue.__init__"])

p("Client writes from several threads (refuted)",
  "TwistedStatsDClient.write may be called from any thread: no message written is lost, and the queue keeps its limit. Refuted in three ways: n threads can push the queue n over the limit; a write that has seen no gateway when the host is resolved leaves its message in the queue although the link is up; a write that has looked up the queue's append when the queue is flushed appends to a list nobody looks at again. Proved for every interleaving: each message begun is in exactly one place, the queue exceeds its limit by at most the number of threads, and a message in a forgotten list is never sent. Partial: nothing is lost or stranded when no write overlaps a call in the reactor's thread.",
  "every interleaving of any number of threads, at the granularity of attribute accesses", "thread interleavings", ["txstatsd/protocol.py:TwistedStatsDClient", "txstatsd/protocol.py:DataQueue"])

p("Sampling is unbiased (refuted)",
  "With sampling rate r the expected sum of the increments counted by the server equals the sum of the increments made. Refuted: the test is random() <= r, so with a generator of N equally likely values floor(rN)+1 of them send. Proved: the exact expectation; partial: the relative bias is positive and at most 1/(rN).",
  "every rate, sequence of increments and generator granularity", "an expectation over all draws", ["txstatsd/metrics/metric.py:Metric.send", "txstatsd/metrics/metrics.py:Metrics.increment", "txstatsd/server/processor.py:MessageProcessor.process_counter_metric"])

p("The service's reports about itself, end to end (refuted)",
  "Every value a scheduled report returns reaches graphite under the name of the instance and of the metric. Refuted: an instance name with a colon (platform.node() is taken as it is) turns every report into a bad message. Proved for names of legal characters, on both processors, in every history of reports, messages and flushes: a report acts exactly as the messages instance.name:value|g in order and logs a failure iff its function raised; on the default processor the last datapoint of a flush carries the latest report, and every flush repeats all values ever reported, so that the flushes of a service that reports about itself grow without end.",
  "every history of reports, messages and flushes", "unbounded histories", ["txstatsd/report.py:ReportingService.wrapped", "txstatsd/metrics/metrics.py:Metrics.gauge", "txstatsd/client.py:InternalClient.write", "txstatsd/server/processor.py:MessageProcessor.flush_gauge_metrics"])

p("Process and CPU reports (refuted)",
  "The reports about the process and the CPUs give each quantity under its own name. Refuted: memory.rss and memory.vsize are exchanged, because psutil returns the resident set size first. Proved: the other metrics of the process, the CPU times and the input/output counters are under their names; for any number of CPUs and any modes no two values share a name; a psutil with longer tuples makes the reports fail.",
  "every result of psutil", "all values, any number of CPUs", ["txstatsd/process.py:ProcessReport", "txstatsd/process.py:report_system_stats"])

p("A counter report listed twice (refuted)",
  "A counter report leaves each minute the increase over that minute, however often its group is listed in the option report. Refuted: the occurrences share one generator, so the second reports zero for every counter. Partial: it holds when the report runs once per reading.",
  "every pair of readings", "all readings", ["txstatsd/process.py:report_counters", "txstatsd/service.py:createService"])

p("Timers under overlapping flushes",
  "In every schedule of messages and flush steps, with any number of overlapping flushes, the accepted durations of a timer can be cut into consecutive non-empty blocks such that what was emitted or is under way for the timer is exactly one summary of each block, and the rest is stored. In particular no duration is summarised twice or lost: the reported counts and the number stored add up to the number accepted.",
  "every schedule, any number of flushes", "interleavings of generators with arrivals", ["txstatsd/server/processor.py:MessageProcessor.flush_timer_metrics", "txstatsd/server/processor.py:MessageProcessor.flush", "txstatsd/service.py:StatsDService.flushProcessor"])

p("What a flush emits was received",
  "In every schedule each datapoint a flush emits is about the messages received up to one moment between the start of that flush and now: on the configurable processor the latest value of a counter or gauge at that moment and the total of a meter at that moment; on the default processor a gauge reading that was received, the total of a meter at that moment, a counter or timer that was received; otherwise one of the processor's own statistics or made by a plugin. The total of a meter is the sum of its readings, rounded to six decimals, in exact arithmetic, the exact sum for whole numbers, and near the sum in doubles (C128).",
  "every schedule", "interleavings of generators with arrivals", ["txstatsd/server/processor.py:MessageProcessor.flush", "txstatsd/server/configurableprocessor.py:ConfigurableMessageProcessor"])

p("Timers of the configurable processor under overlapping flushes",
  "In every schedule the accepted durations of a timer and the reports asked of it make up one history: what was emitted or is under way for the timer is exactly the reports of that history (each about the durations since the report before, its count about all), and the stored timer is what the history leads to.",
  "every schedule, any number of flushes", "interleavings of generators with arrivals", ["txstatsd/server/configurableprocessor.py:ConfigurableMessageProcessor.flush_timer_metrics", "txstatsd/metrics/timermetric.py:TimerMetricReporter.report"])

p("One timestamp per flush",
  "In every schedule all datapoints of one flush (but for those of plugins) carry the same timestamp: the whole seconds of the clock at the moment the flush was first advanced, however long the flush takes and whatever happens meanwhile.",
  "every schedule", "interleavings of generators with arrivals", ["txstatsd/server/processor.py:MessageProcessor.flush"])

p("Flushes of the configurable processor in schedules",
  "An uninterrupted flush does what the atomic flush does; a flush advanced again and again ends; while no arrival adds a name or type, a flush that runs alone never fails with RuntimeError or KeyError, even if gauges change; the first reading of a counter, timer, gauge or meter that arrives while a flush is going through that kind aborts it: it emits at most the rest of the group it is handing out and ends with RuntimeError when advanced once more.",
  "every schedule", "interleavings of generators with arrivals", ["txstatsd/server/configurableprocessor.py:ConfigurableMessageProcessor", "txstatsd/server/processor.py:MessageProcessor.flush"])

p("Readings that abort a flush of the default processor",
  "Any gauge reading at all that arrives while a flush is handing out the gauges, and the first reading of a timer or meter that arrives while a flush is going through the timers or meters, aborts that flush: it emits at most the rest of the group it is handing out and ends with RuntimeError when advanced once more.",
  "every schedule", "interleavings of generators with arrivals", ["txstatsd/server/processor.py:MessageProcessor.flush_gauge_metrics", "txstatsd/server/processor.py:MessageProcessor.process_gauge_metric", "txstatsd/server/processor.py:MessageProcessor.flush"])

p("Standard deviation in doubles",
  "In double arithmetic, with all its rounding, the running variance never turns negative: for any stream of durations that are not negative (infinity included) std_dev returns a value that is not negative, nan only if a duration was infinite, so math.sqrt never raises; the running mean stays between the durations. Hence a flush of a configurable processor without plugins completes whatever was sent to timers, gauges and meters, if the last value of each counter is finite.",
  "every stream of doubles, every arithmetic with the laws of IEEE 754", "all roundings of all streams", ["txstatsd/metrics/histogrammetric.py:HistogramMetricReporter.update_variance", "txstatsd/metrics/histogrammetric.py:HistogramMetricReporter.std_dev", "txstatsd/server/configurableprocessor.py:ConfigurableMessageProcessor.flush_timer_metrics"])

p("Percentiles in doubles",
  "In double arithmetic percentiles never raises; each percentile lies between the least and the greatest value held, and percentiles do not decrease with the quantile.",
  "every stream of doubles, every list of quantiles", "all roundings of all streams", ["txstatsd/metrics/histogrammetric.py:HistogramMetricReporter.percentiles"])

p("Means in doubles",
  "In double arithmetic the mean of n durations differs from the exact mean by at most n units in the 52nd bit; the timer section of a flush of the default processor never raises and its summaries are right up to that error; the number of durations kept for upper_PERCENT is the nearest to PERCENT percent up to rounding. That the mean does not exceed the greatest duration is refuted: three durations 0.1 have the mean 0.10000000000000002.",
  "every stream of doubles, every history of messages and flushes", "all roundings of all streams", ["txstatsd/metrics/histogrammetric.py:HistogramMetricReporter.mean", "txstatsd/server/processor.py:MessageProcessor.flush_timer_metrics"])

p("Histogram bins in doubles",
  "In double arithmetic, if the sample holds two different values, histogram never computes a bin outside of the list: it succeeds and counts every held value in exactly one bin.",
  "every sample of doubles, every number of bins up to 2^53", "all roundings of all samples", ["txstatsd/metrics/histogrammetric.py:HistogramMetricReporter.histogram"])

p("Counter totals in doubles (refuted)",
  "A counter of the default processor reports the sum of its increments. Refuted in double arithmetic: ten increments of 0.1 are reported as 0.9999999999999999. Partial: the reported count differs from the exact sum of the n contributions by at most n - 1 units in the 52nd bit of the sum of their sizes.",
  "every list of increments", "all roundings of all sums", ["txstatsd/server/processor.py:MessageProcessor.compose_counter_metric", "txstatsd/server/processor.py:MessageProcessor.flush_counter_metrics"])

p("Paths of the web site",
  "Every path is read in exactly one way as a list of percent-encoded parts. A path whose first part is not status, metrics or list_metrics is answered 404 for every method. /status and everything below it shows the two durations and the interval, with 200 for OK and 500 for ERROR. /list_metrics lists the names the processor gives; below it nothing is found. /metrics alone is 405; /metrics/NAME and everything below it is the page of the metric, and 404 for every method if it has none. Other methods than GET and HEAD never get a page; HEAD gets the code of GET (500 for 405) without a body. Without a port there is no site. On the configurable processor, after any history, a metric's page is 404 exactly if no duration was accepted for it and no plugin gives it a page; on the default processor /list_metrics lists exactly the names received, and timers have no pages.",
  "every path, method and history", "all paths and histories", ["txstatsd/server/httpinfo.py:makeService", "txstatsd/server/httpinfo.py:Metrics.getChild", "txstatsd/server/httpinfo.py:ListMetrics.render_GET", "txstatsd/server/httpinfo.py:Status.render_GET", "txstatsd/server/httpinfo.py:TimerResource.render_GET"])

p("The page of a timer can be read (refuted)",
  "The page of a timer that received a duration is answered with 200. Refuted: after a single duration it fails with 500 (division by zero). Partial, in double arithmetic: it is answered with ten zeros if no duration came since the last flush; with bins that add up to the number of values held, min(1028, n), and the greatest and least duration of the period, if two different values are held; and it fails whenever all values held are equal.",
  "every history of messages and completed flushes", "all histories", ["txstatsd/server/httpinfo.py:TimerResource.render_GET", "txstatsd/metrics/timermetric.py:TimerMetricReporter.getResource", "txstatsd/metrics/histogrammetric.py:HistogramMetricReporter.histogram"])

p("Times of the status page",
  "With a clock that never goes back, the flush and process times on the status page are never negative and their sum never exceeds the time since the processor started, on both processors and after any history; the page says ERROR exactly if the sum exceeds 700 flush intervals, hence not before 700 intervals have passed. Before the first flush both times are 0.",
  "every history, every clock that never goes back", "all histories", ["txstatsd/server/httpinfo.py:Status.render_GET", "txstatsd/server/processor.py:MessageProcessor.flush", "txstatsd/server/processor.py:MessageProcessor.process_message"])

p("Texts of floats (refuted)",
  "A float put into a message with %s is read back as itself. Refuted: 0.1 + 0.2 is written 0.3, another double. Partial: it is read back as the double of the nearest decimal number of twelve digits, at most 5 in the twelfth digit away; nan and the infinities, every number of at most twelve digits and the double nearest to one survive; a second passage changes nothing; order is preserved; the text is always a number for the server and contains no separator; it is a plain decimal if the number it shows is 0 or from 0.0001 to below 1e11, has an exponent otherwise, and no digit of it could be left out.",
  "every float", "2^64 floats", ["txstatsd/protocol.py:StatsDClientProtocol", "txstatsd/metrics/gaugemetric.py:GaugeMetric.mark", "txstatsd/metrics/metric.py:Metric.send"])

p("Sample rates as printed",
  "A sample rate from 0.0001 up to 1, printed by the client, is read by the server as the double of the nearest decimal number of twelve digits. A positive rate of at most 0.0001 - 1e-16 is printed with an exponent, which the server ignores: it takes the rate to be a number from 1 to 10, so that the count is not scaled up at all.",
  "every rate, every legal name, every count", "all floats", ["txstatsd/metrics/metric.py:Metric.send", "txstatsd/server/processor.py:MessageProcessor.process_counter_metric"])

p("Floats reported by clients",
  "A gauge, meter reading or timing of a float reported unsampled under a new name by a connected client is read by the server under the qualified name, and the value is the double of the nearest decimal number of twelve digits (for timings of the product with 1000). The same holds of every float in the reports of a service about itself.",
  "every client state, legal name and float", "all names and floats", ["txstatsd/metrics/metrics.py:Metrics.gauge", "txstatsd/metrics/metrics.py:Metrics.meter", "txstatsd/metrics/metrics.py:Metrics.timing", "txstatsd/service.py:StatsDService"])

p("A service with routing rules",
  "In every schedule of a service whose rules cannot raise, keep keys legal and set only built-in types, every text taken in is processed once or still scheduled; state, flushes and datapoints are those of a server without rules to which, instead of each text, the messages the rules make of it arrived, up to the first that raises; what was redirected is what the rules send away for the processed texts. With exact arithmetic, and if no plugin raises on a text that the rules make a counter of the name of, the counts sent, under way and stored and the increments still scheduled add up to the increments among the messages the rules make of everything taken in. Refuted: that the copies of a message are processed independently (a raising copy suppresses the later ones).",
  "every rule set, every schedule of datagrams, lines, turns, reports, ticks and flush steps", "all interleavings and rule sets", ["txstatsd/server/router.py:Router.process_message", "txstatsd/service.py:createService", "txstatsd/server/protocol.py:StatsDServerProtocol.datagramReceived"])

p("Two services in a row",
  "A service that redirects the counters of a condition to a second service and drops them itself shares the work: with exact arithmetic and no datagram lost, what both have counted and the increments still scheduled in either add up to all increments the first took in; the first counts nothing under a name the condition holds of, the second nothing under the others. Without the drop the work is doubled: either counts all increments of such a name.",
  "every pair of schedules, every order of delivery between the two", "all interleavings of two services", ["txstatsd/server/router.py:Router.build_target_redirect_udp", "txstatsd/server/router.py:Router.process_message", "txstatsd/server/processor.py:BaseMessageProcessor.rebuild_message"])

p("Life of a TCP redirect (refuted in two points)",
  "Through starts, stops, failed attempts, lost connections and full buffers: a line redirected while a connection is open and has room is appended, ended by CRLF, to that connection; after a first connection a line that cannot be sent is counted as dropped and never sent later; nothing else sends or counts. The ready callback is scheduled once, with the first connection. After a stop nothing is sent and no attempt is made until the next start. A lost connection is tried again through any number of failures. Refuted: that every line not sent is counted (before the first connection it is not) and that a started service always tries to connect (after a stop and another start it gives up at the first failure).",
  "every history of starts, stops, connections, failures, losses, pauses, resumptions and writes", "all histories", ["txstatsd/server/router.py:TCPRedirectService.startService", "txstatsd/server/router.py:TCPRedirectService.stopService", "txstatsd/server/router.py:TCPRedirectClientFactory.buildProtocol", "txstatsd/server/router.py:TCPRedirectClientFactory.write", "txstatsd/server/router.py:TCPRedirectProtocol.write"])

p("SLI metrics under overlapping flushes",
  "In every schedule of messages and overlapping flushes of the default processor with the shipped plugins, the events of an SLI metric can be cut into consecutive blocks such that what was emitted or is under way for it is exactly one report of each block, all counts right, and the stored metric would report the rest. The counts emitted, under way and stored add up to the number of events.",
  "every configuration with labels without dots, every name, every schedule", "interleavings of flush generators with arrivals", ["txstatsd/metrics/slimetric.py:SLIMetricReporter.process", "txstatsd/metrics/slimetric.py:SLIMetricReporter.flush", "txstatsd/server/processor.py:MessageProcessor.flush_plugin_metrics"])

p("Distinct counts under overlapping flushes",
  "In every schedule of messages and overlapping flushes of the default processor with the shipped plugins and a clock that never goes back, everything emitted or under way for a distinct metric is one report for each of a list of moments; each report gives the four estimates for a non-empty beginning of the stream of items, all seen not later than the report, through 32 hash tables that never change; the stored metric would report the whole stream. With no item seen nothing is reported.",
  "every name, every schedule, every clock that never goes back", "interleavings of flush generators with arrivals", ["txstatsd/metrics/distinctmetric.py:DistinctMetricReporter.process", "txstatsd/metrics/distinctmetric.py:DistinctMetricReporter.flush", "txstatsd/server/processor.py:MessageProcessor.flush_plugin_metrics"])

p("When a router is ready (refuted in one point)",
  "Router.ready, the Deferred the service waits for, has a result with no callback left exactly if every redirect built so far is up: a UDP redirect once its host is resolved, a TCP redirect once it was connected and the reactor has run since. The expected companion, that the Deferred of a redirect is fired at most once, is false: the client of a UDP redirect to an IP address is resolved by its constructor and again by create, so AlreadyCalledError is raised once for each such redirect and never otherwise. The error leaves the client in the state it would have without it; a client whose connect callback does not raise, such as the documented hello message, has that callback run twice.",
  "every history of redirects built, names resolved, connections made and reactor turns, in any order; every host and every list of messages the callbacks write",
  "The tests build one redirect at a time and stub the resolver; the chain of Deferreds with several redirects in every order of events, and the second callback of an IP address, which only shows in the log, are not observed.",
  ["txstatsd/server/router.py:Router.__init__", "txstatsd/server/router.py:Router.build_target_redirect_udp", "txstatsd/server/router.py:Router.build_target_redirect_tcp", "txstatsd/protocol.py:TwistedStatsDClient.create", "txstatsd/protocol.py:TwistedStatsDClient.host_resolved"])
p("Counts add up in doubles",
  "At every moment of every schedule, the stats_counts values sent for a counter, those under way in running flushes and the stored one are finite and add up to the sum of value/rate over the accepted increments, up to the error of the float arithmetic: none for whole increments without sampling whose sizes add up to at most 2^53, and at most n + 2 units of the 52nd bit of the sum of the sizes for n increments of moderate values and rates. The same holds for a whole service, with or without routing rules, counting also the increments still scheduled, and for two services in a row, counting also the increments of datagrams lost between them.",
  "every schedule of arrivals, flushes and reactor turns; every list of increments; every arithmetic with the laws of IEEE doubles; every selection of lost datagrams",
  "Rounding errors and overlapping flushes show only in rare combinations of values and interleavings; a test compares a handful of small integers.",
  ["txstatsd/server/processor.py:MessageProcessor.process_counter_metric", "txstatsd/server/processor.py:MessageProcessor.flush_counter_metrics", "txstatsd/service.py:createService", "txstatsd/server/router.py:Router.process_message"])
p("Timers of the default processor in doubles under overlapping flushes",
  "In every schedule of at most 2^52 messages, in double arithmetic, the accepted durations of a timer are cut into consecutive blocks, each summarised once, and the rest is stored: no duration is lost or used twice. Each summary is the five statistics with one timestamp; the count is exact always; for durations that are finite, not negative and add up to at most 2^1000, the least, the greatest and the greatest kept are exact, the number kept is right within a half and the error of one multiplication, and the mean of the kept ones is right up to one unit in the 52nd bit per duration. The counts sent, under way and stored add up to the number of accepted durations.",
  "every schedule of arrivals and flush steps with at most 2^52 messages; every threshold from 50 to 100; every arithmetic with the laws of IEEE doubles",
  "Overlapping flushes and rounding errors do not occur in the unit tests; the combinations of the two cannot be enumerated.",
  ["txstatsd/server/processor.py:MessageProcessor.process_timer_metric", "txstatsd/server/processor.py:MessageProcessor.flush_timer_metrics"])
p("Timers of the configurable processor in doubles under overlapping flushes",
  "In every schedule, in double arithmetic, the accepted durations of a timer of the configurable processor and the reports asked of it by the flushes make up one history, and what was emitted or is under way for the timer is exactly the reports of that history. A report never fails. It gives the number of all durations and the greatest and least of the period; the two percentiles lie between them, in order; the mean is right up to one unit in the 52nd bit per duration; the rate is the number of durations of the period divided by its rounded length, or 0 for an empty length; the standard deviation is not negative; all are rounded to six decimals.",
  "every history of a timer whose durations are doubles, every schedule with finite durations, every prefix; statements about the numbers for at most 2^52 durations that add up to at most 2^1000",
  "The tests add a few small durations and look at one report; they do not see rounding errors and never interleave a report with arrivals.",
  ["txstatsd/metrics/timermetric.py:TimerMetricReporter.update", "txstatsd/metrics/timermetric.py:TimerMetricReporter.report", "txstatsd/server/configurableprocessor.py:ConfigurableMessageProcessor.flush_timer_metrics", "txstatsd/metrics/histogrammetric.py:HistogramMetricReporter.update"])
p("Totals of meters in doubles under overlapping flushes",
  "In any schedule, every total of a meter that a flush emits, of the default or the configurable processor, is the sum of the readings accepted up to some moment between the start of the flush and now: exactly if the readings are whole numbers whose sizes add up to at most 2^53; in doubles up to one unit in the 51st bit of the sum of the sizes per reading, then rounded to six decimals.",
  "every schedule, every flush, every key and prefix; every list of finite readings (at most 2^51, sizes adding up to at most 2^1000, for the statement about doubles)",
  "A meter accumulates over the life of the process, so errors show only after many readings; the tests mark a meter a few times and do not overlap flushes with arrivals.",
  ["txstatsd/metrics/metermetric.py:MeterMetricReporter.mark", "txstatsd/metrics/metermetric.py:MeterMetricReporter.report", "txstatsd/server/processor.py:MessageProcessor.flush_meter_metrics"])

p("The life of a plugin metric of the configurable processor",
  "In every schedule of messages and overlapping flushes of the configurable processor, the plugin metric of a name goes through one life: it is built, with the configured prefix, by the plugin registered for the type of the first message under the name, and is then handed every later message of a plugin type under the name, in the order of arrival, between flushes at later and later readings of the clock. What was emitted or is under way for the name is exactly what those flushes made; without such a message nothing is stored or emitted.",
  "every set of plugins whose metrics name their points after their own name, every prefix, every name without readings of built-in types, every schedule",
  "The tests of plugins call a reporter directly; none registers a plugin with the configurable processor, and none overlaps a flush with arrivals.",
  ["txstatsd/server/configurableprocessor.py:ConfigurableMessageProcessor.get_message_prefix", "txstatsd/server/processor.py:MessageProcessor.process_plugin_metric", "txstatsd/server/processor.py:MessageProcessor.flush_plugin_metrics"])
p("SLI metrics of the configurable processor",
  "In every schedule of the configurable processor with the shipped plugins and a prefix that does not end in a dot, the events of an SLI metric can be cut into consecutive blocks such that what was emitted or is under way under prefix and name is exactly one report of each block, all counts right, and the stored metric would report the rest. The counts emitted, under way and stored add up to the number of events.",
  "every configuration with labels without dots, every prefix that does not end in a dot, every name, every schedule",
  "No test runs the SLI plugin in the configurable processor.",
  ["txstatsd/metrics/slimetric.py:SLIMetricReporter.process", "txstatsd/metrics/slimetric.py:SLIMetricReporter.flush", "twisted/plugins/sli_plugin.py:SLIMetricFactory.build_metric", "txstatsd/server/configurableprocessor.py:ConfigurableMessageProcessor.get_message_prefix"])
p("Distinct counts of the configurable processor",
  "In every schedule of the configurable processor with the shipped plugins, a prefix that does not end in a dot and a clock that never goes back, everything emitted or under way under prefix and name of a distinct metric is one report for each of a list of moments; each report gives the four estimates for a non-empty beginning of the stream of items, all seen not later than the report, through 32 hash tables that never change; the stored metric would report the whole stream.",
  "every prefix that does not end in a dot, every name, every schedule, every clock that never goes back",
  "No test runs the distinct plugin in the configurable processor.",
  ["txstatsd/metrics/distinctmetric.py:DistinctMetricReporter.process", "txstatsd/metrics/distinctmetric.py:DistinctMetricReporter.flush", "txstatsd/server/configurableprocessor.py:ConfigurableMessageProcessor.get_message_prefix"])
p("Names under the prefix of the configurable processor (refuted)",
  "Everything that a flush of the configurable processor with the shipped plugins emits is named prefix, dot, the key of a message received, dot and a word, or is one of the processor's own statistics. Refuted for prefixes that end in a dot: with the prefix 'p.' the SLI plugin names the metric a 'p.a.count', whereas all other metrics are named 'p..a.count'. Partial: it holds for all other prefixes, in every schedule.",
  "every prefix, every configuration with labels without dots, every schedule of arrivals and flush steps",
  "The tests use one prefix without a dot at its end and no plugins.",
  ["twisted/plugins/sli_plugin.py:SLIMetricFactory.build_metric", "txstatsd/metrics/distinctmetric.py:DistinctMetricReporter.__init__", "txstatsd/server/configurableprocessor.py:ConfigurableMessageProcessor.compose_timer_metric"])

p("Exponentially decaying samples in doubles (order refuted)",
  "An ExponentiallyDecayingSample in double arithmetic never raises, whatever the times of the updates, if random() does not return 0. It always holds as many values as fit, those of the highest priorities, where the priority of a value is exp(alpha * (time - landmark)) / random() when it is added, multiplied by exp(-alpha * shift) whenever the landmark moves. Refuted: that a value never leaves before another one of the same time with a lower priority; after a gap of 14 hours all priorities are 0 and the smallest value leaves first. Partial: moving the landmark never inverts the order of priorities (it can only make them equal).",
  "every capacity from 1, every alpha in [0, 1], every sequence of updates and clears with times within 30000 years of the epoch, every exponential function on doubles with exp(0) = 1, exp(x) at most 1 for x at most 0, at most 2^900 for x at most 602 and 0 for x at most -746",
  "Underflow needs gaps of many hours; the tests run the sample at a handful of times and look only at how many values it holds.",
  ["txstatsd/stats/exponentiallydecayingsample.py:ExponentiallyDecayingSample.update", "txstatsd/stats/exponentiallydecayingsample.py:ExponentiallyDecayingSample.rescale", "txstatsd/stats/exponentiallydecayingsample.py:ExponentiallyDecayingSample.clear"])
p("Histograms over decaying samples, accessors of timers, reports of histograms (refuted)",
  "The least and greatest value, the mean and the standard deviation of a histogram over a decaying sample are those of all values since the last clear, whatever the times and the random draws; its percentiles always exist, lie between values held, and are ordered as the quantiles. The same holds of the accessors of a timer for the durations since the last report that are not negative. Refuted: that a histogram can be reported; HistogramMetricReporter.report never returns. Partial: it always fails with a TypeError when all values were durations.",
  "every sequence of updates and clears with times within 30000 years of the epoch; every history of durations and reports of a timer; every histogram for the refutation",
  "The tests never call report of a histogram nor the accessors of a timer between reports, and use decaying samples without a histogram on top.",
  ["txstatsd/metrics/histogrammetric.py:HistogramMetricReporter.update", "txstatsd/metrics/histogrammetric.py:HistogramMetricReporter.report", "txstatsd/metrics/histogrammetric.py:HistogramMetricReporter.percentiles", "txstatsd/metrics/timermetric.py:TimerMetricReporter.percentiles"])

p("Texts that are not ASCII (refuted)",
  "Every name, value and type given to a client is sent in UTF-8, and the server counts it under the name's normal form. Refuted: a call with a byte string that has a byte above 127, such as a name already in UTF-8, raises UnicodeDecodeError and sends nothing. Partial: unicode strings and ASCII byte strings may be mixed freely; the connection gets the UTF-8 bytes of the qualified name, a colon and the data, and the server takes these bytes apart as if they were the characters, with a key in which all characters outside ASCII have been left out. Without a connection nothing is sent.",
  "every namespace and name, present or not, every value, type and extra text, unicode or bytes, every sample rate text, every text received",
  "The tests use no text outside ASCII at all.",
  ["txstatsd/metrics/metric.py:Metric.send", "txstatsd/metrics/metric.py:Metric.write", "txstatsd/metrics/metrics.py:Metrics.fully_qualify_name", "txstatsd/metrics/metrics.py:GenericMetric.mark", "txstatsd/server/processor.py:BaseMessageProcessor.process"])
p("Chances of items in the distinct counter (refuted)",
  "With a random hash table, every item has the chance one half to fall into the first bucket of a hash function. Refuted: an item in which every byte occurs an even number of times (such as '1212') has an even hash whatever the table. Any number of such items is counted like an empty window, as 1, unless one of the hashes is 0. Partial: if some byte occurs an odd number of times, flipping the lowest bit of its table entry decides between an odd and an even hash, so exactly half of all tables of 32-bit numbers give an odd hash.",
  "every item, every table of 32-bit numbers, every number of hash functions, every history of items under a clock that never goes back, every window",
  "The tests hash and count the decimal texts of consecutive numbers, few of which are of this kind, and allow errors of 15 per cent.",
  ["txstatsd/metrics/distinctmetric.py:SBoxHash.hash", "txstatsd/metrics/distinctmetric.py:zeros", "txstatsd/metrics/distinctmetric.py:SlidingDistinctCounter.distinct"])
p("Collisions and bounds of the distinct counter",
  "Two items that differ in one byte have the same hash exactly if the table gives the two bytes the same entry. Two items have the same hash after the same text is appended to both exactly if they had it before. A window with k different items is never counted as less than 1 nor as more than 2 ** k / 0.77351, nor as more than 2 ** n / 0.77351 with n buckets.",
  "every table of 32-bit numbers, all items; every number of hash functions and buckets, every history of items under a clock that never goes back, every window, every monotone function with value 1 at 0 standing for 2 ** v",
  "Tests can only try a few of the tables and items.",
  ["txstatsd/metrics/distinctmetric.py:SBoxHash.hash", "txstatsd/metrics/distinctmetric.py:SlidingDistinctCounter.add", "txstatsd/metrics/distinctmetric.py:SlidingDistinctCounter.distinct"])

p("Moving averages in doubles",
  "With float arithmetic as well, the rate of a moving average lies between the least and the greatest rate of the completed intervals and no tick raises; with the same number of events in every interval it is that rate, rounded once; with nothing to count it never rises, stays positive if it was, and loses at least alpha/2 of itself with each tick until it is below 2^-900. An interval of zero makes every tick raise after the count has been dropped. The constants of the one, five and fifteen minute averages lie between 1/256 and 1/4.",
  "every double alpha in the stated ranges, every whole interval and counts up to 2^53, every sequence of updates and ticks, every rounding with the properties of IEEE 754 doubles",
  "Tests compare a few rates with hand computed values up to some decimals.",
  ["txstatsd/stats/ewma.py:Ewma.__init__", "txstatsd/stats/ewma.py:Ewma.update", "txstatsd/stats/ewma.py:Ewma.tick"])
p("Durations, lines and thresholds in doubles",
  "Where the clock reads doubles within a factor of two of the starting time, the durations that timing() reports add up exactly to the elapsed time, each rounded only when it is turned into milliseconds. The SLI conditions above and below decide correctly all values that are not within a relative 2^-51 of their line, exactly where the line can be computed without rounding, and a greater size never turns below into not below when the slope is not negative. The status page says ERROR when the two times exceed 0.7 times the interval by a relative 2^-51, and does not when they are a relative 2^-53 short of it.",
  "every sequence of calls, all doubles and whole numbers in the stated ranges, every rounding with the properties of IEEE 754 doubles",
  "Tests use a few whole numbers, for which nothing is rounded.",
  ["txstatsd/metrics/metrics.py:Metrics.timing", "txstatsd/metrics/metrics.py:Metrics.calculate_duration", "txstatsd/metrics/slimetric.py:AboveCondition.__call__", "txstatsd/metrics/slimetric.py:BelowCondition.__call__", "txstatsd/server/httpinfo.py:Status.render_GET"])
p("The distinct counter in doubles",
  "With float arithmetic as well, the mean of the runs of hit levels is not rounded, and the limits of the last minute, hour and day are computed exactly from a double clock reading between one day and 2^53 seconds. The estimate is 2 ** mean / 0.77351 rounded down, but for a relative error of 2^-51 before rounding down; where the mean is a whole number up to 33 it is exactly the greatest whole number not above 2^k / 0.77351. A window that begins earlier never counts less. Counting never raises.",
  "every number of hash functions that is a power of two up to 2^30 (the reporter has 32), up to 1000 buckets, every table and history, every rounding with the properties of IEEE 754 doubles, every monotone power function that is right at whole numbers",
  "Tests compare estimates of a few random streams with a tolerance of 15 per cent.",
  ["txstatsd/metrics/distinctmetric.py:SlidingDistinctCounter.distinct", "txstatsd/metrics/distinctmetric.py:DistinctMetricReporter.flush", "txstatsd/metrics/distinctmetric.py:DistinctMetricReporter.count_1min", "txstatsd/metrics/distinctmetric.py:DistinctMetricReporter.count_1hour", "txstatsd/metrics/distinctmetric.py:DistinctMetricReporter.count_1day"])

p("The reactor inspector as a service (restart refuted)",
  "However often the inspector's service is started, it never runs more than one thread. As long as nobody stops it, its readings are those of the loop alone, whatever further starts happen. After a stop there is at most one more reading. A dump of the frames has one message for every other thread, in order, and marks exactly the thread that called start last. Refuted: that a service which was stopped and started again goes on inspecting; it never makes a reading again.",
  "every sequence of starts and stops of the service, acts of the inspector's thread and executions by the reactor, at any times; every set of threads",
  "The tests run the loop of the inspector without the service and never stop and start it again.",
  ["txstatsd/report.py:ReactorInspector.start", "txstatsd/report.py:ReactorInspector.stop", "txstatsd/report.py:ReactorInspector.dump_frames", "txstatsd/report.py:ReactorInspectorService.startService", "txstatsd/report.py:ReactorInspectorService.stopService"])
p("Reports from files (recovery refuted)",
  "A text is cut into exactly its lines. The reports of SYSTEM_STATS do not disturb each other, and no two standard reports ever report the same name. The reports about memory and load give what the file says at that moment, whatever failed before, and fail when it cannot be read. The traffic reported for a device adds up to the difference between the last and the first count in /proc/net/dev, if no device appears. Refuted: that the traffic report gives something whenever its file is in order; after one failure, such as a device that appears, it never gives anything again.",
  "every sequence of calls of the four reports at moments with arbitrary files and CPU times; all readings of psutil for the names",
  "The tests parse one sample text per file, without reading files and without calling a report twice on changing files.",
  ["txstatsd/process.py:load_file", "txstatsd/process.py:report_file_stats", "txstatsd/process.py:parse_netdev", "txstatsd/process.py:report_counters", "txstatsd/process.py:report_threadpool_stats", "txstatsd/process.py:report_reactor_stats"])

p("The pages are JSON (infinite durations refuted)",
  "The text that json.dumps makes of the status page, of the list of metrics and of a timer's page is a JSON text by the grammar of RFC 8259, whatever the order in which the dictionary is iterated, and a reader gets from it exactly the data of the page: names character by character, whole numbers exactly, floats to the last bit. A JSON text has one meaning only. The list names exactly the metrics received. Refuted: that every page answered with 200 is JSON; a timer that once received inf and has since lost it from its reservoir shows Infinity as its maximum.",
  "every history of messages and flushes on either processor, every world, every order of the members, all names; for timers, histories with finite durations and completed flushes",
  "The tests parse the pages of a few metrics with Python's own json module, which accepts Infinity and NaN.",
  ["txstatsd/server/httpinfo.py:Status.render_GET", "txstatsd/server/httpinfo.py:ListMetrics.render_GET", "txstatsd/server/httpinfo.py:TimerResource.render_GET"])
p("Floats in the pages",
  "A float in a page is written with the fewest digits that are read back as the same float, at most 17, and among those with the number closest to it; nan and the infinities are read back by float() too, but are not JSON. Different floats have different texts. From 0.0001 to below 10^16 the text is digits with a point, otherwise it has an exponent.",
  "all IEEE 754 doubles",
  "There are 2^64 doubles; tests use whole numbers.",
  ["txstatsd/server/httpinfo.py:Status.render_GET", "txstatsd/server/httpinfo.py:TimerResource.render_GET"])
p("How long the server worked",
  "A completed flush reports what passed on the server's clock: receive.<type>.duration is 1000 times the sum, over the messages of the type handled since the last completed flush, of the time between the readings before and after, and is absent if there were none; flush.<kind>.duration is 1000 times the time between two readings, and the stretches of the five kinds follow each other within the flush, so that on a clock that never goes back they add up to no more than the flush took. The status page shows the sums of the same times in seconds.",
  "every history of messages and flushes on either processor, every clock, any plugins (on the default processor: that report no names of the server's own), exact arithmetic",
  "Tests use a constant clock, for which all durations are 0.",
  ["txstatsd/server/processor.py:MessageProcessor.process_message", "txstatsd/server/processor.py:MessageProcessor.flush", "txstatsd/server/processor.py:MessageProcessor.flush_metrics_summary"])
p("Which calls of the client raise",
  "In any history of calls of Metrics or ExtendedMetrics the first call for a name decides what later calls for it may be: a call raises exactly if its kind does not fit that of the first (AttributeError where the object has no such method, TypeError where it takes another number of arguments) or if a text is to be counted (TypeError). A call that raises sends nothing. If each name is used with calls of one kind and only numbers are counted, nothing ever raises; reset_timing and clear never do. sli and sli_error send <name>:<duration>|sli[|<size>] and <name>:error|sli.",
  "every history of calls, all arguments and clocks, both classes",
  "Tests call one kind of method per name.",
  ["txstatsd/metrics/metrics.py:Metrics.report", "txstatsd/metrics/metrics.py:Metrics.increment", "txstatsd/metrics/extendedmetrics.py:ExtendedMetrics.increment", "txstatsd/metrics/metrics.py:Metrics.sli_error"])
p("Gauges and counters on their own",
  "A gauge reporter reports the value marked last, 0 before the first, under <prefix>.<name>.value; a counter reporter reports the count marked last without its fraction, 0 before the first, under <prefix>.<name>.count, and raises ValueError for a NaN and OverflowError for an infinity.",
  "all names, prefixes, sequences of marks and timestamps",
  "Tests mark one value.",
  ["txstatsd/metrics/gaugemetric.py:GaugeMetricReporter.report", "txstatsd/metrics/countermetric.py:CounterMetricReporter.report"])
p("Datagrams out of order or repeated",
  "The datagrams of an interval may arrive in any order. The statistics reported for a timer and the list of metrics do not depend on it, in any arithmetic; a count does not depend on it in exact arithmetic nor for whole unsampled increments up to 2^53, and otherwise differs by at most twice the rounding error of the additions; the readings of a gauge are reported in the order of arrival, none lost; the total of a meter does not depend on it for whole readings, and in exact arithmetic it is the sum rounded to six decimals, whatever flushes were under way. On the configurable processor repeated datagrams make no difference to counters and gauges. Beyond that the order matters (refuted with witnesses): a count in doubles, the last reading of a gauge, and repetitions on the default processor.",
  "every history before, every permutation of the datagrams after it, all worlds and plugins that keep off the names concerned, all names",
  "The permutations of a few dozen datagrams cannot be listed; tests send them in one order.",
  ["txstatsd/server/processor.py:MessageProcessor.process_message", "txstatsd/server/processor.py:MessageProcessor.flush_timer_metrics", "txstatsd/server/processor.py:MessageProcessor.flush_counter_metrics", "txstatsd/server/configurableprocessor.py:ConfigurableMessageProcessor.compose_timer_metric"])
p("Counting behind a sharded client",
  "If a client writes through a ConsistentHashingClient to several servers, and each server gets its datagrams in any order and flushes when it likes, the counts all servers report for a name, together with what they still hold, add up to what was written, within the rounding error of the additions; if the name was always written in the same way, all of it is counted by a single server, which its name alone determines. The same holds of timers and gauges: one server reports the statistics of the timer, or the readings of the gauge (if the order is kept), that a single server would report that got everything, and the others report nothing of it. And of meters: one server reports the total of all readings, exactly for whole readings and rounded to six decimals in exact arithmetic, in any order and whatever flushes were under way, and no other server has a point of that name. On servers with the configurable processor, if the order is kept, one server reports the latest value written of a counter or gauge in every completed flush, and no other server ever receives a value of it. Two names that the servers normalise to the same key can go to different servers (refuted with a witness).",
  "all hash functions, sets of servers, sequences of writes, schedules of each server, all names",
  "Tests check the placement of a few names, without servers behind it.",
  ["txstatsd/client.py:ConsistentHashingClient.write", "txstatsd/hashing.py:ConsistentHashRing.get_node", "txstatsd/server/processor.py:MessageProcessor.flush_counter_metrics"])
p("The server's durations in doubles",
  "With a clock of doubles that never goes back and has not doubled its first reading, the durations the server reports of its own work are finite, not negative and near the exact ones: one rounding off for each kind of metric flushed, n + 1 for n messages of a type received. The times on the status page are too, and the page decides by their exact sum unless that is within 2n + 9 roundings of the threshold.",
  "every history of messages (fewer than 2^49) and flushes, every such clock, any plugins; the status page on either processor, the datapoints on the default one",
  "Rounding errors depend on every reading of the clock; tests use a constant one.",
  ["txstatsd/server/processor.py:MessageProcessor.process_message", "txstatsd/server/processor.py:MessageProcessor.flush", "txstatsd/server/processor.py:MessageProcessor.flush_metrics_summary", "txstatsd/server/httpinfo.py:Status.render_GET"])
p("How often the distinct counter is far off",
  "Over all tables of 256 32-bit numbers, an item with a byte that occurs an odd number of times gets every hash value equally often, and two items get every pair of values equally often if some byte occurs an odd number of times in the two together (otherwise both hashes are odd or both even, whatever the table). So if m such items were seen in the window, the run of levels counted for a hash function ends at or before level j with less than 2^(j+2)/m of the tables, and goes beyond level j with at most m/2^(j+1) of them.",
  "all lists of items pairwise so, all sequences of sightings and windows, all levels below 32",
  "There are 2^8192 tables; tests try a few random ones.",
  ["txstatsd/metrics/distinctmetric.py:SBoxHash.hash", "txstatsd/metrics/distinctmetric.py:SBoxHash.__init__", "txstatsd/metrics/distinctmetric.py:zeros", "txstatsd/metrics/distinctmetric.py:SlidingDistinctCounter.distinct"])
p("The distinct counter is seldom far off",
  "Over all tables of k = 2^j hash functions, with at most 2^l items seen in the window, each with a byte that occurs an odd number of times, the number reported is above 2^(l+d)/0.77351 with a share of at most (2 (2/3)^d)^k; with at least 2^(x+d+2) items, pairwise with a byte that occurs an odd number of times in the two, it is below 2^x/0.77351 - 1 with a share of at most that. For the counter of a reporter (32 buckets, 32 hash functions) and the tables that randint can draw: of m such items it reports more than 21 m, or e with m > 50 (e + 1), with less than one in a million of the draws. Computed in doubles.",
  "all lists of up to 2^32 such items, all sequences of sightings, all windows",
  "There are 2^262144 draws; a test sees the estimates of a few.",
  ["txstatsd/metrics/distinctmetric.py:SBoxHash.hash", "txstatsd/metrics/distinctmetric.py:SBoxHash.__init__", "txstatsd/metrics/distinctmetric.py:SlidingDistinctCounter.add", "txstatsd/metrics/distinctmetric.py:SlidingDistinctCounter.distinct"])
p("Random hashes (partly refuted)",
  "Each SBoxHash makes 256 draws of its own; the tables of a counter are the consecutive draws, each choice of tables coming from exactly one sequence of draws. Two instances hash differently: they do if their tables differ in an entry, and on an item with a byte that occurs an odd number of times they agree with exactly one in 2^32 of the pairs of tables; but they can draw equal tables, and the empty text has the hash 0 with all (refuted). The module's hash draws a table for each call, so it is no function of the data (refuted).",
  "all sequences of draws, numbers of hash functions and buckets, all items",
  "Tests compare two instances on one text.",
  ["txstatsd/metrics/distinctmetric.py:SBoxHash.__init__", "txstatsd/metrics/distinctmetric.py:hash", "txstatsd/metrics/distinctmetric.py:SlidingDistinctCounter.__init__"])
p("Newer values are likelier to be in a decaying sample",
  "If the results of random() are independent and uniform on the interval from 0 to 1, and exp and divisions exact: of two different values the newer one is at least as likely to be held as the older one, and values of the same time are equally likely, whatever else was offered in whatever order; once as many values as fit are newer by d seconds, the old value is held with a chance of at most exp(-alpha d), which is below 1.2 percent after five minutes with the settings of histograms; of two values, a sample for one holds the older with a chance of exactly exp(-alpha d)/2.",
  "all sizes, factors, numbers of values, times (in any order), landmarks",
  "A test draws a few of infinitely many random numbers, and cannot see a chance.",
  ["txstatsd/stats/exponentiallydecayingsample.py:ExponentiallyDecayingSample.update", "txstatsd/stats/exponentiallydecayingsample.py:ExponentiallyDecayingSample.rescale", "txstatsd/stats/exponentiallydecayingsample.py:ExponentiallyDecayingSample.get_values"])
p("How evenly a ring spreads the keys (refuted)",
  "If the positions of the replicas are random, each of c nodes owns a given key with the same chance. Refuted: where two nodes have the same position the one that comes first in the order of nodes gets the key, so the first node has a strictly greater chance than any other, and no node a smaller one than a later node. Up to (c - 1) * replicas / positions the chances are those of a fair share; with 1024 replicas and 2^32 positions that is (c - 1) / 4194304.",
  "all sets of nodes, numbers of replicas and positions, keys and positions of the key, all sequences of operations leading to the ring",
  "There are 2^32768 placings for one node alone; a test sees the one of MD5.",
  ["txstatsd/hashing.py:ConsistentHashRing.add_node", "txstatsd/hashing.py:ConsistentHashRing.get_node", "txstatsd/hashing.py:ConsistentHashRing.compute_ring_position"])
p("Starting and stopping the flushing (refuted)",
  "From a start at s to the next stop, with p > 0 whole seconds in the interval, flushes begin at readings of the clock only, none before s + p, at most one in each period counted from s, and one in each period in which the clock is read, so that they do not drift; on time they begin exactly at s + p, s + 2p, ... Each call hands one flush to the cooperator. With an interval below a second a flush begins at every reading. Starting a running service fails an assertion and a negative interval is a ValueError, both without effect; stopping never fails. From a stop to the next start no flush begins. Refuted: that nothing is sent while stopped; flushes that had begun go on sending.",
  "all runs: starts, stops, readings of the clock, datagrams, scheduled calls, advances of flushes; all intervals",
  "Tests start the service once with a fake clock and advance it by whole intervals.",
  ["txstatsd/service.py:StatsDService.__init__", "txstatsd/service.py:StatsDService.startService", "txstatsd/service.py:StatsDService.stopService", "txstatsd/service.py:StatsDService.flushProcessor"])
p("The statistics of the machine, from its files to the flushes",
  "In every history of reports, messages and flushes of a service that reports about its machine, a completed flush shows for each label of /proc/meminfo the bytes that the file gave at the last report of the memory (up to 2^53), on either processor; for each load average the double nearest to the decimal in the file (at most twelve digits), although it is printed and read once more on its way; and for each device readings that add up to its traffic between the first report and the last. (Messages from outside are no readings of these gauges.)",
  "all histories of reports, messages and flushes; all files, instance names, plugins and clocks",
  "Tests parse one sample of each file and look at the dictionary; none follows a number into a flush, where parsing, counter generators, gauge names, the texts of numbers and the backlog of gauges meet.",
  ["txstatsd/process.py:parse_meminfo", "txstatsd/process.py:parse_loadavg", "txstatsd/process.py:parse_netdev", "txstatsd/process.py:report_file_stats", "txstatsd/report.py:ReportingService.schedule", "txstatsd/service.py:createService"])
p("A uniform sample is seldom far off",
  "The share of a reservoir sample of n that has some property is on average over the draws that of the whole stream, and differs from it by e or more with chance at most 1/(4 n e^2), whatever the stream and its length. So a reported percentile of a histogram is seldom wrong by much: if a share p + p/n + e of all values are at most x, a score above x has at most that chance, and the same below. (For the usual sample of 1028: less than one in ten for e = 5%.)",
  "all streams of at least n values, all n, properties, percentiles and e; all equally likely sequences of draws",
  "A test draws one sample, or fixes the seed; a chance over all draw sequences is not visible in it, and an unfair replacement only shows in the long run.",
  ["txstatsd/stats/uniformsample.py:UniformSample.update", "txstatsd/metrics/histogrammetric.py:HistogramMetricReporter.percentiles"])
p("A sampled count is seldom far off",
  "Increments of one name at a rate r below one: what the texts sent add to the counter, each divided by its rate, differs from the sum of the increments by t or more (beyond the tiny bias of C98) in a share of at most (sum of squares) (1-r) (1 + 1/(rN)) / (r t^2) of all sequences of draws from the multiples of 1/N.",
  "all lists of increments, rates below one, t, and grids of draws",
  "Tests fix the draw. How far a sampled counter strays depends on all the draws together.",
  ["txstatsd/metrics/metric.py:Metric.send", "txstatsd/metrics/metrics.py:Metrics.increment", "txstatsd/server/processor.py:MessageProcessor.compose_counter_metric"])
p("The statistics of the process, from psutil to the flushes",
  "In every history of reports of all kinds that the service can be told to send (about the machine, the process, its counters, its connections, the reactor), messages and flushes, a completed flush shows for the process the memory and the number of threads that psutil gave at the last report, on either processor; percentages as the nearest numbers of twelve digits; and for what was read and written readings that add up to the difference between the last report and the first. No report disturbs another. For each state of connections it shows how many streams were in it at the last report. Refuted: when the last connection has left a state, nothing is reported about it and its gauge keeps the old number.",
  "all histories of reports of all kinds, messages and flushes; all readings of psutil, instance names, plugins and clocks",
  "Tests call each report once with a mocked process and look at the dictionary; none follows a number into a flush, and none sees a state vanish between two reports.",
  ["txstatsd/process.py:ProcessReport.get_memory_and_cpu", "txstatsd/process.py:ProcessReport.get_io_counters", "txstatsd/process.py:ProcessReport.get_net_stats", "txstatsd/process.py:report_counters", "txstatsd/report.py:ReportingService.wrapped", "txstatsd/service.py:createService"])
p("When the reports are made, and how old the statistics in a flush are",
  "From a start at s to the next stop, a scheduled report with a period of p > 0 seconds is made at readings of the clock only, not before s + p, at most once in each period counted from s, and once in each in which the clock is read; on time exactly at s + p, s + 2p, ... From a stop to the next start no report is made. Starting reports that run, or stopping ones that do not, fails an assertion without effect. So if the clock has been read at x, s + p or later, a completed flush shows the memory and threads of the process, and the memory of the machine, as they were at a moment later than x - p.",
  "all runs: starts, stops, readings of the clock, messages, flushes; all lists of reports with periods; all machines changing over time, instance names, plugins",
  "Tests schedule one function, start the service once and advance a fake clock by whole periods; none looks at how old a number in a flush can be when the reactor is late or the service was stopped and started.",
  ["txstatsd/report.py:ReportingService.schedule", "txstatsd/report.py:ReportingService.startService", "txstatsd/report.py:ReportingService.stopService", "txstatsd/report.py:ReportingService.wrapped", "txstatsd/service.py:createService"])
p("Reports that take their time (refuted)",
  "A scheduled function may return a Deferred. Each call of it has one outcome: what it returns is reported as soon as it is there, or its failure is logged, or it is still awaited. The function is not called again before the result is there, at readings of the clock only, not before s + p after a start at s and not twice in a period; a slow result skips the periods that it takes. From a stop to the next start it is not called. Refuted: after a stop and a start while a result is awaited, the function is called a second time meanwhile; when the awaited result then comes, two calls are planned, and the next stop cancels only one of them. A result that comes after a stop is reported.",
  "all runs: starts, stops, readings of the clock, arrivals of results; all functions, immediate or not; all periods",
  "Tests return dictionaries or fire one Deferred at once; the interleavings of a slow result with readings, stops and starts are never tried.",
  ["txstatsd/report.py:ReportingService.wrapped", "txstatsd/report.py:ReportingService.schedule", "txstatsd/report.py:ReportingService.startService", "txstatsd/report.py:ReportingService.stopService"])
p("CPU times, from psutil to the flushes",
  "If the CPU times that psutil gives do not decrease from one report to the next (and are below 2^53 seconds), a completed flush shows one reading for every report but the first: the time spent since the report before, to eleven digits; so the readings add up to the time spent between the first report and the last, to the same precision. This holds for the user and system times of the process and for every mode of the times of the machine.",
  "all histories of reports of all kinds, messages and flushes; all non-decreasing times as doubles; all modes, instance names, plugins and clocks",
  "Tests difference two mocked tuples of whole numbers; none follows floating-point differences through text into a flush, nor checks that nothing is counted twice or dropped over many reports.",
  ["txstatsd/process.py:ProcessReport.get_cpu_counters", "txstatsd/process.py:report_system_stats", "txstatsd/process.py:report_counters", "txstatsd/report.py:ReportingService.wrapped", "txstatsd/service.py:createService"])

p("Samples with the draws the code makes (refuted)",
  "With the draws the code makes, randint(1, maxint) reduced modulo the number of values seen, each of N >= n values is in a sample of n with chance n / N. Refuted: residues of such ints are not quite uniform (of two values, a sample of one holds the second less often). Partial: every chance about the positions held differs from that with uniform residues by at most N (N + 1) / (2 maxint), so each value is held with a chance within that of n / N, and the share of the sample with a property is still seldom far from that of the stream.",
  "every capacity, stream, maxint and question about the positions held",
  "distributions over all draws",
  ["txstatsd/stats/uniformsample.py:UniformSample.update", "txstatsd/stats/uniformsample.py:UniformSample.__init__"])

p("From the arguments to the options (abbreviations refuted)",
  "Options written in any of the usual ways - by long name, by an abbreviation that fits one option only, or by letter, with the value in the same argument or the next, whatever the value - are taken as they are meant, in order; unknown options, missing values and operands are refused; an option last given by its long name or an abbreviation of it wins over the configuration file. Refuted for abbreviations of options that have a method, such as --conf: the list of long options has them twice. Partial: abbreviations of all other options work.",
  "every sequence of written options, values and operands; every table of options",
  "all argument vectors",
  ["txstatsd/service.py:OptionsGlue.parseOptions", "txstatsd/service.py:StatsDOptions", "txstatsd/service.py:OptionsGlue.opt_config"])

p("From the text of the configuration file to the options (comments refuted)",
  "A configuration file with sections and options as one may write them - either separator, any spacing, capitals in names, values of several lines, comments and blank lines - is read as these sections and options, the lines of each value joined; with repeated sections and options and with defaults, the value given last counts, and a section goes before the defaults. Routing rules may thus be written one to a line. A line outside of sections, one without separator, or an indented one that follows no option of its section makes reading fail, and so does a file that cannot be opened; the program then does not start. Together with C165 and C71: an option not given by its long name has the value of the file. Refuted: a value of one line is not always read as written; it is, exactly if it is not a pair of quotes and its first ; (if any) does not follow white space.",
  "every file that follows the grammar; every place of an unreadable line; every value",
  "all texts of configuration files",
  ["txstatsd/service.py:OptionsGlue.postOptions", "txstatsd/service.py:OptionsGlue.configure", "txstatsd/server/router.py:Router.build_rules", "txstatsd/service.py:StatsDOptions"])

p("A configurable processor reports each handled message once",
  "In a processor with configured prefixes, in every interleaving of arrivals and any number of flushes, the messages of a type that were handled are those whose count is stored and those whose count was wiped, and whenever no flush is reporting the receive statistics, the counts reported for the type under the processor's own prefix are the counts that flushes read; if one flush at a time reports, those counts, the count stored and the messages that arrived between the reading and the end of a flush make up the messages handled. The last two hold unless something that arrives makes a datapoint of the same name, which cannot be when the processor's names do not start with the message prefix and a dot. With the internal prefix that the processor makes itself they do start so, and a client's counter can be reported under the name of a receive count.",
  "all prefixes, plugins, clocks, message types and schedules",
  "Whether names collide depends on the configured prefixes and the keys clients choose, and what is missed on how arrivals fall between the points of a report.",
  ["txstatsd/server/configurableprocessor.py:ConfigurableMessageProcessor.__init__", "txstatsd/server/processor.py:MessageProcessor.flush", "txstatsd/server/processor.py:MessageProcessor.process_message"])

p("How long a TCP redirect waits before it connects again",
  "A TCP redirect that was started and not stopped is connected, or is attempting to connect, or has an attempt scheduled within an hour, up to the jitter. A lost connection is tried again after e seconds, however long the outages before it were, because making a connection resets the delay. In an outage the wait before the n-th attempt is at least (e(1 - jZ))^n or an hour less jZ of it, whichever is smaller, and at most an hour plus jZ of it, where j is the jitter and Z bounds the normal draws in standard deviations. Otherwise the redirect lives as in C121. The first part is false for a draw far below the mean, which makes the wait negative: scheduling it fails and nothing but a restart of the service connects again.",
  "all histories of connections, failures, losses and waits, all draws",
  "The waits depend on random draws and on the whole history of failures; the resetting shows only after a second outage, and the fatal draw is rare.",
  ["txstatsd/server/router.py:TCPRedirectClientFactory.buildProtocol", "txstatsd/server/router.py:TCPRedirectService.startService", "txstatsd/server/router.py:TCPRedirectService.stopService"])

p("From the command line to the running service",
  "Whatever the arguments and the configuration file, the options accepted are of the declared kinds, and a service is created from them exactly if the rules of the SLI plugin and the routing rules can be read and, if the dump mode is on, no dump mode was set up before in the same process (the log has no attribute info yet). It listens for datagrams on listen-port, for connections on listen-tcp-port and for requests on http-port if these are given, and on nothing else; it has one flushing service with the given interval, one carbon service with the given destinations, and the redirects that the rules name; a port or interval given by its long name on the command line is the one used, whatever the file says. The processor has the prefix and the name given. The defaults and the example file give the service one expects, but an empty report option, as in the example file, adds the reactor's statistics. Created with exact sums, the default processor and no rules, such a service never loses or doubles an increment.",
  "all argument vectors, all files, all accepted options, all regular expression engines, all plugins of the tree",
  "Tests build options by hand and look at one or two parts of the service; none goes from the arguments and the text of a file to the parts.",
  ["txstatsd/service.py:createService", "txstatsd/service.py:StatsDOptions", "txstatsd/server/httpinfo.py:makeService", "txstatsd/server/router.py:Router.build_rules"])

p("The example client",
  "Every step of a walker, every duration and every reading of the process is written by the example client once and in order, under the host's name and the name example-client; nothing waits in its queue, and a report fails only if psutil gives other than two numbers for the memory. At every moment the counts that a service without rules has made for a walker, with what it has yet to process and what was lost or is yet to be sent, are exactly the walker's position. Expected besides: that the service shows the process's size as last reported (false: the client passes metrics.increment to the reports, so each interval shows the sum of its reports).",
  "all draws, readings, event orders, write results, losses and reorderings of datagrams, all schedules of the service",
  "The example runs forever on random draws; that the counts add up to a walker's position shows only across many intervals and at both ends of the network.",
  ["txstatsd/report.py:ReportingService.schedule", "txstatsd/metrics/metrics.py:Metrics.increment", "txstatsd/metrics/metrics.py:Metrics.decrement", "txstatsd/metrics/metrics.py:Metrics.timing"])

p("Counters of the machine on the configurable processor",
  "On a processor with prefixes, a completed flush shows, for what the process read and wrote, for its CPU times and for the traffic of a network device, the difference between the last two reports. Expected besides: that the differences shown add up to what passed since the first report, as they do on the default processor (false: the reports send differences as gauges, of which this processor keeps the last, so that the differences of earlier reports in an interval are lost), and that nothing is shown twice (false: a gauge is shown again at every flush, also if nothing was reported in between).",
  "all histories of reports of all kinds, messages and flushes, all readings, prefixes and plugins",
  "What is lost or repeated depends on how the periods of reports and flushes fall; tests flush once after one report.",
  ["txstatsd/process.py:report_counters", "txstatsd/server/configurableprocessor.py:ConfigurableMessageProcessor.compose_gauge_metric", "txstatsd/metrics/gaugemetric.py:GaugeMetricReporter.report"])

p("From the command line to what carbon gets",
  "Whatever the arguments and the file, every point that the created service ever sends is about messages that it received, except the monitor's, or that it wrote to itself, or that the routing rules made of these, each used at most once: a counter, timer, gauge or meter among them, one of the processor's own statistics, or a point of a metric of a shipped plugin. Without compliance every name begins with the prefix of the options; with it, with stats., stats_counts. or statsd. whatever the prefix. With compliance and no rules the counts add up to the increments received, up to the error of doubles. Expected besides: that no name begins with a dot if no message has such a name (false: with an empty prefix, as in the example file, and without compliance, the processor's own statistics are named by a dot, the instance and another dot).",
  "all argument vectors, all files, all accepted options, all readable rules, all schedules of datagrams, lines, reports and interleaved flushes, all clocks",
  "Names come from the options, the rules, the plugins and the keys at once; tests set the prefix of a processor by hand and look at single flushes.",
  ["txstatsd/service.py:createService", "txstatsd/server/configurableprocessor.py:ConfigurableMessageProcessor.__init__", "txstatsd/server/processor.py:MessageProcessor.flush", "txstatsd/server/router.py:Router.process_message"])

p("One value per name in each flush",
  "No two points of one flush have the same name, so that carbon, which keeps one value per name and time, loses nothing. This holds on the default processor if no name was read as a gauge twice and no counter is called timers., gauge., meter., SLI. or pdistinct. and something; and on the processor with prefixes if no name is used for two of counters, timers, meters and plugins and no name begins like the processor's own statistics. Either all plugins are unused, or they are the two that come with the program, used in any way, labels without dots, and a prefix that does not end in a dot. Without these conditions it is false: a gauge read twice is reported twice by the default processor, now and in every later flush; a counter can have the name of a gauge's or a meter's statistic; and on the other processor a counter and a meter (or timer) of one name have the same name for their counts; a label with a dot makes two SLI metrics meet.",
  "all histories of messages and flushes, all intervals, percentiles, prefixes and clocks",
  "Whether two names meet depends on all keys of all kinds at once; tests use one kind or different keys.",
  ["txstatsd/server/processor.py:MessageProcessor.flush", "txstatsd/server/processor.py:MessageProcessor.flush_gauge_metrics", "txstatsd/metrics/gaugemetric.py:GaugeMetricReporter.report", "txstatsd/metrics/metermetric.py:MeterMetricReporter.report", "txstatsd/metrics/timermetric.py:TimerMetricReporter.report"])

p("What carbon keeps of the counts",
  "Carbon keeps the last value for a name and a second. If the flushes of the default processor begin at least a second apart, it keeps every count of every counter, and what it keeps and what the processor holds add up to the increments received; of the readings of a gauge that a flush of the default processor repeats, it keeps the last one received; under the conditions of C173 it keeps every point of both processors. The loop of the service begins its flushes in different seconds counted from its start, so that they have different timestamps if it was started at a whole second. Expected besides: that they always have (false: after a delay the next flush may begin in the same second as the late one; its counts, mostly zeros, then replace those of the late flush, and the increments are lost).",
  "all histories of messages and flushes, all clocks, all delays of the reactor, all starting times",
  "The loss needs a delay that ends within the second before the next flush; nothing in the sending process shows it.",
  ["txstatsd/service.py:StatsDService.startService", "txstatsd/service.py:StatsDService.flushProcessor", "txstatsd/server/processor.py:MessageProcessor.flush", "txstatsd/server/processor.py:MessageProcessor.flush_counter_metrics"])

p("What the rules of the SLI plugin can contain",
  "Whatever text is given as rules, accepted or not, the patterns that get into the configuration are different, non-empty and of letters, digits and _.*?-, and the labels of a pattern are different, non-empty words; so matching a name against them never fails and asks for the shell match. If no rule asks for the condition metric, every metric gets conditions that can be evaluated (such a rule is accepted, and the metrics it matches refuse every number). Every service made of a command line and files with the plugins that come with it has such a configuration, so the counts of an SLI metric in it add up to its events.",
  "all texts of rules, all earlier configurations, all command lines and files, all schedules",
  "That a label never has a dot, on which the names of the counts depend, is a property of a regular expression over all texts.",
  ["twisted/plugins/sli_plugin.py:SLIMetricFactory.configure", "twisted/plugins/sli_plugin.py:SLIMetricFactory.build_metric", "txstatsd/service.py:createService"])

p("Counting on several services made of command lines",
  "A client writes to several services through consistent hashing; each service is made of its own command line and files (compliant, without dump mode and routing rules, flushing at most once a second), receives what was sent to it in any order and runs in any schedule. Then at every moment the counts of a counter that the services sent to carbon, have under way or hold, and the increments still scheduled in them, add up to the increments in the texts that can be sent: up to the error of adding them in doubles, and exactly for whole unsampled increments. So, for any number of programs, each with its own namespace and order of listing the services, that call increment, decrement, gauge, meter and timing with legal names and without sampling, the counts on all services together are what their calls added; one service has all of them, and no other one is ever sent an increment of that counter; and every point that a service, compliant or not, sends to carbon is about texts that these programs wrote under names of this service, or that the service wrote to itself.",
  "all hash functions and sets of services, all texts and programs, command lines, files, orders of arrival and schedules",
  "The parts of a count are on different machines at different times; no test sees them together.",
  ["txstatsd/client.py:ConsistentHashingClient.write", "txstatsd/hashing.py:ConsistentHashRing.get_node", "txstatsd/service.py:createService", "txstatsd/server/processor.py:MessageProcessor.flush"])

open("/verif/properties.jsonl","w").write("".join(json.dumps(x)+"\n" for x in P))
for x in P: print(x["id"],x["title"])
