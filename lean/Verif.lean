import Verif.Model.Generator
import Verif.Props.Text
import Verif.Props.Counters
import Verif.Props.Isolation
import Verif.Props.Timers
import Verif.Props.Gauges
import Verif.Props.Meters
import Verif.Props.Accounting
import Verif.Props.Schedules
import Verif.Props.Missed
import Verif.Props.Samples
import Verif.Props.Histograms
import Verif.Props.Ring
import Verif.Props.Clients
import Verif.Props.Configurable
import Verif.Props.Metrics
import Verif.Props.Router
import Verif.Props.Tcp
import Verif.Props.DecayFloat
import Verif.Props.DecayHistogram
import Verif.Props.Distinct
import Verif.Props.Sli
import Verif.Props.Plugins
import Verif.Props.Options
import Verif.Props.Getopt
import Verif.Props.Ini
import Verif.Props.Service
import Verif.Props.System
import Verif.Props.Report
import Verif.Props.Delay
import Verif.Props.App
import Verif.Props.Threads
import Verif.Props.Sampling
import Verif.Props.SelfReport
import Verif.Props.ProcessReport
import Verif.Props.Interleaved
import Verif.Props.Doubles
import Verif.Props.Site
import Verif.Props.Json
import Verif.Props.FloatStr
import Verif.Props.Relay
import Verif.Props.Redirect
import Verif.Props.PluginFlow
import Verif.Props.PluginLife
import Verif.Props.Ready
import Verif.Props.Balance
import Verif.Props.DoubleFlow
import Verif.Props.PyText
import Verif.Props.SBox
import Verif.Props.FloatShape
import Verif.Props.EwmaFloat
import Verif.Props.DistinctFloat
import Verif.Props.Sterbenz
import Verif.Props.Inspector
import Verif.Props.Files
import Verif.Props.Durations
import Verif.Props.ClientErrors
import Verif.Props.OptionPorts
import Verif.Props.Reporters
import Verif.Props.Reorder
import Verif.Props.Sharded
import Verif.Props.DurationsFloat
import Verif.Props.SBoxUniform
import Verif.Props.SBoxEstimate
import Verif.Props.SBoxDraw
import Verif.Props.DecayChance
import Verif.Props.RingChance
import Verif.Props.FlushTask
import Verif.Props.ReorderMeter
import Verif.Props.ShardedReadings
import Verif.Props.ShardedMeters
import Verif.Props.ShardedLatest
import Verif.Props.SysService
import Verif.Props.SampleShare
import Verif.Props.RandInt
import Verif.Props.SampledSpread
import Verif.Props.HostService
import Verif.Props.ReportLoop
import Verif.Props.SlowReport
import Verif.Props.CpuTimes
import Verif.Props.ReceiveConf
import Verif.Props.Backoff
import Verif.Props.Create
import Verif.Props.EndToEnd
import Verif.Props.Demo
import Verif.Props.ConfHost
import Verif.Props.UniqueNames
import Verif.Props.Kept
import Verif.Props.Labels
import Verif.Props.Fleet
