import Verif.Model.Telemetry
import Verif.Props.Tags
import Verif.Props.Telemetry
import Verif.Model.Buckets
import Verif.Props.Buckets
import Verif.Props.BucketsZero
import Verif.Model.Event
import Verif.Props.Send
import Verif.Model.Filter
import Verif.Props.Filter
import Verif.Props.Logging
import Verif.Props.Lua
import Verif.Props.Sink
import Verif.Props.Kafka
import Verif.Props.Ack
import Verif.Props.Wire
import Verif.Props.AckOwn
import Verif.Props.Avro
import Verif.Props.File
import Verif.Props.Files
import Verif.Props.Statsd
import Verif.Props.Graphite
import Verif.Props.GraphiteBytes
import Verif.Props.Wavefront
import Verif.Props.WavefrontPads
import Verif.Props.WavefrontTotals
import Verif.Props.Timers
import Verif.Props.Machine
import Verif.Props.TagOrder
import Verif.Props.Crash
import Verif.Props.Prometheus
import Verif.Props.PromTypes
import Verif.Props.Kill
import Verif.Props.PromNet
import Verif.Props.PrometheusWindow
import Verif.Props.PrometheusZero
import Verif.Props.Elasticsearch
import Verif.Props.ElasticCounts
import Verif.Props.Influxdb
import Verif.Props.Json
import Verif.Props.JsonFilter
import Verif.Props.Date
import Verif.Props.Native
import Verif.Props.PromProto
import Verif.Props.ProtoGrammar
import Verif.Props.Topology
import Verif.Props.Thread
import Verif.Props.Internal
import Verif.Props.Flush
import Verif.Props.Pipeline
import Verif.Props.SinkImpls
import Verif.Props.SinkWavefront
import Verif.Props.Config
import Verif.Props.Net
import Verif.Props.NetLog
import Verif.Props.NetSinks
import Verif.Props.NetSeveral
import Verif.Props.NetHeld
import Verif.Props.Federation
import Verif.Props.NetTotals
import Verif.Props.Tcp
import Verif.Props.Totals
import Verif.Props.Scrape
import Verif.Props.ScrapeTotals
import Verif.Props.ScrapeGrowth
import Verif.Props.GraphiteClient
import Verif.Props.LinePipeline
import Verif.Props.ElasticIndex
import Verif.Props.InfluxServer
import Verif.Props.Isolation
import Verif.Props.FileIndex
import Verif.Props.WavefrontProxy
import Verif.Props.KafkaLog
import Verif.Props.DeadStart
import Verif.Props.Reconnect
import Verif.Props.Restarts
import Verif.Props.RestartsBytes
import Verif.Props.Resend
import Verif.Props.ResendKafka
import Verif.Props.NetFlow
import Verif.Props.NetWritten
import Verif.Props.NetAcked
import Verif.Props.AckLive
import Verif.Props.AckNet
import Verif.Props.NetEnd
import Verif.Props.NetElastic
import Verif.Props.FilterPanic
import Verif.Props.SinkPanic
import Verif.Props.Fate
import Verif.Props.Handlers
import Verif.Props.Gauges
import Verif.Props.Counters
import Verif.Props.CountersSources
import Verif.Props.CountersKafka
import Verif.Props.KafkaKeys
import Verif.Props.KafkaEnds
import Verif.Props.AvroKafka
import Verif.Props.Startup
import Verif.Props.Stream
import Verif.Props.StreamFrames
import Verif.Props.StreamGraphite
import Verif.Props.StreamExact
import Verif.Props.FileBytes
import Verif.Props.FileRefine
import Verif.Props.FileRun
import Verif.Props.Store
import Verif.Props.Watching
import Verif.Props.FileLate
import Verif.Props.StatsdRecv
import Verif.Props.Randomised
import Verif.Props.Clock
import Verif.Props.Scripts
import Verif.Props.Settings
import Verif.Tests.Fix
import Verif.Tests.Telemetry
import Verif.Tests.Buckets
import Verif.Tests.Protocols
import Verif.Tests.Sinks
import Verif.Tests.Others
import Verif.Tests.Config
import Verif.Tests.Examples
import Verif.Tests.Lua
