import Verif.Py.Basic
import Verif.Py.DictLemmas
import Verif.Queue.Model
import Verif.Queue.Spec
import Verif.Queue.Lemmas
import Verif.Queue.Refine
import Verif.Queue.Restart
import Verif.Queue.Observe
import Verif.Queue.Reach
import Verif.Queue.Props
import Verif.Span.Model
import Verif.Span.Lemmas
import Verif.Span.Props
import Verif.Pending.Model
import Verif.Pending.Observe
import Verif.Pending.Lemmas
import Verif.Pending.Props
import Verif.Buffered.Model
import Verif.Buffered.Spec
import Verif.Buffered.Abstract
import Verif.Buffered.Invariants
import Verif.Buffered.Steps
import Verif.Buffered.Awake
import Verif.Buffered.Props
import Verif.Buffered.DrainSpec
import Verif.Buffered.Drain
import Verif.Buffered.DrainProps
import Verif.Lru.Props
import Verif.Server.Props
import Verif.Server.Examples
import Verif.Stream.Props
import Verif.Client.Props
import Verif.Errors.Props
import Verif.Stats.Props
import Verif.Stats.NeverRaises
import Verif.Stats.Percentiles
import Verif.Config.Props
import Verif.Config.Names
import Verif.Lock.Props
import Verif.Logs.Props
import Verif.Shipper.Props
import Verif.Prom.Props
import Verif.Scrape.Props
import Verif.Cli.Props
import Verif.Wire.Props
import Verif.Traces.Props
import Verif.Envelope.Props
import Verif.Life.Props
import Verif.Delivery.Props
import Verif.Tasks.Props
import Verif.Chain.Props
import Verif.Wiring.Props
import Verif.Hooks.Props
import Verif.Cli.LogToolProps
import Verif.Stats.FlattenProps
import Verif.Address.Props
import Verif.Cli.HelpProps
import Verif.Cli.ScreenProps
import Verif.Telemetry.Props
import Verif.Address.UrlProps
import Verif.Fun.Props
import Verif.Fun.RouterProps
import Verif.Fun.GamesProps
import Verif.Pace.Props
import Verif.Link.Props
import Verif.Transient.Props
import Verif.Datagram.Props
import Verif.Counted.Props
import Verif.Grammar.Props
import Verif.Startup.Props
import Verif.Args.ToolProps
import Verif.Queue.Memory
import Verif.Queue.Zero
import Verif.Place.Props
import Verif.Long.Props
import Verif.Gather.Props
import Verif.Serve.Props
import Verif.Size.Props
import Verif.Listen.Props
import Verif.Stream.Acted
import Verif.Batches.Props
import Verif.Over.Props
import Verif.Poll.Props
import Verif.Wait.Props
import Verif.Wait.Stream
import Verif.Poll.Udp
