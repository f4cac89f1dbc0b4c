import Verif.Model.Str
import Verif.Model.Constants
import Verif.Model.Base64
import Verif.Model.Utf8
import Verif.Model.Quote
import Verif.Model.Num
import Verif.Model.Json
import Verif.Model.Labels
import Verif.Model.Kube
import Verif.Model.Page
import Verif.Model.Selector
import Verif.Props.Payload
import Verif.Props.JsonForm
import Verif.Props.ListOptions
import Verif.Props.SelectorText
import Verif.Props.Search
import Verif.Props.Clusters
import Verif.Model.Sort
import Verif.Model.Store
import Verif.Lemmas.Store
import Verif.Lemmas.Sort
import Verif.Lemmas.IndexJson
import Verif.Props.Store
import Verif.Props.Crash
import Verif.Props.Marks
import Verif.Props.Sort
import Verif.Model.Conc
import Verif.Model.Watcher
import Verif.Model.ObjType
import Verif.Props.Conc
import Verif.Props.Watcher
import Verif.Props.ObjType
import Verif.Model.Url
import Verif.Model.DeleteOpts
import Verif.Model.Proxy
import Verif.Lemmas.Url
import Verif.Lemmas.DeleteOpts
import Verif.Spec.Proxy
import Verif.Lemmas.Proxy
import Verif.Lemmas.ProxyList
import Verif.Props.Proxy
import Verif.Lemmas.Table
import Verif.Props.ProxyList
import Verif.Props.Table
import Verif.Model.Stream
import Verif.Props.Stream
import Verif.Model.Server
import Verif.Spec.Route
import Verif.Lemmas.Server
import Verif.Props.Server
import Verif.Model.Reload
import Verif.Props.Reload
import Verif.Model.Extend
import Verif.Spec.Deploy
import Verif.Lemmas.Extend
import Verif.Props.Extend
import Verif.Model.Fake
import Verif.Spec.Fake
import Verif.Lemmas.Fake
import Verif.Props.Fake
import Verif.Lemmas.Plain
import Verif.Model.Plugin
import Verif.Spec.Plugin
import Verif.Lemmas.Plugin
import Verif.Props.Plugin
import Verif.Model.Metrics
import Verif.Props.Metrics
import Verif.Props.Register
import Verif.Model.Fleet
import Verif.Spec.Fleet
import Verif.Lemmas.Fleet
import Verif.Props.Fleet
import Verif.Model.FakeServer
import Verif.Spec.FakeServer
import Verif.Lemmas.FakeServer
import Verif.Props.FakeServer
import Verif.Model.Upstream
import Verif.Spec.Upstream
import Verif.Lemmas.Upstream
import Verif.Props.Upstream
import Verif.Spec.EndToEnd
import Verif.Props.EndToEnd
import Verif.Model.Index
import Verif.Spec.Index
import Verif.Lemmas.Index
import Verif.Lemmas.LabelIndex
import Verif.Props.Index
import Verif.Spec.Envelope
import Verif.Props.Envelope
import Verif.Props.Http
import Verif.Props.Forwarded
import Verif.Model.Template
import Verif.Spec.Template
import Verif.Lemmas.Template
import Verif.Lemmas.TemplateRun
import Verif.Props.Template
import Verif.Model.Wire
import Verif.Props.Wire
import Verif.Spec.Informer
import Verif.Props.Informer
import Verif.Model.ConfigFile
import Verif.Spec.ConfigFile
import Verif.Props.ConfigFile
import Verif.Model.Header
import Verif.Props.Header
import Verif.Props.Federation
import Verif.Spec.Streamed
import Verif.Props.Streamed
import Verif.Props.Limit
import Verif.Model.FakeSession
import Verif.Spec.FakeSession
import Verif.Props.FakeSession
import Verif.Props.FakeReal
import Verif.Model.AccessLog
import Verif.Props.AccessLog
import Verif.Model.Flags
import Verif.Spec.Flags
import Verif.Lemmas.Flags
import Verif.Props.Flags
import Verif.Model.FakeConc
import Verif.Spec.FakeConc
import Verif.Lemmas.FakeConc
import Verif.Props.FakeConc
import Verif.Model.GoSort
import Verif.Lemmas.GoSort
import Verif.Lemmas.GoSortRun
import Verif.Lemmas.GoSortSorted
import Verif.Lemmas.GoSortPdq
import Verif.Lemmas.GoSortTouch
import Verif.Lemmas.GoSortShort
import Verif.Lemmas.GoSortStable
import Verif.Props.GoSort
import Verif.Model.Client
import Verif.Props.Programs
import Verif.Spec.World
import Verif.Lemmas.World
import Verif.Lemmas.WorldSched
import Verif.Props.World
import Verif.Spec.Drain
import Verif.Lemmas.Drain
import Verif.Props.Drain
import Verif.Model.Nginx
import Verif.Spec.Nginx
import Verif.Lemmas.Nginx
import Verif.Props.Nginx
import Verif.Lemmas.TemplateTrim
import Verif.Lemmas.GenSched
import Verif.Props.Generations
import Verif.Model.FakeStart
import Verif.Spec.FakeStart
import Verif.Lemmas.FakeStart
import Verif.Props.FakeStart
import Verif.Model.Entrypoint
import Verif.Spec.Entrypoint
import Verif.Lemmas.Entrypoint
import Verif.Props.Entrypoint
import Verif.Lemmas.Substring
import Verif.Props.Substring
import Verif.Lemmas.SelChars
import Verif.Lemmas.Restrict
import Verif.Model.Float
import Verif.Lemmas.Float
import Verif.Spec.Decimal
import Verif.Lemmas.Decimal
import Verif.Lemmas.FloatText
import Verif.Props.Float
import Verif.Spec.JsonText
import Verif.Lemmas.JsonText
import Verif.Spec.PageText
import Verif.Props.JsonText
import Verif.Model.ParseFloat
import Verif.Spec.Numeral
import Verif.Lemmas.Numeral
import Verif.Lemmas.NumeralSep
import Verif.Lemmas.Double
import Verif.Lemmas.NumeralRead
import Verif.Props.Numeral
import Verif.Model.KubeConfig
import Verif.Spec.KubeConfig
import Verif.Lemmas.JsonPrefix
import Verif.Props.KubeConfig
import Verif.Spec.Snapshots
import Verif.Lemmas.Snapshots
import Verif.Props.Snapshots
import Verif.Spec.TemplateTree
import Verif.Lemmas.TemplateTree
import Verif.Props.TemplateTree
import Verif.Spec.DeleteBody
import Verif.Lemmas.DeleteBody
import Verif.Props.DeleteBody
import Verif.Spec.QueryText
import Verif.Props.QueryText
import Verif.Spec.SelectorGrammar
import Verif.Lemmas.SelectorGrammar
import Verif.Lemmas.SelectorInv
import Verif.Props.SelectorGrammar
import Verif.Model.Scheme
import Verif.Props.Scheme
import Verif.Model.WatchLife
import Verif.Props.WatchLife
import Verif.Spec.Twins
import Verif.Lemmas.Twins
import Verif.Props.Twins
import Verif.Model.WatchReq
import Verif.Props.WatchReq
import Verif.Spec.SearchText
import Verif.Spec.SortText
import Verif.Lemmas.SearchText
import Verif.Lemmas.SortText
import Verif.Props.SearchText
import Verif.Props.SortText
import Verif.Props.SearchProgram
import Verif.Lemmas.SearchSelect
import Verif.Props.SortProgram
import Verif.Model.WatchClock
import Verif.Spec.WatchClock
import Verif.Lemmas.WatchClock
import Verif.Props.WatchClock
import Verif.Props.WatchStale
import Verif.Model.UrlPath
import Verif.Spec.UrlPath
import Verif.Props.UrlPath
import Verif.Model.Throttle
import Verif.Spec.Throttle
import Verif.Lemmas.Throttle
import Verif.Props.Throttle
import Verif.Props.SortSettled
import Verif.Lemmas.FileIndexes
import Verif.Props.FileIndexes
import Verif.Model.Retry
import Verif.Spec.Retry
import Verif.Lemmas.Retry
import Verif.Props.Retry
import Verif.Props.IndexFloat
import Verif.Props.IndexEmpty
