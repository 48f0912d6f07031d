import Verif.Base
import Verif.Host.Model
import Verif.Date.Model
import Verif.Date.Spec
import Verif.Date.Lemmas
import Verif.Date.Props
import Verif.Time.Model
import Verif.Time.Lemmas
import Verif.Time.Spec
import Verif.Time.Props
import Verif.Time.Parse
import Verif.Time.ParseProps
import Verif.Text
import Verif.Value.F64
import Verif.Value.Model
import Verif.Value.Lemmas
import Verif.Value.Arith
import Verif.Value.Dec
import Verif.Value.ArithProps
import Verif.Value.ConvProps
import Verif.Value.Spec
import Verif.Value.OrderLemmas
import Verif.Value.OrderProps
import Verif.Value.EqLemmas
import Verif.Value.Graph
import Verif.Value.EqProps
import Verif.Value.EqFloatProps
import Verif.Value.DataSet
import Verif.Value.GraphSpec
import Verif.Value.GraphProps
import Verif.Cache.Model
import Verif.Cache.Spec
import Verif.Cache.Lemmas
import Verif.Cache.Props
import Verif.Cord.Model
import Verif.Cord.Spec
import Verif.Cord.Lemmas
import Verif.Cord.Props
import Verif.Cord.Typed
import Verif.Status.Model
import Verif.Status.Spec
import Verif.Status.Props
import Verif.Status.TextProps
import Verif.Exec
import Verif.Reservoir.Model
import Verif.Reservoir.Spec
import Verif.Reservoir.Props
import Verif.Latch.Model
import Verif.Latch.Spec
import Verif.Latch.Props
import Verif.Collect.Model
import Verif.Collect.Props
import Verif.Worker.Model
import Verif.Worker.Spec
import Verif.Worker.Props
import Verif.Worker.Timers
import Verif.Worker.Pool
import Verif.Duration.Model
import Verif.Duration.Props
import Verif.Part.Model
import Verif.Part.Spec
import Verif.Part.Props
import Verif.Wire.Compact
import Verif.Wire.Ops
import Verif.Wire.Spec
import Verif.Wire.Lemmas
import Verif.Wire.Skip
import Verif.Wire.Props
import Verif.Wire.RepeatProps
import Verif.Wire.Response
import Verif.Wire.ResponseSpec
import Verif.Wire.Fields
import Verif.Wire.ResponseLemmas
import Verif.Wire.ResponseTrunc
import Verif.Wire.ResponseProps
import Verif.Wire.AnswerForward
import Verif.Wire.GatewayProps
import Verif.Wire.CompareProps
import Verif.Wire.OrderProps
import Verif.Expr.RemoteProps
import Verif.Expr.RemoteEqual
import Verif.Wire.NamedFits
import Verif.Wire.NamedAnswerFits
import Verif.Wire.Stable
import Verif.Wire.TruncProps
import Verif.Wire.ReadFits
import Verif.Wire.ForwardProps
import Verif.Expr.Ast
import Verif.Expr.Codec
import Verif.Expr.CodecSpec
import Verif.Expr.CodecLemmas
import Verif.Expr.DecodeLemmas
import Verif.Expr.CodecProps
import Verif.Expr.WritableProps
import Verif.Agg.Model
import Verif.Expr.Ops
import Verif.Expr.Eval
import Verif.Expr.EvalSpec
import Verif.Expr.OpsProps
import Verif.Expr.EvalProps
import Verif.Expr.BuildProps
import Verif.Expr.FrameSpec
import Verif.Expr.Frame
import Verif.Agg.Spec
import Verif.Agg.Props
import Verif.Agg.Std
import Verif.Agg.Error
import Verif.Agg.StdError
import Verif.Agg.RemoteProps
import Verif.Func.RemoteProps
import Verif.Map
import Verif.Meta.Cache
import Verif.Meta.CacheSpec
import Verif.Meta.CacheProps
import Verif.Meta.ListenerProps
import Verif.Meta.Leader
import Verif.Meta.LeaderSpec
import Verif.Meta.LeaderProps
import Verif.Storage.Cluster
import Verif.Storage.ClusterSpec
import Verif.Storage.ClusterProps
import Verif.Storage.Collect
import Verif.Storage.CollectSpec
import Verif.Storage.CollectProps
import Verif.Storage.Client
import Verif.Storage.ClientProps
import Verif.Net.Model
import Verif.Net.Spec
import Verif.Net.Props
import Verif.Net.ReprintProps
import Verif.FullText.Model
import Verif.FullText.Spec
import Verif.FullText.Props
import Verif.Web.Router
import Verif.Web.RouterSpec
import Verif.Web.RouterProps
import Verif.Stats.Model
import Verif.Stats.Spec
import Verif.Stats.Props
import Verif.Fs.Path
import Verif.Fs.PathSpec
import Verif.Fs.PathProps
import Verif.Fs.Dir
import Verif.Fs.DirProps
import Verif.Fs.Remove
import Verif.Fs.RemoveProps
import Verif.Fs.Lines
import Verif.Fs.LinesProps
import Verif.Fs.ClusterId
import Verif.Fs.ClusterIdProps
import Verif.Meta.Schema
import Verif.Meta.SchemaProps
import Verif.Meta.SchemaIter
import Verif.Meta.SchemaIterProps
import Verif.Meta.LoadSchemas
import Verif.Meta.LoadSchemasProps
import Verif.Meta.Retry
import Verif.Meta.RetryProps
import Verif.Meta.Config
import Verif.Meta.ConfigProps
import Verif.Meta.LoadData
import Verif.Meta.LoadDataProps
import Verif.Meta.Refresh
import Verif.Meta.RefreshProps
import Verif.Func.Text
import Verif.Func.Model
import Verif.Func.Spec
import Verif.Func.Props
import Verif.Func.TypeProps
import Verif.Func.PureProps
import Verif.Func.TextProps
import Verif.Func.ListProps
import Verif.Func.NumProps
import Verif.Func.DateProps
import Verif.Expr.Compare
import Verif.Expr.CompareSpec
import Verif.Expr.CompareProps
import Verif.Json.Model
import Verif.Json.Spec
import Verif.Json.Lemmas
import Verif.Conf.Model
import Verif.Conf.Spec
import Verif.Conf.Props
import Verif.Conf.LinesProps
import Verif.Conf.TextProps
import Verif.Conf.RereadProps
import Verif.Conf.Flags
import Verif.Conf.FlagsSpec
import Verif.Conf.FlagsProps
import Verif.Web.Handlers
import Verif.Web.HandlersSpec
import Verif.Web.HandlersProps
import Verif.FullText.JsonProps
import Verif.Meta.Users
import Verif.Meta.UsersSpec
import Verif.Meta.UsersProps
import Verif.Meta.Ready
import Verif.Meta.ReadyProps
import Verif.Meta.Heartbeat
import Verif.Meta.HeartbeatProps
import Verif.Meta.Manager
import Verif.Meta.ManagerSpec
import Verif.Meta.ManagerProps
import Verif.Meta.FtIndex
import Verif.Meta.FtIndexProps
import Verif.Process.Model
import Verif.Process.Props
import Verif.Http.Model
import Verif.Http.Props
import Verif.Thrift.Model
import Verif.Thrift.Props
import Verif.Signal.Model
import Verif.Signal.Props
import Verif.Pool.Model
import Verif.Pool.Props
import Verif.Net.Ports
import Verif.Net.PortsProps
import Verif.Base.Hex
import Verif.Base.HexProps
import Verif.Value.Rounding
import Verif.Value.RoundSpec
import Verif.Value.RoundProps
import Verif.Duration.Tsc
import Verif.Duration.TscProps
import Verif.Value.Text
import Verif.Value.TextProps
import Verif.Expr.Text
import Verif.Expr.TextSpec
import Verif.Expr.TextRead
import Verif.Expr.TextLemmas
import Verif.Expr.TextProps
import Verif.Expr.SearchText
import Verif.Expr.ForwardProps
import Verif.Func.NullProps
import Verif.Expr.FoldProps
import Verif.Meta.KvProps
import Verif.Meta.RemoteProps
import Verif.Http.DispatchProps
import Verif.Storage.KvProps
import Verif.Value.MemProps
import Verif.Fs.ListingProps
import Verif.Meta.AdminProps
import Verif.Web.ServiceProps
import Verif.Web.Life
import Verif.Web.LifeSpec
import Verif.Web.LifeProps
import Verif.Web.Race
import Verif.Web.RaceSpec
import Verif.Web.RaceProps
import Verif.Session.Model
import Verif.Session.Props
import Verif.Wire.SizeProps
import Verif.Wire.Named
import Verif.Wire.NamedSpec
import Verif.Wire.NamedLemmas
import Verif.Wire.NamedOrder
import Verif.Wire.NamedIdl
import Verif.Wire.NamedProps
import Verif.Storage.RequestsProps
import Verif.Meta.SharedProps
import Verif.Locks.ObjectsProps
import Verif.Worker.Life
import Verif.Worker.LifeProps
import Verif.Worker.Future
import Verif.Time.ZoneProps
import Verif.Base.Charset
import Verif.Fs.Temp
import Verif.Base.Memory
import Verif.Process.Daemon
import Verif.Fs.Stat
import Verif.Expr.Refs
import Verif.Expr.RefsProps
import Verif.Expr.Objects
import Verif.Expr.ObjectsProps
import Verif.Logging.Model
import Verif.Logging.Props
import Verif.Regex.Props
import Verif.Regex.Laws
import Verif.Regex.Routes
import Verif.Regex.RoutesProps
import Verif.Regex.RouteGroups
import Verif.Regex.UsesConf
import Verif.Names.Props
import Verif.Outlive.Props
import Verif.Thrift.LifeProps
import Verif.FullText.Run
import Verif.FullText.Engine
import Verif.FullText.RunProps
import Verif.FullText.EngineSample
