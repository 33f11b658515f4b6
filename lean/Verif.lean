import Verif.Mpsc.Props
import Verif.Unbounded.Props
import Verif.Future.Props
import Verif.Chain.Props
import Verif.Wire.Props
import Verif.Msg.Props
import Verif.AddressBook.Props
import Verif.DisMutex.Props
import Verif.Actor.Props
import Verif.Actor.ExitProps
import Verif.Reenter.Props
import Verif.Timer.Props
import Verif.CallTree.Props
import Verif.CallTree.WaitProps
import Verif.System.Props
import Verif.Register.Props
import Verif.PubSub.Props
import Verif.Grpc.Props
import Verif.Cron.Props
import Verif.Errcode.Props
import Verif.Versions.Props
import Verif.Token.Props
import Verif.Reporter.Props
import Verif.Builder.Props
import Verif.TickTask.Props
import Verif.TickTask.DiscProps
import Verif.TickTask.RoundProps
import Verif.TickTask.ServiceProps
import Verif.WaitGroup.Props
import Verif.Shutdown.Props
import Verif.Events.Props
import Verif.TopicOpts.Props
import Verif.Context.Props
import Verif.Redis.Props
import Verif.Files.Props
import Verif.Mgo.Props
import Verif.Names.Props
import Verif.LogLib.Props
import Verif.Custom.Props
import Verif.Span.Props
import Verif.Tcc.Props
import Verif.Loader.Props
import Verif.Logger.Props
import Verif.Server.Props
import Verif.Tracing.Props
import Verif.Reuse.Props
import Verif.Maps.Props
import Verif.NodeOpts.Props
import Verif.Payload.Props
import Verif.Book.Props
import Verif.TopicLife.Props
import Verif.RedisOps.Props
import Verif.Share.EventProps
import Verif.Share.Props
import Verif.Race.QueueProps
import Verif.Race.TickProps
import Verif.TickTask.LeakProps
import Verif.TopicLife.OrderProps
import Verif.Fail.Props
import Verif.Panic.Props
import Verif.Timer.LeakProps
import Verif.Live.Props
import Verif.Wire.Grammar
import Verif.Wire.Accept
import Verif.Wire.AcceptLoop
import Verif.Wire.AcceptSwitch
import Verif.Wire.Normal
import Verif.Wire.Unique
import Verif.Wire.PropsAccept
import Verif.Live.SpecGone
import Verif.Live.Gone
import Verif.Live.Away
import Verif.Live.After
import Verif.Live.Orphan
import Verif.Live.PropsGone
import Verif.Register.SpecBound
import Verif.Register.Bound
import Verif.Register.BoundLive
import Verif.Register.PropsBound
import Verif.PubSub.SpecLost
import Verif.PubSub.Lost
import Verif.PubSub.PropsLost
import Verif.TopicLife.PropsEnd
import Verif.Timer.PropsReturn
import Verif.Grpc.Bound
import Verif.Grpc.PropsBound
import Verif.AddressBook.PropsSelect
import Verif.Race.Timer
import Verif.Race.TimerSpec
import Verif.Race.TimerLemmas
import Verif.Race.TimerProps
import Verif.Race.Wrap
import Verif.Race.WrapProps
import Verif.Register.PropsLeak
import Verif.Trace.Props
import Verif.Reenter.TimedProps
import Verif.Grpc.PropsOptions
import Verif.Reenter.PropsAttach
import Verif.Register.PropsAgain
import Verif.TopicLife.PropsReturn
import Verif.Reporter.PropsSender
import Verif.PubSub.PropsClosed
import Verif.Race.LockedProps
import Verif.Wire.PropsMock
import Verif.CallTree.LifeProps
import Verif.AddressBook.PropsBounded
import Verif.Wire.PropsXxx
import Verif.Mpsc.PropsKeep
import Verif.Unbounded.PropsArray
import Verif.Context.PropsKeep
import Verif.Mpsc.PropsWrap
import Verif.Where.Props
import Verif.System.PropsHops
import Verif.Accept.Props
import Verif.SLog.Props
import Verif.System.PropsClean
import Verif.Grpc.PropsClose
import Verif.Server.PropsExact
import Verif.Server.PropsCalls
import Verif.CallTree.PropsPath
import Verif.PubSub.PropsOften
import Verif.AddressBook.PropsClear
import Verif.Mpsc.PropsBlame
import Verif.Timer.PropsExact
import Verif.AddressBook.PropsRetry
import Verif.AddressBook.PropsMany
import Verif.Future.PropsChain
import Verif.TickTask.PropsServiceExact
import Verif.Events.PropsExact
import Verif.LogLib.PropsExact
import Verif.Names.PropsExact
import Verif.Tcc.PropsExact
import Verif.Custom.PropsExact
import Verif.Mgo.PropsExact
import Verif.Span.PropsExact
import Verif.Context.PropsExact
import Verif.Msg.PropsExact
import Verif.Redis.PropsExact
import Verif.AddressBook.PropsWildExact
import Verif.PubSub.PropsPubExact
import Verif.Loader.PropsExact
import Verif.Loader.PropsPanic
import Verif.Redis.PropsLast
import Verif.AddressBook.PropsLowExact
import Verif.System.PropsPrev
import Verif.System.PropsIds
import Verif.Audit
