import Verif.Model.Go
import Verif.Model.Packx
import Verif.Spec.Wire
import Verif.Spec.JSONLaw
import Verif.Lemmas.Wire
import Verif.Lemmas.Slices
import Verif.Lemmas.Frame
import Verif.Lemmas.Unpack
import Verif.Lemmas.Codec
import Verif.Lemmas.DemoCodec
import Verif.Props.Codec
import Verif.Model.Reader
import Verif.Spec.Stream
import Verif.Spec.Sent
import Verif.Lemmas.Reader
import Verif.Props.Reading
import Verif.Props.ReadingMore
import Verif.Model.Chain
import Verif.Lemmas.Chain
import Verif.Props.Chain
import Verif.Model.ChainReset
import Verif.Props.ChainReset
import Verif.Model.Mux
import Verif.Spec.Routing
import Verif.Lemmas.Mux
import Verif.Lemmas.Routing
import Verif.Lemmas.RoutingUrl
import Verif.Lemmas.Shift
import Verif.Props.Routing
import Verif.Model.ConnLoop
import Verif.Spec.Dispatch
import Verif.Lemmas.Pipe
import Verif.Lemmas.ConnLoop
import Verif.Props.Connection
import Verif.Model.Client
import Verif.Spec.Sending
import Verif.Lemmas.Client
import Verif.Props.Sending
import Verif.Props.Reply
import Verif.Model.Requests
import Verif.Spec.Requests
import Verif.Lemmas.Requests
import Verif.Props.Requests
import Verif.Model.Strings
import Verif.Spec.Strings
import Verif.Props.Strings
import Verif.Model.Lifecycle
import Verif.Spec.Lifecycle
import Verif.Props.Lifecycle
import Verif.Model.Pool
import Verif.Spec.Pool
import Verif.Lemmas.Pool
import Verif.Lemmas.PoolClose
import Verif.Lemmas.PoolAtomic
import Verif.Lemmas.PoolEntries
import Verif.Lemmas.PoolSweep
import Verif.Props.Pool
import Verif.Model.Watch
import Verif.Spec.Watch
import Verif.Lemmas.Watch
import Verif.Lemmas.WatchSignals
import Verif.Lemmas.WatchClose
import Verif.Lemmas.WatchBeats
import Verif.Lemmas.WatchLive
import Verif.Props.Watch
import Verif.Model.Timed
import Verif.Spec.Timed
import Verif.Lemmas.Timed
import Verif.Lemmas.TimedKeep
import Verif.Lemmas.TimedAuth
import Verif.Props.Timed
import Verif.Lemmas.TimedEnd
import Verif.Props.Ends
import Verif.Model.Exit
import Verif.Lemmas.Exit
import Verif.Props.Exit
import Verif.Model.Udp
import Verif.Spec.Udp
import Verif.Lemmas.Udp
import Verif.Props.Udp
import Verif.Model.Deadlines
import Verif.Spec.Deadlines
import Verif.Props.Deadlines
import Verif.Model.Raw
import Verif.Props.Raw
import Verif.Model.Control
import Verif.Spec.Control
import Verif.Lemmas.Control
import Verif.Props.Control
import Verif.Model.PackType
import Verif.Spec.EndToEnd
import Verif.Props.EndToEnd
import Verif.Spec.Reset
import Verif.Props.Reset
import Verif.Model.Locks
import Verif.Spec.Locks
import Verif.Lemmas.Locks
import Verif.Props.Locks
import Verif.Model.Race
import Verif.Spec.Race
import Verif.Lemmas.Race
import Verif.Props.Race
import Verif.Model.Alias
import Verif.Spec.Alias
import Verif.Lemmas.Alias
import Verif.Props.Alias
import Verif.Model.Python
import Verif.Props.Python
import Verif.Model.Callbacks
import Verif.Props.Callbacks
import Verif.Model.ChainTrace
import Verif.Lemmas.ChainTrace
import Verif.Props.ChainTrace
import Verif.Model.ConnRun
import Verif.Spec.ConnRun
import Verif.Lemmas.ConnRun
import Verif.Props.ConnRun
import Verif.Props.Ended
import Verif.Model.Serve
import Verif.Spec.Serve
import Verif.Lemmas.Serve
import Verif.Props.Serve
import Verif.Spec.Complete
import Verif.Lemmas.Complete
import Verif.Props.Complete
import Verif.Model.Chat
import Verif.Spec.Chat
import Verif.Lemmas.Chat
import Verif.Props.Chat
import Verif.Model.Login
import Verif.Lemmas.Guard
import Verif.Props.Guard
import Verif.Model.Where
import Verif.Spec.Where
import Verif.Lemmas.Where
import Verif.Props.Where
import Verif.Spec.Beat
import Verif.Lemmas.Beat
import Verif.Model.SayHello
import Verif.Props.Beat
import Verif.Spec.Keepup
import Verif.Lemmas.Keepup
import Verif.Props.Keepup
import Verif.Spec.Programs
import Verif.Model.Answer
import Verif.Spec.Answer
import Verif.Lemmas.Answer
import Verif.Props.Answer
import Verif.Model.Log
import Verif.Props.Log
import Verif.Model.AuthExample
import Verif.Lemmas.AuthExample
import Verif.Props.AuthExample
import Verif.Model.PackDetail
import Verif.Props.PackDetail
import Verif.Model.MyMarshal
import Verif.Props.MyMarshal
import Verif.Props.MyMarshalClient
import Verif.Model.Counter
import Verif.Model.CounterClient
import Verif.Props.Counter
import Verif.Props.CounterClient
import Verif.Spec.Kept
import Verif.Lemmas.Kept
import Verif.Lemmas.KeptHold
import Verif.Lemmas.KeptRun
import Verif.Lemmas.KeptCan
import Verif.Props.Kept
import Verif.Model.HeartbeatExample
import Verif.Props.HeartbeatExample
import Verif.Model.RawExample
import Verif.Props.RawExample
import Verif.Model.Graceful
import Verif.Spec.Graceful
import Verif.Lemmas.Graceful
import Verif.Lemmas.GracefulRun
import Verif.Lemmas.GracefulCtl
import Verif.Lemmas.GracefulStop
import Verif.Props.Graceful
import Verif.Model.Validate
import Verif.Props.Validate
import Verif.Model.Session
import Verif.Spec.Session
import Verif.Lemmas.Session
import Verif.Lemmas.SessionLoop
import Verif.Lemmas.SessionTime
import Verif.Lemmas.SessionTail
import Verif.Lemmas.SessionBeat
import Verif.Lemmas.SessionRun
import Verif.Lemmas.SessionCheck
import Verif.Lemmas.SessionHandled
import Verif.Props.Session
import Verif.Spec.Punctual
import Verif.Lemmas.Punctual
import Verif.Lemmas.SessionKeep
import Verif.Lemmas.SessionSettle
import Verif.Props.Punctual
import Verif.Model.ExampleClients
import Verif.Props.ExampleClients
import Verif.Props.ChatShown
import Verif.Model.Bytewise
import Verif.Spec.Bytewise
import Verif.Lemmas.Bytewise
import Verif.Lemmas.BytewiseTime
import Verif.Props.Bytewise
import Verif.Model.Register
import Verif.Spec.Register
import Verif.Spec.Period
import Verif.Lemmas.Register
import Verif.Lemmas.RegisterEnds
import Verif.Lemmas.RegisterAlone
import Verif.Lemmas.RegisterId
import Verif.Lemmas.RegisterGlob
import Verif.Lemmas.RegisterDisp
import Verif.Lemmas.RegisterMark
import Verif.Lemmas.RegisterHist
import Verif.Lemmas.RegisterUrl
import Verif.Lemmas.RegisterAnch
import Verif.Lemmas.RegisterUnUse
import Verif.Lemmas.RegisterCov
import Verif.Lemmas.RegisterLive
import Verif.Lemmas.RegisterOld
import Verif.Props.Register
import Verif.Props.RegisterUnUse
import Verif.Props.RegisterHb
import Verif.Model.OnlineOffline
import Verif.Lemmas.OnlineOffline
import Verif.Props.OnlineOffline
import Verif.Model.LoginClient
import Verif.Props.LoginClient
import Verif.Model.Hello
import Verif.Props.Hello
import Verif.Model.RawClient
import Verif.Props.RawClient
import Verif.Model.AuthClient
import Verif.Props.AuthClient
import Verif.Model.HeartbeatClient
import Verif.Props.HeartbeatClient
import Verif.Model.HelloWorld
import Verif.Props.HelloWorld
import Verif.Model.UdpAnswer
import Verif.Spec.UdpAnswer
import Verif.Props.UdpAnswer
import Verif.Model.TlsExample
import Verif.Props.TlsExample
import Verif.Props.Built
import Verif.Props.Cases
import Verif.Model.Unused
import Verif.Props.Unused
import Verif.Model.HelloOnMessage
import Verif.Props.HelloOnMessage
import Verif.Model.LoginServer
import Verif.Props.LoginServer
import Verif.Model.CounterSend
import Verif.Props.CounterSend
import Verif.Props.RouteType
