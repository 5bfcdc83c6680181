import Verif.Props.Route
import Verif.Props.Retain
import Verif.Props.Pending
import Verif.Props.Acks
import Verif.Props.Alias
import Verif.Props.Fanout
import Verif.Props.Deliver
import Verif.Props.Subscribe
import Verif.Props.KeepAlive
import Verif.Props.Write
import Verif.Props.Transfer
import Verif.Props.Proxy
import Verif.Props.Auth
import Verif.Props.WebSocket
import Verif.Props.Scram
import Verif.Props.Publish
import Verif.Props.Registry
import Verif.Props.Owner
import Verif.Props.Timers
import Verif.Props.Will
import Verif.Props.Agree
import Verif.Props.EndToEnd
import Verif.Props.Life
import Verif.Proof.ConnAck
import Verif.Props.Connect
import Verif.Props.ConnAck
import Verif.Props.Session
import Verif.Props.Resume
import Verif.Spec.Resend
import Verif.Props.Resend
import Verif.Props.Hook
import Verif.Props.Size
import Verif.Spec.Ending
import Verif.Props.Ending
import Verif.Spec.Room
import Verif.Proof.WorldRoom
import Verif.Props.Room
import Verif.Spec.Panic
import Verif.Proof.RoutePlain
import Verif.Proof.WorldToken
import Verif.Props.Panic
import Verif.Spec.Origin
import Verif.Proof.Origin
import Verif.Props.Origin
import Verif.Spec.Params
import Verif.Proof.Params
import Verif.Props.Params
import Verif.Model.OnlineLoop
import Verif.Spec.OnlineLoop
import Verif.Proof.HookStep
import Verif.Proof.OnlineLoop
import Verif.Proof.OnlinePoll
import Verif.Proof.OnlineRun
import Verif.Proof.OnlineSession
import Verif.Proof.OnlineBound
import Verif.Proof.OnlineTaken
import Verif.Proof.OnlineClose
import Verif.Props.OnlineLoop
import Verif.Model.RouteHeap
import Verif.Proof.RouteHeap
import Verif.Proof.RouteHeapTable
import Verif.Spec.RouteRace
import Verif.Proof.RouteRace
import Verif.Props.RouteRace
import Verif.Model.TableRace
import Verif.Spec.TableRace
import Verif.Proof.TableRace
import Verif.Props.TableRace
import Verif.Spec.Return
import Verif.Proof.Return
import Verif.Props.Return
import Verif.Model.Accept
import Verif.Spec.Accept
import Verif.Proof.Accept
import Verif.Props.Accept
import Verif.Model.Watch
import Verif.Spec.Watch
import Verif.Proof.Watch
import Verif.Proof.WatchInv
import Verif.Props.Watch
import Verif.Model.ConnHook
import Verif.Spec.ConnHook
import Verif.Proof.ConnHook
import Verif.Proof.ConnHookInv
import Verif.Proof.ConnHookGate
import Verif.Proof.ConnHookEnd
import Verif.Props.ConnHook
import Verif.Props.Start
import Verif.Spec.Slow
import Verif.Proof.Slow
import Verif.Proof.SlowLoop
import Verif.Props.Slow
import Verif.Spec.Told
import Verif.Proof.Told
import Verif.Props.Told
import Verif.Proof.Announced
import Verif.Props.Announced
import Verif.Proof.OrderV5
import Verif.Props.OrderV5
import Verif.Spec.Selective
import Verif.Proof.Selective
import Verif.Props.Selective
import Verif.Spec.Rest
import Verif.Proof.Rest
import Verif.Props.Rest
import Verif.Spec.Talk
import Verif.Proof.Talk
import Verif.Props.Talk
import Verif.Spec.Expiry
import Verif.Props.Expiry
import Verif.Spec.Once
import Verif.Proof.Once
import Verif.Proof.OnceInv
import Verif.Proof.OnceOps
import Verif.Proof.OnceRun
import Verif.Proof.OnceEnd
import Verif.Props.Once
import Verif.Spec.Publisher
import Verif.Proof.PubReads
import Verif.Proof.PubLine
import Verif.Proof.PubInv
import Verif.Proof.PubRun
import Verif.Proof.PubStuck
import Verif.Props.Publisher
import Verif.Spec.Granted
import Verif.Proof.Granted
import Verif.Proof.GrantedFlow
import Verif.Props.Granted
import Verif.Spec.Leftover
import Verif.Proof.Leftover
import Verif.Props.Leftover
import Verif.Spec.SharedOnce
import Verif.Proof.SharedOnce
import Verif.Proof.Sticky
import Verif.Proof.Returns
import Verif.Props.SharedOnce
import Verif.Props.Sticky
import Verif.Model.Metrics
import Verif.Spec.Metrics
import Verif.Proof.Metrics
import Verif.Props.Metrics
import Verif.Model.HookConnect
import Verif.Props.HookConnect
import Verif.Model.DefaultHook
import Verif.Props.DefaultHook
import Verif.Props.Dropped
import Verif.Props.Pile
import Verif.Model.Defaults
import Verif.Props.Defaults
