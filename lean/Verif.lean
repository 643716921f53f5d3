import Verif.Prio
import Verif.Heap
import Verif.Model
import Verif.QueueB
import Verif.Cons
import Verif.Kind
import Verif.Kind2
import Verif.RespInv
import Verif.Once
import Verif.Join
import Verif.Idle
import Verif.Bcast
import Verif.PropsRecv
import Verif.Wake2
import Verif.PropsPark
import Verif.PropsIdle
import Verif.PropsJoin
import Verif.Clear
import Verif.PropsLost
import Verif.PropsDrain
import Verif.PropsStop
import Verif.PropsLen
import Verif.PropsFifo
import Verif.Address
import Verif.Derive
import Verif.Scoped
import Verif.Loop
import Verif.PropsLoop
import Verif.Sink
import Verif.Reentrant
import Verif.Multi
import Verif.PropsTerm
import Verif.PropsLeak
import Verif.Weak
import Verif.WeakMsg
import Verif.Span
import Verif.Starve
import Verif.Free
import Verif.Why
import Verif.Pool
import Verif.PoolOwn
import Verif.PropsPool
import Verif.PoolRun
import Verif.PropsAbort
import Verif.Rest
import Verif.PropsRest
import Verif.PropsBcast
import Verif.PropsAwait
import Verif.PropsHang
import Verif.Net
import Verif.PropsNet
import Verif.PropsMutual
import Verif.NetRun
import Verif.MutualRun
import Verif.WhyErr
import Verif.Grace
import Verif.GraceB
import Verif.PropsGrace
import Verif.StopAll
import Verif.PropsStopAll
import Verif.PropsYield
import Verif.Poison
import Verif.PropsPoison
import Verif.PropsOver
import Verif.Fuse
import Verif.PropsFuse
import Verif.Local
import Verif.PropsLocal
import Verif.Ideal
import Verif.IdealAbs
import Verif.IdealParts
import Verif.IdealSim
import Verif.IdealSim2
import Verif.IdealSim3
import Verif.IdealSim4
import Verif.IdealProps
import Verif.IdealOnce
import Verif.PropsIdeal
import Verif.IdealLife
import Verif.PropsLife
import Verif.Conform
import Verif.PropsInspect
import Verif.PropsAgree
import Verif.PropsPrio
import Verif.PropsConc
import Verif.PropsConc2
import Verif.PropsConc3
import Verif.PropsConc4
import Verif.PropsCause
import Verif.PropsLate
import Verif.PropsOrigin
import Verif.PropsWoken
import Verif.Hush
import Verif.PropsHush
import Verif.Slow
import Verif.PropsSlow
import Verif.Causal
import Verif.PropsCausal
import Verif.PropsSpawn
import Verif.Counter
import Verif.PropsCounter
import Verif.PropsRoom
import Verif.Extra
import Verif.PropsExtra
import Verif.More
import Verif.PropsMore
import Verif.Ask
import Verif.PropsAsk
