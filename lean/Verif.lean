import Verif.Base.Net
import Verif.Base.Outcome
import Verif.Base.Prog
import Verif.Lemmas.Double
import Verif.Lemmas.Ieee
import Verif.Lemmas.Invert
import Verif.Lemmas.Link
import Verif.Lemmas.Reader
import Verif.Lemmas.Wire
import Verif.Model.Accessors
import Verif.Model.Alloc
import Verif.Model.AllocLog
import Verif.Model.AllocManager
import Verif.Model.AllocObjects
import Verif.Model.BrokenPipe
import Verif.Model.Buffer
import Verif.Model.Cip
import Verif.Model.ConnManager
import Verif.Model.ConnParams
import Verif.Model.Connect
import Verif.Model.Copies
import Verif.Model.DataThreads
import Verif.Model.Descriptors
import Verif.Model.Double
import Verif.Model.Eip
import Verif.Model.EndPoint
import Verif.Model.Examples
import Verif.Model.ExamplesMore
import Verif.Model.FaultTable
import Verif.Model.File
import Verif.Model.FileLog
import Verif.Model.FileReentrant
import Verif.Model.HandleTime
import Verif.Model.HostOrder
import Verif.Model.Identity
import Verif.Model.Ieee
import Verif.Model.Inet
import Verif.Model.IoConn
import Verif.Model.Link
import Verif.Model.LiveConn
import Verif.Model.Log
import Verif.Model.LogSockets
import Verif.Model.LogText
import Verif.Model.LogThreads
import Verif.Model.ManagerLog
import Verif.Model.ManagerThreads
import Verif.Model.ManagerWire
import Verif.Model.Network
import Verif.Model.OpenThreads
import Verif.Model.Parameter
import Verif.Model.PowerFlex
import Verif.Model.Process
import Verif.Model.RecvTime
import Verif.Model.Reentrant
import Verif.Model.SessionAssign
import Verif.Model.SessionCopies
import Verif.Model.Tcp
import Verif.Model.TcpTime
import Verif.Model.Threads
import Verif.Model.UdpUser
import Verif.Model.Windows
import Verif.Model.Yaskawa
import Verif.Props.Accessors
import Verif.Props.Agreement
import Verif.Props.AgreementSample
import Verif.Props.Alloc
import Verif.Props.AllocLog
import Verif.Props.AllocManager
import Verif.Props.AllocObjects
import Verif.Props.Bounds
import Verif.Props.BrokenPipe
import Verif.Props.Buffer
import Verif.Props.CommonPacket
import Verif.Props.Compare
import Verif.Props.ComparePackets
import Verif.Props.ConnParams
import Verif.Props.Connect
import Verif.Props.Copies
import Verif.Props.DataThreads
import Verif.Props.Defined
import Verif.Props.DescriptorLimit
import Verif.Props.DescriptorSample
import Verif.Props.Descriptors
import Verif.Props.Discovery
import Verif.Props.DiscoveryFd
import Verif.Props.Double
import Verif.Props.EPath
import Verif.Props.Encaps
import Verif.Props.EndToEnd
import Verif.Props.ExamplesImplicit
import Verif.Props.ExamplesLink
import Verif.Props.ExamplesMore
import Verif.Props.ExamplesParam
import Verif.Props.ExamplesSample
import Verif.Props.File
import Verif.Props.FileLog
import Verif.Props.FileReentrant
import Verif.Props.FileSync
import Verif.Props.Freshness
import Verif.Props.HandleTime
import Verif.Props.HostOrder
import Verif.Props.Identity
import Verif.Props.Ieee
import Verif.Props.IeeeDrive
import Verif.Props.IeeeReal
import Verif.Props.Inet
import Verif.Props.IoConn
import Verif.Props.IoTrace
import Verif.Props.LateReply
import Verif.Props.LateReplySample
import Verif.Props.LiveConn
import Verif.Props.Liveness
import Verif.Props.LivenessSample
import Verif.Props.Log
import Verif.Props.LogSockets
import Verif.Props.LogText
import Verif.Props.LogThreads
import Verif.Props.ManagerConn
import Verif.Props.ManagerCore
import Verif.Props.ManagerLog
import Verif.Props.ManagerOpen
import Verif.Props.ManagerRecv
import Verif.Props.ManagerSample
import Verif.Props.ManagerTable
import Verif.Props.ManagerThreads
import Verif.Props.ManagerTime
import Verif.Props.ManagerTimeSample
import Verif.Props.ManagerWait
import Verif.Props.ManagerWire
import Verif.Props.ManagerWireSample
import Verif.Props.Network
import Verif.Props.ObjectEnds
import Verif.Props.ObjectTime
import Verif.Props.OpenThreads
import Verif.Props.Parameter
import Verif.Props.PowerFlex
import Verif.Props.Process
import Verif.Props.ProcessNumbers
import Verif.Props.ProcessOrder
import Verif.Props.ProcessOrderSample
import Verif.Props.ProcessSample
import Verif.Props.Reentrant
import Verif.Props.ReentrantRecv
import Verif.Props.ReentrantRun
import Verif.Props.ReentrantSafe
import Verif.Props.ReentrantSample
import Verif.Props.ReentrantThms
import Verif.Props.RequestTime
import Verif.Props.RequestTimeSample
import Verif.Props.Router
import Verif.Props.RouterIo
import Verif.Props.Scaling
import Verif.Props.Session
import Verif.Props.SessionAssign
import Verif.Props.SessionCopies
import Verif.Props.Tcp
import Verif.Props.TcpTime
import Verif.Props.Threads
import Verif.Props.ThreadsLate
import Verif.Props.ThreadsManager
import Verif.Props.ThreadsSample
import Verif.Props.Throwing
import Verif.Props.ThrowingSample
import Verif.Props.UdpUser
import Verif.Props.Windows
import Verif.Props.Yaskawa
import Verif.Spec.Accessors
import Verif.Spec.Alloc
import Verif.Spec.AllocLog
import Verif.Spec.AllocManager
import Verif.Spec.AllocObjects
import Verif.Spec.Arrivals
import Verif.Spec.Bounds
import Verif.Spec.BrokenPipe
import Verif.Spec.Cip
import Verif.Spec.ConnMgr
import Verif.Spec.Connect
import Verif.Spec.Copies
import Verif.Spec.DataThreads
import Verif.Spec.Defined
import Verif.Spec.Descriptors
import Verif.Spec.Double
import Verif.Spec.Eip
import Verif.Spec.EndToEnd
import Verif.Spec.Examples
import Verif.Spec.ExamplesMore
import Verif.Spec.Exchange
import Verif.Spec.File
import Verif.Spec.FileHandler
import Verif.Spec.FileLog
import Verif.Spec.Freshness
import Verif.Spec.HandleTime
import Verif.Spec.HostOrder
import Verif.Spec.Ieee
import Verif.Spec.Inet
import Verif.Spec.Io
import Verif.Spec.IoTrace
import Verif.Spec.LinkTime
import Verif.Spec.LiveConn
import Verif.Spec.Log
import Verif.Spec.LogSockets
import Verif.Spec.LogText
import Verif.Spec.LogThreads
import Verif.Spec.Manager
import Verif.Spec.ManagerLog
import Verif.Spec.ManagerThreads
import Verif.Spec.ManagerWire
import Verif.Spec.Net
import Verif.Spec.Network
import Verif.Spec.Object
import Verif.Spec.OpenThreads
import Verif.Spec.PowerFlex
import Verif.Spec.Process
import Verif.Spec.ProcessOrder
import Verif.Spec.Reentrant
import Verif.Spec.ReentrantRecv
import Verif.Spec.SessionCopies
import Verif.Spec.Target
import Verif.Spec.Threads
import Verif.Spec.ThreadsLate
import Verif.Spec.Typed
import Verif.Spec.UdpUser
import Verif.Spec.Windows
import Verif.Spec.Wire
import Verif.Tests.Objects
import Verif.Tests.Packets
