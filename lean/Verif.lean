import Verif.Common.AMap
import Verif.ExpMap.Props
import Verif.Ring.Props
import Verif.Bcast.Props
import Verif.Reader.Props
import Verif.Conn.Props
import Verif.Gate.Props
import Verif.Writer.Props
import Verif.Registration.ApplierProps
import Verif.Registration.ProviderProps
import Verif.Desc.Model
import Verif.Desc.Spec
import Verif.Desc.Lemmas
import Verif.Desc.GateLemmas
import Verif.Desc.Props
import Verif.Desc.Quality
import Verif.Util.TypeName
import Verif.Udp.Frame
import Verif.Udp.FrameProps
import Verif.Udp.Groups
import Verif.Udp.GroupsProps
import Verif.Udp.Mcast
import Verif.Udp.McastProps
import Verif.Wire.Varint
import Verif.Wire.Raw
import Verif.Wire.Codec
import Verif.Wire.Payload
import Verif.Wire.PayloadProps
import Verif.Wire.Service
import Verif.Wire.Log
import Verif.Wire.MessageProps
import Verif.Wire.Registration
import Verif.Wire.RegistrationProps
import Verif.Service.Frame
import Verif.Service.FrameProps
import Verif.Service.Handshake
import Verif.Service.HandshakeProps
import Verif.Service.ClientSession
import Verif.Service.ClientSessionLemmas
import Verif.Service.ClientSessionProps
import Verif.Service.ServerSession
import Verif.Service.ServerSessionProps
import Verif.Service.ServerEvents
import Verif.Service.ServerEventsProps
import Verif.Service.Dispatch
import Verif.Service.DispatchProps
import Verif.Service.Blocking
import Verif.Service.BlockingProps
import Verif.Service.ClientConn
import Verif.Service.ClientConnProps
import Verif.Shm.MemFile
import Verif.Shm.MemFileProps
import Verif.Shm.Torn
import Verif.Shm.TornProps
import Verif.Shm.Observer
import Verif.Shm.ObserverProps
import Verif.Shm.Db
import Verif.Shm.DbProps
import Verif.Sync.MutexProps
import Verif.Sync.EventProps
import Verif.Sync.ShutdownProps
import Verif.Life.InitProps
import Verif.Time.TimerProps
import Verif.Util.FreqProps
import Verif.Mon.LogProps
import Verif.Mon.MonitorProps
import Verif.Mon.FilterProps
import Verif.Wire.Monitoring
import Verif.Wire.MonitoringProps
import Verif.Config.Yaml
import Verif.Config.YamlProps
import Verif.Shm.Ack
import Verif.Shm.AckProps
import Verif.Shm.Grow
import Verif.Shm.GrowProps
import Verif.Config.Address
import Verif.Config.AddressProps
import Verif.Util.Thread
import Verif.Util.ThreadProps
import Verif.Text.Split
import Verif.Text.SplitProps
import Verif.Text.Edit
import Verif.Text.EditProps
import Verif.Text.Path
import Verif.Text.PathProps
import Verif.Time.Gate
import Verif.Time.GateProps
import Verif.Service.Managers
import Verif.Service.ManagersProps
import Verif.Service.Accept
import Verif.Service.AcceptProps
import Verif.Service.Pool
import Verif.Service.PoolProps
import Verif.Capi.Copy
import Verif.Capi.CopyProps
import Verif.Capi.Lock
import Verif.Capi.LockProps
import Verif.Reader.Wait
import Verif.Reader.WaitProps
import Verif.Sync.Locks
import Verif.Sync.LocksLemmas
import Verif.Sync.ApiLocks
import Verif.Sync.ApiLocksProps
import Verif.Text.CmdLine
import Verif.Text.CmdLineProps
import Verif.Proc.Start
import Verif.Proc.StartProps
import Verif.Life.Finalize
import Verif.Life.FinalizeProps
import Verif.Service.ManagerStop
import Verif.Service.ManagerStopProps
import Verif.Sync.LockOrder
import Verif.Sync.SvcLocks
import Verif.Sync.SvcLocksProps
import Verif.Sync.Races
import Verif.Sync.RacesLemmas
import Verif.Sync.WriterRaces
import Verif.Sync.WriterRacesProps
import Verif.Sync.ReaderRaces
import Verif.Sync.ReaderRacesProps
import Verif.Sync.ClientRacesProps
import Verif.Sync.ServerRacesProps
import Verif.Service.ClientNotifyProps
import Verif.Service.ClientSessionV0Props
import Verif.Service.SessionStopProps
import Verif.Shm.Pool
import Verif.Shm.PoolProps
import Verif.Service.Targets
import Verif.Service.TargetsProps
import Verif.Config.SearchProps
import Verif.Proto.FilterProps
import Verif.Proto.DecoderProps
import Verif.Proto.TypeDescProps
import Verif.Proto.DynamicProps
import Verif.Msg.TypedProps
import Verif.Shm.PartialProps
import Verif.Msg.OwnerProps
import Verif.E2E.Net
import Verif.E2E.NetProps
import Verif.E2E.Shm
import Verif.E2E.ShmProps
import Verif.E2E.Disc
import Verif.E2E.DiscProps
import Verif.E2E.DiscLearnProps
import Verif.E2E.DiscFindProps
import Verif.E2E.Call
import Verif.E2E.CallClient
import Verif.E2E.CallLemmas
import Verif.E2E.CallProps
import Verif.E2E.CallRestProps
import Verif.E2E.CallFaultFreeProps
import Verif.E2E.ShmReg
import Verif.E2E.ShmRegLemmas
import Verif.E2E.ShmRegSim
import Verif.E2E.ShmRegProps
import Verif.E2E.ShmRegFiles
import Verif.E2E.ShmRegDeliver
import Verif.E2E.ShmRegDeliverProps
import Verif.E2E.Svc
import Verif.E2E.SvcLemmas
import Verif.E2E.SvcProps
import Verif.Life.Objects
import Verif.Life.ObjectsLemmas
import Verif.Life.ObjectsProps
import Verif.E2E.Flow
import Verif.E2E.FlowLemmas
import Verif.E2E.FlowProps
import Verif.E2E.FlowDeliver
import Verif.E2E.FlowDeliverProps
import Verif.Service.ClientHostsProps
import Verif.Service.ClientHostsV0Props
import Verif.Mon.ListingProps
import Verif.E2E.Mon
import Verif.E2E.MonProps
import Verif.Registration.UserCb
import Verif.Registration.UserCbProps
import Verif.Sync.RegCbRaces
import Verif.Sync.RegCbRacesProps
import Verif.Shm.Posix
import Verif.Shm.PosixProps
import Verif.Msg.TypedSvcProps
import Verif.E2E.TypedCallProps
import Verif.Sync.NamedEvent
import Verif.Sync.NamedEventLemmas
import Verif.Sync.NamedEventSpec
import Verif.Sync.NamedEventProps
import Verif.Sync.ShutdownAll
import Verif.Sync.ShutdownAllProps
import Verif.Pb.TableLemmas
import Verif.Pb.DecodeProps
import Verif.Pb.Encode
import Verif.Pb.EncodeLemmas
import Verif.Pb.EncodeProps
import Verif.Sync.ProcessRaces
import Verif.Sync.ProcessRacesProps
import Verif.E2E.SvcCall
import Verif.E2E.SvcCallLemmas
import Verif.E2E.SvcCallProps
import Verif.Proc.Term
import Verif.Proc.TermProps
import Verif.Capi.Handle
import Verif.Capi.HandleProps
import Verif.E2E.Ident
import Verif.E2E.IdentProps
import Verif.E2E.Logging
import Verif.E2E.LoggingProps
import Verif.Capi.Util
import Verif.Capi.UtilProps
import Verif.Shm.Names
import Verif.Shm.NamesProps
import Verif.Proc.Fork
import Verif.Proc.ForkProps
import Verif.Proc.Self
import Verif.Proc.SelfProps
import Verif.Mon.Topic
import Verif.Mon.TopicProps
import Verif.Mon.Svc
import Verif.Mon.SvcProps
import Verif.Msg.DynPub
import Verif.Msg.DynPubProps
import Verif.Desc.Overview
import Verif.Desc.OverviewLemmas
import Verif.Desc.OverviewProps
import Verif.Udp.Reach
import Verif.Udp.ReachProps
