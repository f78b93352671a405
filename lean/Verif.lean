import Verif.Actor.BlockingLemmas
import Verif.Actor.BlockingModel
import Verif.Actor.BlockingProps
import Verif.Actor.BlockingSpec
import Verif.Actor.DescribeModel
import Verif.Actor.DescribeProps
import Verif.Actor.Invariants
import Verif.Actor.Invariants2
import Verif.Actor.Lemmas
import Verif.Actor.Model
import Verif.Actor.PathModel
import Verif.Actor.PathProps
import Verif.Actor.PoolLemmas
import Verif.Actor.PoolModel
import Verif.Actor.PoolProps
import Verif.Actor.PoolSpec
import Verif.Actor.Props
import Verif.Actor.ShutdownModel
import Verif.Actor.ShutdownProps
import Verif.Actor.Spec
import Verif.Actor.SupLemmas
import Verif.Actor.Supervision
import Verif.Actor.TimerModel
import Verif.Actor.TimerProps
import Verif.Actor.WaitsLemmas
import Verif.Actor.WaitsLemmas2
import Verif.Actor.WaitsModel
import Verif.Actor.WaitsProps
import Verif.Actor.WaitsSpec
import Verif.Actor.WaitsTable
import Verif.Assoc
import Verif.Chat.ChatModel
import Verif.Chat.ChatProps
import Verif.Chat.SocketModel
import Verif.Chat.SocketProps
import Verif.Json.Derive
import Verif.Json.GrammarLemmas
import Verif.Json.GrammarProps
import Verif.Json.GrammarSpec
import Verif.Json.GrammarTypes
import Verif.Json.GrammarValues
import Verif.Json.Props
import Verif.Json.Text
import Verif.Json.TextLemmas
import Verif.Json.Types
import Verif.Json.TypesLemmas
import Verif.Json.TypesSpec
import Verif.K8s.Model
import Verif.K8s.Props
import Verif.Persist.ActorModel
import Verif.Persist.ActorProps
import Verif.Persist.ClientLemmas
import Verif.Persist.ClientModel
import Verif.Persist.ClientProps
import Verif.Persist.ClientSpec
import Verif.Persist.CopiesModel
import Verif.Persist.CopiesProps
import Verif.Persist.FlockLemmas
import Verif.Persist.FlockModel
import Verif.Persist.FlockProps
import Verif.Persist.FlockSpec
import Verif.Persist.Keeps
import Verif.Persist.Lemmas
import Verif.Persist.Model
import Verif.Persist.Props
import Verif.Persist.RedisActorModel
import Verif.Persist.RedisActorProps
import Verif.Persist.RedisOrderProps
import Verif.Persist.Refine
import Verif.Persist.RefineRedis
import Verif.Persist.Retry
import Verif.Persist.SharedLemmas
import Verif.Persist.SharedModel
import Verif.Persist.SharedProps
import Verif.Persist.SharedSpec
import Verif.Persist.Spec
import Verif.Persist.TrimsLemmas
import Verif.Persist.TrimsProps
import Verif.Persist.TrimsSpec
import Verif.Proto.Chat
import Verif.Proto.ChatLemmas
import Verif.Proto.Lemmas
import Verif.Proto.Msg
import Verif.Proto.Network
import Verif.Proto.NetworkLemmas
import Verif.Proto.SchemaLemmas
import Verif.Proto.SchemaProps
import Verif.Proto.SchemaSpec
import Verif.Proto.Sharding
import Verif.Proto.ShardingLemmas
import Verif.Proto.Singleton
import Verif.Proto.SingletonLemmas
import Verif.Proto.Wire
import Verif.Remote.ApiLemmas
import Verif.Remote.ApiModel
import Verif.Remote.ApiProps
import Verif.Remote.AuthModel
import Verif.Remote.AuthProps
import Verif.Remote.ClientModel
import Verif.Remote.ClientProps
import Verif.Remote.ClientRegModel
import Verif.Remote.ClientRegProps
import Verif.Remote.CodecLemmas
import Verif.Remote.CodecModel
import Verif.Remote.CodecProps
import Verif.Remote.ConfigModel
import Verif.Remote.ConfigProps
import Verif.Remote.DepartModel
import Verif.Remote.DepartProps
import Verif.Remote.DeployModel
import Verif.Remote.DeployProps
import Verif.Remote.DiscReachProps
import Verif.Remote.DiscReplyModel
import Verif.Remote.DiscReplyProps
import Verif.Remote.DiscoveryModel
import Verif.Remote.DiscoveryProps
import Verif.Remote.GossipLemmas
import Verif.Remote.GossipModel
import Verif.Remote.GossipProps
import Verif.Remote.HandlerModel
import Verif.Remote.HandlerProps
import Verif.Remote.HandshakeModel
import Verif.Remote.HandshakeProps
import Verif.Remote.HealthModel
import Verif.Remote.HealthProps
import Verif.Remote.HeartbeatLemmas
import Verif.Remote.HeartbeatModel
import Verif.Remote.HeartbeatProps
import Verif.Remote.LocateModel
import Verif.Remote.LocateProps
import Verif.Remote.LookupLemmas
import Verif.Remote.LookupModel
import Verif.Remote.LookupProps
import Verif.Remote.LookupSpec
import Verif.Remote.MeshEnd
import Verif.Remote.MeshLemmas
import Verif.Remote.MeshModel
import Verif.Remote.MeshProps
import Verif.Remote.MeshSpec
import Verif.Remote.NodeStoreModel
import Verif.Remote.NodeStoreProps
import Verif.Remote.OneLeaderLemmas
import Verif.Remote.OneLeaderModel
import Verif.Remote.OneLeaderProps
import Verif.Remote.OneLeaderSpec
import Verif.Remote.OrderModel
import Verif.Remote.OrderProps
import Verif.Remote.PingModel
import Verif.Remote.PingProps
import Verif.Remote.PubSubModel
import Verif.Remote.PubSubProps
import Verif.Remote.ReadersLemmas
import Verif.Remote.ReadersModel
import Verif.Remote.ReadersProps
import Verif.Remote.ReadersSpec
import Verif.Remote.RefModel
import Verif.Remote.RefProps
import Verif.Remote.RpcLemmas
import Verif.Remote.RpcModel
import Verif.Remote.RpcProps
import Verif.Remote.ServerModel
import Verif.Remote.ServerProps
import Verif.Remote.TopicsLemmas
import Verif.Remote.TopicsModel
import Verif.Remote.TopicsProps
import Verif.Remote.TripLemmas
import Verif.Remote.TripLive
import Verif.Remote.TripModel
import Verif.Remote.TripProps
import Verif.Remote.TripSpec
import Verif.Remote.WorkerModel
import Verif.Remote.WorkerProps
import Verif.Sharding.CodecModel
import Verif.Sharding.CodecProps
import Verif.Sharding.CoordRecoveryProps
import Verif.Sharding.CoordinatorLemmas
import Verif.Sharding.CoordinatorModel
import Verif.Sharding.CoordinatorProps
import Verif.Sharding.DebounceModel
import Verif.Sharding.DebounceProps
import Verif.Sharding.DurableModel
import Verif.Sharding.DurableProps
import Verif.Sharding.EntityModel
import Verif.Sharding.EntityProps
import Verif.Sharding.FailoverHealLemmas
import Verif.Sharding.FailoverJournalLemmas
import Verif.Sharding.FailoverLemmas
import Verif.Sharding.FailoverModel
import Verif.Sharding.FailoverPhaseLemmas
import Verif.Sharding.FailoverProps
import Verif.Sharding.FailoverRunLemmas
import Verif.Sharding.FailoverSpec
import Verif.Sharding.FlockModel
import Verif.Sharding.FlockProps
import Verif.Sharding.HostLemmas
import Verif.Sharding.HostModel
import Verif.Sharding.HostProps
import Verif.Sharding.HostStopLemmas
import Verif.Sharding.HostsLemmas
import Verif.Sharding.HostsModel
import Verif.Sharding.HostsProps
import Verif.Sharding.IdsModel
import Verif.Sharding.IdsProps
import Verif.Sharding.KeysModel
import Verif.Sharding.KeysProps
import Verif.Sharding.RebalanceProps
import Verif.Sharding.RequestInv
import Verif.Sharding.RequestLemmas
import Verif.Sharding.RequestLive
import Verif.Sharding.RequestModel
import Verif.Sharding.RequestProps
import Verif.Sharding.RequestSteps
import Verif.Sharding.ShardLemmas
import Verif.Sharding.ShardModel
import Verif.Sharding.ShardProps
import Verif.Sharding.ShardRecoveryProps
import Verif.Sharding.StatsModel
import Verif.Sharding.StatsProps
import Verif.Sharding.StoredModel
import Verif.Sharding.StoredProps
import Verif.Sharding.SystemCoordLemmas
import Verif.Sharding.SystemHostLemmas
import Verif.Sharding.SystemLemmas
import Verif.Sharding.SystemModel
import Verif.Sharding.SystemProps
import Verif.Sharding.UuidModel
import Verif.Sharding.UuidProps
import Verif.Singleton.ClusterLemmas
import Verif.Singleton.ClusterModel
import Verif.Singleton.ClusterProps
import Verif.Singleton.ClusterRun
import Verif.Singleton.ClusterSpec
import Verif.Singleton.ClusterSteps
import Verif.Singleton.CodecModel
import Verif.Singleton.CodecProps
import Verif.Singleton.FirstStartLemmas
import Verif.Singleton.FirstStartProps
import Verif.Singleton.FirstStartRun
import Verif.Singleton.FirstStartSpec
import Verif.Singleton.FirstStartSteps
import Verif.Singleton.JointBeats
import Verif.Singleton.JointBooks
import Verif.Singleton.JointHang
import Verif.Singleton.JointHeir
import Verif.Singleton.JointLemmas
import Verif.Singleton.JointModel
import Verif.Singleton.JointProps
import Verif.Singleton.JointRun
import Verif.Singleton.JointSpec
import Verif.Singleton.JointSteps
import Verif.Singleton.JointTakeoverProps
import Verif.Singleton.JointTended
import Verif.Singleton.JointTold
import Verif.Singleton.ManagerLemmas
import Verif.Singleton.ManagerModel
import Verif.Singleton.ManagerProps
import Verif.Singleton.ManagerSpec
import Verif.Singleton.ProxyLemmas
import Verif.Singleton.ProxyModel
import Verif.Singleton.ProxyProps
import Verif.Singleton.ProxySpec
import Verif.Singleton.ServiceLemmas
import Verif.Singleton.ServiceModel
import Verif.Singleton.ServiceProps
import Verif.Singleton.ServiceRun
import Verif.Singleton.ServiceSpec
import Verif.Singleton.ServiceSteps
import Verif.Singleton.StatusModel
import Verif.Singleton.StatusProps
import Verif.Singleton.TakeoverForlorn
import Verif.Singleton.TakeoverLemmas
import Verif.Singleton.TakeoverModel
import Verif.Singleton.TakeoverProps
import Verif.Singleton.TakeoverRun
import Verif.Singleton.TakeoverSpec
import Verif.Singleton.TakeoverSteps
import Verif.Sort
import Verif.Util
import Verif.Audit
