import Verif.Actor.BlockingLemmas
import Verif.Actor.BlockingModel
import Verif.Actor.BlockingProps
import Verif.Actor.BlockingSpec
import Verif.Actor.DescribeModel
import Verif.Actor.DescribeProps
import Verif.Actor.Invariants
import Verif.Actor.Invariants2
import Verif.Actor.Lemmas
import Verif.Actor.Model
import Verif.Actor.PathModel
import Verif.Actor.PathProps
import Verif.Actor.PoolLemmas
import Verif.Actor.PoolModel
import Verif.Actor.PoolProps
import Verif.Actor.PoolSpec
import Verif.Actor.Props
import Verif.Actor.ShutdownModel
import Verif.Actor.ShutdownProps
import Verif.Actor.Spec
import Verif.Actor.SupLemmas
import Verif.Actor.Supervision
import Verif.Actor.TimerModel
import Verif.Actor.TimerProps
import Verif.Actor.WaitsLemmas
import Verif.Actor.WaitsLemmas2
import Verif.Actor.WaitsModel
import Verif.Actor.WaitsProps
import Verif.Actor.WaitsSpec
import Verif.Actor.WaitsTable
import Verif.Assoc
import Verif.Chat.ChatModel
import Verif.Chat.ChatProps
import Verif.Chat.SocketModel
import Verif.Chat.SocketProps
import Verif.Json.Derive
import Verif.Json.GrammarLemmas
import Verif.Json.GrammarProps
import Verif.Json.GrammarSpec
import Verif.Json.GrammarTypes
import Verif.Json.GrammarValues
import Verif.Json.Props
import Verif.Json.Text
import Verif.Json.TextLemmas
import Verif.Json.Types
import Verif.Json.TypesLemmas
import Verif.Json.TypesSpec
import Verif.K8s.Model
import Verif.K8s.Props
import Verif.Persist.ActorModel
import Verif.Persist.ActorProps
import Verif.Persist.ClientLemmas
import Verif.Persist.ClientModel
import Verif.Persist.ClientProps
import Verif.Persist.ClientSpec
import Verif.Persist.CopiesModel
import Verif.Persist.CopiesProps
import Verif.Persist.FlockLemmas
import Verif.Persist.FlockModel
import Verif.Persist.FlockProps
import Verif.Persist.FlockSpec
import Verif.Persist.Keeps
import Verif.Persist.Lemmas
import Verif.Persist.Model
import Verif.Persist.Props
import Verif.Persist.RedisActorModel
import Verif.Persist.RedisActorProps
import Verif.Persist.RedisOrderProps
import Verif.Persist.Refine
import Verif.Persist.RefineRedis
import Verif.Persist.Retry
import Verif.Persist.SharedLemmas
import Verif.Persist.SharedModel
import Verif.Persist.SharedProps
import Verif.Persist.SharedSpec
import Verif.Persist.Spec
import Verif.Persist.TrimsLemmas
import Verif.Persist.TrimsProps
import Verif.Persist.TrimsSpec
import Verif.Proto.Chat
import Verif.Proto.ChatLemmas
import Verif.Proto.Lemmas
import Verif.Proto.Msg
import Verif.Proto.Network
import Verif.Proto.NetworkLemmas
import Verif.Proto.SchemaLemmas
import Verif.Proto.SchemaProps
import Verif.Proto.SchemaSpec
import Verif.Proto.Sharding
import Verif.Proto.ShardingLemmas
import Verif.Proto.Singleton
import Verif.Proto.SingletonLemmas
import Verif.Proto.Wire
import Verif.Remote.ApiLemmas
import Verif.Remote.ApiModel
import Verif.Remote.ApiProps
import Verif.Remote.AuthModel
import Verif.Remote.AuthProps
import Verif.Remote.ClientModel
import Verif.Remote.ClientProps
import Verif.Remote.ClientRegModel
import Verif.Remote.ClientRegProps
import Verif.Remote.CodecLemmas
import Verif.Remote.CodecModel
import Verif.Remote.CodecProps
import Verif.Remote.ConfigModel
import Verif.Remote.ConfigProps
import Verif.Remote.DepartModel
import Verif.Remote.DepartProps
import Verif.Remote.DeployModel
import Verif.Remote.DeployProps
import Verif.Remote.DiscReachProps
import Verif.Remote.DiscReplyModel
import Verif.Remote.DiscReplyProps
import Verif.Remote.DiscoveryModel
import Verif.Remote.DiscoveryProps
import Verif.Remote.GossipLemmas
import Verif.Remote.GossipModel
import Verif.Remote.GossipProps
import Verif.Remote.HandlerModel
import Verif.Remote.HandlerProps
import Verif.Remote.HandshakeModel
import Verif.Remote.HandshakeProps
import Verif.Remote.HealthModel
import Verif.Remote.HealthProps
import Verif.Remote.HeartbeatLemmas
import Verif.Remote.HeartbeatModel
import Verif.Remote.HeartbeatProps
import Verif.Remote.LocateModel
import Verif.Remote.LocateProps
import Verif.Remote.LookupLemmas
import Verif.Remote.LookupModel
import Verif.Remote.LookupProps
import Verif.Remote.LookupSpec
import Verif.Remote.MeshEnd
import Verif.Remote.MeshLemmas
import Verif.Remote.MeshModel
import Verif.Remote.MeshProps
import Verif.Remote.MeshSpec
import Verif.Remote.NodeStoreModel
import Verif.Remote.NodeStoreProps
import Verif.Remote.OneLeaderLemmas
import Verif.Remote.OneLeaderModel
import Verif.Remote.OneLeaderProps
import Verif.Remote.OneLeaderSpec
import Verif.Remote.OrderModel
import Verif.Remote.OrderProps
import Verif.Remote.PingModel
import Verif.Remote.PingProps
import Verif.Remote.PubSubModel
import Verif.Remote.PubSubProps
import Verif.Remote.ReadersLemmas
import Verif.Remote.ReadersModel
import Verif.Remote.ReadersProps
import Verif.Remote.ReadersSpec
import Verif.Remote.RefModel
import Verif.Remote.RefProps
import Verif.Remote.RpcLemmas
import Verif.Remote.RpcModel
import Verif.Remote.RpcProps
import Verif.Remote.ServerModel
import Verif.Remote.ServerProps
import Verif.Remote.TopicsLemmas
import Verif.Remote.TopicsModel
import Verif.Remote.TopicsProps
import Verif.Remote.TripLemmas
import Verif.Remote.TripLive
import Verif.Remote.TripModel
import Verif.Remote.TripProps
import Verif.Remote.TripSpec
import Verif.Remote.WorkerModel
import Verif.Remote.WorkerProps
import Verif.Sharding.CodecModel
import Verif.Sharding.CodecProps
import Verif.Sharding.CoordRecoveryProps
import Verif.Sharding.CoordinatorLemmas
import Verif.Sharding.CoordinatorModel
import Verif.Sharding.CoordinatorProps
import Verif.Sharding.DebounceModel
import Verif.Sharding.DebounceProps
import Verif.Sharding.DurableModel
import Verif.Sharding.DurableProps
import Verif.Sharding.EntityModel
import Verif.Sharding.EntityProps
import Verif.Sharding.FailoverHealLemmas
import Verif.Sharding.FailoverJournalLemmas
import Verif.Sharding.FailoverLemmas
import Verif.Sharding.FailoverModel
import Verif.Sharding.FailoverPhaseLemmas
import Verif.Sharding.FailoverProps
import Verif.Sharding.FailoverRunLemmas
import Verif.Sharding.FailoverSpec
import Verif.Sharding.FlockModel
import Verif.Sharding.FlockProps
import Verif.Sharding.HostLemmas
import Verif.Sharding.HostModel
import Verif.Sharding.HostProps
import Verif.Sharding.HostStopLemmas
import Verif.Sharding.HostsLemmas
import Verif.Sharding.HostsModel
import Verif.Sharding.HostsProps
import Verif.Sharding.IdsModel
import Verif.Sharding.IdsProps
import Verif.Sharding.KeysModel
import Verif.Sharding.KeysProps
import Verif.Sharding.RebalanceProps
import Verif.Sharding.RequestInv
import Verif.Sharding.RequestLemmas
import Verif.Sharding.RequestLive
import Verif.Sharding.RequestModel
import Verif.Sharding.RequestProps
import Verif.Sharding.RequestSteps
import Verif.Sharding.ShardLemmas
import Verif.Sharding.ShardModel
import Verif.Sharding.ShardProps
import Verif.Sharding.ShardRecoveryProps
import Verif.Sharding.StatsModel
import Verif.Sharding.StatsProps
import Verif.Sharding.StoredModel
import Verif.Sharding.StoredProps
import Verif.Sharding.SystemCoordLemmas
import Verif.Sharding.SystemHostLemmas
import Verif.Sharding.SystemLemmas
import Verif.Sharding.SystemModel
import Verif.Sharding.SystemProps
import Verif.Sharding.UuidModel
import Verif.Sharding.UuidProps
import Verif.Singleton.ClusterLemmas
import Verif.Singleton.ClusterModel
import Verif.Singleton.ClusterProps
import Verif.Singleton.ClusterRun
import Verif.Singleton.ClusterSpec
import Verif.Singleton.ClusterSteps
import Verif.Singleton.CodecModel
import Verif.Singleton.CodecProps
import Verif.Singleton.FirstStartLemmas
import Verif.Singleton.FirstStartProps
import Verif.Singleton.FirstStartRun
import Verif.Singleton.FirstStartSpec
import Verif.Singleton.FirstStartSteps
import Verif.Singleton.JointBeats
import Verif.Singleton.JointBooks
import Verif.Singleton.JointHang
import Verif.Singleton.JointHeir
import Verif.Singleton.JointLemmas
import Verif.Singleton.JointModel
import Verif.Singleton.JointProps
import Verif.Singleton.JointRun
import Verif.Singleton.JointSpec
import Verif.Singleton.JointSteps
import Verif.Singleton.JointTakeoverProps
import Verif.Singleton.JointTended
import Verif.Singleton.JointTold
import Verif.Singleton.ManagerLemmas
import Verif.Singleton.ManagerModel
import Verif.Singleton.ManagerProps
import Verif.Singleton.ManagerSpec
import Verif.Singleton.ProxyLemmas
import Verif.Singleton.ProxyModel
import Verif.Singleton.ProxyProps
import Verif.Singleton.ProxySpec
import Verif.Singleton.ServiceLemmas
import Verif.Singleton.ServiceModel
import Verif.Singleton.ServiceProps
import Verif.Singleton.ServiceRun
import Verif.Singleton.ServiceSpec
import Verif.Singleton.ServiceSteps
import Verif.Singleton.StatusModel
import Verif.Singleton.StatusProps
import Verif.Singleton.TakeoverForlorn
import Verif.Singleton.TakeoverLemmas
import Verif.Singleton.TakeoverModel
import Verif.Singleton.TakeoverProps
import Verif.Singleton.TakeoverRun
import Verif.Singleton.TakeoverSpec
import Verif.Singleton.TakeoverSteps
import Verif.Sort
import Verif.Util

/-! Axioms of every property theorem (see DESIGN.md, trusted base). -/

#print axioms Verif.Persist.C01_replay_without_snapshots
#print axioms Verif.Persist.C01_replay_any_outcome
#print axioms Verif.Persist.mem_recovery_exact
#print axioms Verif.Persist.persist_call_is_history
#print axioms Verif.Persist.C02_snapshot_recovery_partial
#print axioms Verif.Persist.C02_sound_partial
#print axioms Verif.Persist.C02_refuted
#print axioms Verif.Persist.C02_refuted_lost_ack
#print axioms Verif.Persist.C03_ok_stored_once
#print axioms Verif.Persist.C03_ok_stored_once_mem
#print axioms Verif.Persist.C03_ok_batch_stored_once
#print axioms Verif.Persist.C03_ok_snapshot_stored_once
#print axioms Verif.Persist.C03_err_unchanged
#print axioms Verif.Persist.C03_redis_once
#print axioms Verif.Persist.C03_lost_ack_duplicates
#print axioms Verif.Persist.C04_sequence_monotone
#print axioms Verif.Persist.C04_lost_ack_refuted
#print axioms Verif.Persist.C05_trim_invisible_mem
#print axioms Verif.Persist.C05_redis_refuted
#print axioms Verif.Persist.C08_redis_replay_partial
#print axioms Verif.Persist.C08_redis_batches_only_partial
#print axioms Verif.Persist.C05_trim_call
#print axioms Verif.Persist.C06_range_read_partial
#print axioms Verif.Persist.C06_panic_iff
#print axioms Verif.Persist.C06_exact
#print axioms Verif.Persist.C06_read_message
#print axioms Verif.Persist.C06_redis_range
#print axioms Verif.Persist.C06_refuted_panic
#print axioms Verif.Persist.C06_refuted_extra
#print axioms Verif.Persist.C06_refuted_missing
#print axioms Verif.Persist.C07_entry_roundtrip
#print axioms Verif.Persist.C07_entry_injective
#print axioms Verif.Persist.C08_redis_nothing_lost_partial
#print axioms Verif.Persist.C08_refuted_order
#print axioms Verif.Persist.C08_refuted_duplicate
#print axioms Verif.Persist.C09_max_attempts_ok
#print axioms Verif.Persist.C09_max_attempts_err
#print axioms Verif.Persist.C09_max_attempts_bound
#print axioms Verif.Persist.C09_until_success
#print axioms Verif.Persist.C09_stop_policy
#print axioms Verif.Persist.C09_batch_snapshot_bound
#print axioms Verif.Persist.C09_recovery
#print axioms Verif.Persist.C09_stop_exact
#print axioms Verif.Persist.C09_recovery_waiting
#print axioms Verif.Persist.C09_empty_batch
#print axioms Verif.Persist.C09_pending_attempts
#print axioms Verif.Persist.C10_mem_independent
#print axioms Verif.Persist.C10_redis_independent
#print axioms Verif.Persist.C10_redis_keys_injective
#print axioms Verif.Persist.C10_delete_all
#print axioms Verif.Persist.C11_unknown_skipped
#print axioms Verif.Persist.C11_counters_unaffected
#print axioms Verif.Actor.C12_fifo
#print axioms Verif.Actor.C12_nothing_lost
#print axioms Verif.Actor.C12_one_at_a_time
#print axioms Verif.Actor.C12_at_most_once
#print axioms Verif.Actor.C12_before_stop
#print axioms Verif.Actor.C12_progress
#print axioms Verif.Actor.C13_own_result
#print axioms Verif.Actor.C13_handled_is_answered
#print axioms Verif.Actor.C13_at_most_one
#print axioms Verif.Actor.C13_exactly_one
#print axioms Verif.Actor.C13_stop_exactly_one
#print axioms Verif.Actor.C14_lifecycle
#print axioms Verif.Actor.C14_complete
#print axioms Verif.Actor.C14_status_forward
#print axioms Verif.Actor.C14_status_seen
#print axioms Verif.Actor.C14_starter
#print axioms Verif.Actor.C14_starter_answered
#print axioms Verif.Actor.C15_watchers_partial
#print axioms Verif.Actor.C15_not_early
#print axioms Verif.Actor.C15_panic_silent
#print axioms Verif.Actor.C15_refuted
#print axioms Verif.Actor.C16_children
#print axioms Verif.Actor.C16_spawn_refused
#print axioms Verif.Actor.C16_reuse
#print axioms Verif.Actor.C16_stop_all
#print axioms Verif.Actor.C16_stop_all_only
#print axioms Verif.Actor.C16_stop_all_count
#print axioms Verif.Actor.C16_family_partial
#print axioms Verif.Actor.C16_family_refuted
#print axioms Verif.Actor.C16_stale_notice_refuted
#print axioms Verif.Actor.C16_stop_all_rest
#print axioms Verif.Actor.C17_refuted
#print axioms Verif.Actor.C17_dead_ref_refuted
#print axioms Verif.Actor.C17_lookup_partial
#print axioms Verif.Actor.C17_quiet_partial
#print axioms Verif.Actor.C18_round_robin
#print axioms Verif.Actor.C18_fair
#print axioms Verif.Actor.C18_all_served
#print axioms Verif.Actor.C18_empty_pool
#print axioms Verif.Remote.C19_outstanding
#print axioms Verif.Remote.C19_answered
#print axioms Verif.Remote.C19_at_most_once
#print axioms Verif.Remote.C19_reply_completes_one
#print axioms Verif.Remote.C19_unknown_reply_ignored
#print axioms Verif.Remote.C19_duplicate_reply_ignored
#print axioms Verif.Remote.C19_outstanding_partial
#print axioms Verif.Remote.C19_failed_request_refuted
#print axioms Verif.Remote.C19_responder_keeps_entries
#print axioms Verif.Remote.C19_reply_leak_refuted
#print axioms Verif.Remote.C19_session_reply_clean_partial
#print axioms Verif.Remote.C19_pair_conserved
#print axioms Verif.Remote.C20_session_event_roundtrip
#print axioms Verif.Remote.C20_client_event_roundtrip
#print axioms Verif.Remote.C20_unwritable
#print axioms Verif.Remote.C20_client_always_writable
#print axioms Verif.Remote.C20_session_rejects
#print axioms Verif.Remote.C20_client_rejects
#print axioms Verif.Remote.C20_session_injective
#print axioms Verif.Remote.C20_session_connection
#print axioms Verif.Remote.C20_client_connection
#print axioms Verif.Remote.C20_malformed_body_panics
#print axioms Verif.Remote.C20_framing
#print axioms Verif.Remote.C21_error_roundtrip
#print axioms Verif.Remote.C21_error_arrives
#print axioms Verif.Remote.C21_injective
#print axioms Verif.Remote.C22_gate
#print axioms Verif.Remote.C22_stopped
#print axioms Verif.Remote.C22_accepts
#print axioms Verif.Remote.C22_effect_needs_token
#print axioms Verif.Remote.C22_identify_first
#print axioms Verif.Remote.C22_effect_asked
#print axioms Verif.Remote.C22_effects_asked
#print axioms Verif.Remote.C23_lifetime_partial
#print axioms Verif.Remote.C23_monotone
#print axioms Verif.Remote.C23_forged
#print axioms Verif.Remote.C23_accepted_only
#print axioms Verif.Remote.C23_huge_ttl_refuted
#print axioms Verif.Remote.C24_byte_counter
#print axioms Verif.Remote.C24_order_partial
#print axioms Verif.Remote.C24_flushed_partial
#print axioms Verif.Remote.C24_oversize_refuted
#print axioms Verif.Remote.C24_oversize_blocks
#print axioms Verif.Remote.C24_flush_breaks
#print axioms Verif.Remote.C25_retries
#print axioms Verif.Remote.C25_success_resets
#print axioms Verif.Remote.C25_orderly_partial
#print axioms Verif.Remote.C25_eleven_failures
#print axioms Verif.Remote.C25_off_by_one_refuted
#print axioms Verif.Remote.C25_closed_early_hangs
#print axioms Verif.Remote.C25_closed_early_refuted
#print axioms Verif.Remote.C25_late_report_refuted
#print axioms Verif.Remote.C26_leader_partial
#print axioms Verif.Remote.C26_order_irrelevant
#print axioms Verif.Remote.C26_agree
#print axioms Verif.Remote.C26_never_unhealthy
#print axioms Verif.Remote.C26_waiters
#print axioms Verif.Remote.C26_big_ids_refuted
#print axioms Verif.Remote.C26_big_ids_reannounced
#print axioms Verif.Remote.C27_answered
#print axioms Verif.Remote.C27_unpinged
#print axioms Verif.Remote.C27_disconnected
#print axioms Verif.Remote.C27_self
#print axioms Verif.Remote.C27_missed_inverted
#print axioms Verif.Remote.C27_missed_refuted
#print axioms Verif.Remote.C27_error_twice_refuted
#print axioms Verif.Remote.C27_clock_back_refuted
#print axioms Verif.Remote.C27_last_heartbeat
#print axioms Verif.Remote.C27_missed_after_answer
#print axioms Verif.Remote.C27_notice
#print axioms Verif.Remote.C27_self_seen
#print axioms Verif.Remote.C28_at_most_once
#print axioms Verif.Remote.C28_members_partial
#print axioms Verif.Remote.C28_refuted
#print axioms Verif.Remote.C28_published_only
#print axioms Verif.Remote.C28_large_cluster_refuted
#print axioms Verif.Remote.C28_single_node_refuted
#print axioms Verif.Remote.C28_announced_iff
#print axioms Verif.Remote.C29_owner_partial
#print axioms Verif.Remote.C29_order_partial
#print axioms Verif.Remote.C29_add_partial
#print axioms Verif.Remote.C29_remove_partial
#print axioms Verif.Remote.C29_refuted
#print axioms Verif.Remote.C29_added_twice_refuted
#print axioms Verif.Remote.C29_updated_refuted
#print axioms Verif.Remote.C30_added
#print axioms Verif.Remote.C30_updated
#print axioms Verif.Remote.C30_removed
#print axioms Verif.Remote.C30_unknown
#print axioms Verif.Remote.C30_terminated
#print axioms Verif.Remote.C30_terminated_still_chosen_refuted
#print axioms Verif.Remote.C30_terminated_refuted
#print axioms Verif.Remote.C30_stale_update_refuted
#print axioms Verif.Remote.C31_agree
#print axioms Verif.Remote.C31_sound
#print axioms Verif.Remote.C31_found_partial
#print axioms Verif.Remote.C31_stale_refuted
#print axioms Verif.Remote.C31_stale_instance_refuted
#print axioms Verif.Remote.C31_view_refuted
#print axioms Verif.Remote.C31_order_refuted
#print axioms Verif.Remote.C32_once
#print axioms Verif.Remote.C32_known_address
#print axioms Verif.Remote.C32_known_nodes
#print axioms Verif.Remote.C32_announced_partial
#print axioms Verif.Remote.C32_rediscover_partial
#print axioms Verif.Remote.C32_failed_refuted
#print axioms Verif.Remote.C32_failed_instance_refuted
#print axioms Verif.Remote.C32_no_client_refuted
#print axioms Verif.Remote.C32_forgotten_refuted
#print axioms Verif.Remote.C32_alias_refuted
#print axioms Verif.Remote.C32_forget
#print axioms Verif.Remote.C32_removed_once
#print axioms Verif.Remote.C33_prefix
#print axioms Verif.Remote.C33_accepted
#print axioms Verif.Remote.C33_complete_partial
#print axioms Verif.Remote.C33_alive
#print axioms Verif.Remote.C33_unsubscribed
#print axioms Verif.Remote.C33_lag_refuted
#print axioms Verif.Remote.C33_refuted
#print axioms Verif.Remote.C33_unsubscribe_refuted
#print axioms Verif.Remote.C33_name_clash_refuted
#print axioms Verif.Remote.C33_cluster_once_partial
#print axioms Verif.Remote.C33_cluster_order_refuted
#print axioms Verif.Remote.C33_cluster_here
#print axioms Verif.Remote.C33_cluster_there
#print axioms Verif.Remote.C34_registered
#print axioms Verif.Remote.C34_report_partial
#print axioms Verif.Remote.C34_order
#print axioms Verif.Remote.C34_hangs_refuted
#print axioms Verif.Remote.C34_same_id_refuted
#print axioms Verif.Remote.C35_found
#print axioms Verif.Remote.C35_missing
#print axioms Verif.Remote.C35_bounded_lookups
#print axioms Verif.Remote.C35_error_says_why
#print axioms Verif.Remote.C35_success
#print axioms Verif.Remote.C35_no_handler
#print axioms Verif.Remote.C35_direct
#print axioms Verif.Remote.C35_direct_result
#print axioms Verif.Remote.C35_one_reply
#print axioms Verif.Remote.C35_at_most_one_reply
#print axioms Verif.Remote.C35_malformed_id_refuted
#print axioms Verif.Remote.C35_actor_error_lost_refuted
#print axioms Verif.Remote.C35_lookup_sound
#print axioms Verif.Remote.C35_lookup_complete
#print axioms Verif.Remote.C35_lookup_exact_partial
#print axioms Verif.Remote.C35_shared_cache_refuted
#print axioms Verif.Remote.C36_cluster_event_roundtrip
#print axioms Verif.Remote.C36_always_writable
#print axioms Verif.Remote.C36_rejects
#print axioms Verif.Sharding.C37_consistent
#print axioms Verif.Sharding.C37_one_host
#print axioms Verif.Sharding.C37_available
#print axioms Verif.Sharding.C38_least_loaded
#print axioms Verif.Sharding.C38_refused_iff
#print axioms Verif.Sharding.C39_stable_partial
#print axioms Verif.Sharding.C39_from_answer_partial
#print axioms Verif.Sharding.C39_restart_refuted
#print axioms Verif.Sharding.C40_lost
#print axioms Verif.Sharding.C40_no_new_shards
#print axioms Verif.Sharding.C40_in_flight
#print axioms Verif.Sharding.C40_node_added
#print axioms Verif.Sharding.C41_takes
#print axioms Verif.Sharding.C41_even
#print axioms Verif.Sharding.C41_same_share_partial
#print axioms Verif.Sharding.C41_unavailable_refuted
#print axioms Verif.Sharding.C42_no_loss
#print axioms Verif.Sharding.C42_exact
#print axioms Verif.Sharding.C42_exact_own_node
#print axioms Verif.Sharding.C42_refused_recovered_refuted
#print axioms Verif.Sharding.C43_placement
#print axioms Verif.Sharding.C43_same
#print axioms Verif.Sharding.C43_zero_shards
#print axioms Verif.Sharding.C44_kept_in_order_partial
#print axioms Verif.Sharding.C44_at_most_once
#print axioms Verif.Sharding.C44_stop_while_starting_refuted
#print axioms Verif.Sharding.C44_moved_while_starting_refuted
#print axioms Verif.Sharding.C44_order_refuted
#print axioms Verif.Sharding.C45_ready_partial
#print axioms Verif.Sharding.C45_completed
#print axioms Verif.Sharding.C45_unanswered_refuted
#print axioms Verif.Sharding.C45_keeps_running_refuted
#print axioms Verif.Sharding.C46_routing
#print axioms Verif.Sharding.C46_exclusive_partial
#print axioms Verif.Sharding.C46_both_refuted
#print axioms Verif.Sharding.C46_ended_for_good
#print axioms Verif.Sharding.C47_once_in_order_partial
#print axioms Verif.Sharding.C47_up
#print axioms Verif.Sharding.C47_one_instance_partial
#print axioms Verif.Sharding.C47_failed_start_refuted
#print axioms Verif.Sharding.C47_second_start_refuted
#print axioms Verif.Sharding.C48_new_partial
#print axioms Verif.Sharding.C48_restarted_partial
#print axioms Verif.Sharding.C48_refused_refuted
#print axioms Verif.Sharding.C48_stopped_refuted
#print axioms Verif.Sharding.C49_known
#print axioms Verif.Sharding.C49_restarts_since_snapshot
#print axioms Verif.Sharding.C49_restarts_partial
#print axioms Verif.Sharding.C49_restarted_once
#print axioms Verif.Sharding.C49_running
#print axioms Verif.Sharding.C49_snapshot_refuted
#print axioms Verif.Sharding.C49_unpersisted_refuted
#print axioms Verif.Sharding.C50_allocate
#print axioms Verif.Sharding.C50_allocate_result
#print axioms Verif.Sharding.C50_allocated
#print axioms Verif.Sharding.C50_reallocating
#print axioms Verif.Sharding.C50_stop
#print axioms Verif.Sharding.C50_stopped
#print axioms Verif.Sharding.C50_entity_request
#print axioms Verif.Sharding.C50_start_entity
#print axioms Verif.Sharding.C50_remove_entity
#print axioms Verif.Sharding.C50_passivate_entity
#print axioms Verif.Sharding.C50_snapshot
#print axioms Verif.Sharding.C50_sharding_stats
#print axioms Verif.Sharding.C50_shard_stats
#print axioms Verif.Sharding.C51_at_most_one_instance_partial
#print axioms Verif.Sharding.C51_runs_where_assigned_partial
#print axioms Verif.Sharding.C51_request_during_move_refuted
#print axioms Verif.Sharding.C51_late_announcement_refuted
#print axioms Verif.Singleton.C52_at_most_one_instance_partial
#print axioms Verif.Singleton.C52_two_nodes
#print axioms Verif.Singleton.C52_at_most_one_instance_refuted
#print axioms Verif.Singleton.C52_up_twice_refuted
#print axioms Verif.Singleton.C53_starts_once_partial
#print axioms Verif.Singleton.C53_only_after_all_partial
#print axioms Verif.Singleton.C53_repeated_ack_refuted
#print axioms Verif.Singleton.C53_unknown_ack_refuted
#print axioms Verif.Singleton.C53_node_leaves_refuted
#print axioms Verif.Singleton.C53_node_joins_refuted
#print axioms Verif.Singleton.C53_node_removed
#print axioms Verif.Singleton.C54_running_stops
#print axioms Verif.Singleton.C54_ended_grants
#print axioms Verif.Singleton.C54_not_running_grants
#print axioms Verif.Singleton.C54_joining_grants
#print axioms Verif.Singleton.C54_joining_refuted
#print axioms Verif.Singleton.C54_starting_refuted
#print axioms Verif.Singleton.C54_never_handed_over
#print axioms Verif.Singleton.C54_new_leader_starts_refuted
#print axioms Verif.Singleton.C55_nothing_lost_partial
#print axioms Verif.Singleton.C55_order_refuted
#print axioms Verif.Singleton.C55_lost_refuted
#print axioms Verif.Singleton.C55_own_proxy_not_told
#print axioms Verif.Singleton.C56_crash_exactly_partial
#print axioms Verif.Singleton.C56_notify_refuted
#print axioms Verif.Remote.C57_refuted
#print axioms Verif.Remote.C57_refusal_blocks_everything
#print axioms Verif.Remote.C57_malformed_frame_kills_store
#print axioms Verif.Remote.C57_silence_blocks_everything
#print axioms Verif.Remote.C57_good_peers_partial
#print axioms Verif.Remote.C58_delivered_partial
#print axioms Verif.Remote.C58_unknown_dropped
#print axioms Verif.Remote.C58_one_client_per_address
#print axioms Verif.Remote.C58_dead_client_kills_all
#print axioms Verif.Remote.C58_refuted
#print axioms Verif.Remote.C58_alias_refuted
#print axioms Verif.Remote.C58_removed
#print axioms Verif.Remote.C58_clients_distinct
#print axioms Verif.Remote.C59_refused
#print axioms Verif.Remote.C59_refused_everywhere_partial
#print axioms Verif.Remote.C59_race_refuted
#print axioms Verif.Remote.C59_unanswered_refuted
#print axioms Verif.Remote.C59_redeploy_refuted
#print axioms Verif.Remote.C59_answer
#print axioms Verif.Remote.C60_seed
#print axioms Verif.Remote.C60_chain_refuted
#print axioms Verif.Remote.C60_two_hops_partial
#print axioms Verif.Sharding.C61_refused_partial
#print axioms Verif.Sharding.C61_not_protobuf
#print axioms Verif.Sharding.C61_panics_refuted
#print axioms Verif.Sharding.C61_unknown_type_refuted
#print axioms Verif.Singleton.C62_request
#print axioms Verif.Singleton.C62_ack
#print axioms Verif.Singleton.C62_started
#print axioms Verif.Singleton.C62_stopped
#print axioms Verif.Singleton.C62_status
#print axioms Verif.Singleton.C62_unknown_status_refuted
#print axioms Verif.Persist.C63_state_survives
#print axioms Verif.Persist.C63_snapshots_partial
#print axioms Verif.Persist.C63_refuted
#print axioms Verif.Persist.C63_lost_ack_refuted
#print axioms Verif.Persist.C64_runs_only_recovered
#print axioms Verif.Persist.C64_comes_up
#print axioms Verif.Persist.C64_undecodable_stops
#print axioms Verif.Persist.C64_unreadable_stops
#print axioms Verif.Persist.C65_types_roundtrip_partial
#print axioms Verif.Persist.C65_still_readable
#print axioms Verif.Persist.C65_collision_refuted
#print axioms Verif.Persist.C66_default_partial
#print axioms Verif.Persist.C66_disabled_refuted
#print axioms Verif.Persist.C67_redis_set
#print axioms Verif.Persist.C67_redis_ordered
#print axioms Verif.Persist.C67_one_slot
#print axioms Verif.Persist.C67_prefix_separates
#print axioms Verif.Persist.redisKey_ok
#print axioms Verif.Persist.C67_prefix_collision_refuted
#print axioms Verif.Actor.Shutdown.C68_returned_all_ended
#print axioms Verif.Actor.Shutdown.C68_returns_iff
#print axioms Verif.Actor.Shutdown.C68_stuck_forever
#print axioms Verif.Actor.Shutdown.C68_refuted_handler
#print axioms Verif.Actor.Shutdown.C68_refuted_race
#print axioms Verif.Actor.Shutdown.C68_survivors
#print axioms Verif.Actor.Shutdown.C68_nobody_waits
#print axioms Verif.Actor.Shutdown.C68_remote_returns
#print axioms Verif.Actor.Shutdown.C68_remote_alone
#print axioms Verif.Actor.Timer.C69_one_at_a_time
#print axioms Verif.Actor.Timer.C69_rate
#print axioms Verif.Actor.Timer.C69_stop
#print axioms Verif.Actor.Timer.C69_gone
#print axioms Verif.Actor.Timer.C69_zero
#print axioms Verif.Actor.Timer.C69_drop_refuted
#print axioms Verif.Actor.Timer.C69_ends_only
#print axioms Verif.Actor.Timer.C69_gone_ends
#print axioms Verif.Actor.Timer.C69_stop_ends
#print axioms Verif.Actor.Timer.C70_once
#print axioms Verif.Actor.Timer.C70_sent
#print axioms Verif.Actor.Timer.C70_cancelled_partial
#print axioms Verif.Actor.Timer.C70_cancel_refuted
#print axioms Verif.Actor.Describe.C71_one_each
#print axioms Verif.Actor.Describe.C71_faithful
#print axioms Verif.Actor.Describe.C71_depth
#print axioms Verif.Actor.Describe.C71_complete
#print axioms Verif.Actor.Describe.C72_bounded
#print axioms Verif.Actor.Describe.C72_independent
#print axioms Verif.Actor.Describe.C72_two_levels
#print axioms Verif.Actor.Describe.C72_hidden_parent_refuted
#print axioms Verif.Actor.Describe.C72_timeout_option_refuted
#print axioms Verif.Remote.Handshake.C73_identify_at_most_once
#print axioms Verif.Remote.Handshake.C73_identify_answered
#print axioms Verif.Remote.Handshake.C73_handshake_at_most_once
#print axioms Verif.Remote.Handshake.C73_one_frame
#print axioms Verif.Remote.Handshake.C73_completed_partial
#print axioms Verif.Remote.Handshake.C73_not_connected
#print axioms Verif.Remote.Handshake.C73_attempts
#print axioms Verif.Remote.Handshake.C73_stale_ack_refuted
#print axioms Verif.Remote.Handshake.C73_stuck_refuted
#print axioms Verif.Remote.Handshake.C73_crash_refuted
#print axioms Verif.Remote.Handshake.C73_accounted
#print axioms Verif.Remote.Handshake.C73_identify_now
#print axioms Verif.Remote.Handshake.C73_acknowledged
#print axioms Verif.Remote.Handshake.C73_gives_up
#print axioms Verif.Remote.Handshake.C74_bound
#print axioms Verif.Remote.Handshake.C74_one_timer_partial
#print axioms Verif.Remote.Handshake.C74_leak
#print axioms Verif.Remote.Handshake.C74_refuted
#print axioms Verif.Remote.Handshake.C74_reports
#print axioms Verif.Sharding.C75_one_place
#print axioms Verif.Sharding.C75_made
#print axioms Verif.Sharding.C75_one_answer
#print axioms Verif.Sharding.C75_executed_once
#print axioms Verif.Sharding.C75_truthful
#print axioms Verif.Sharding.C75_refused
#print axioms Verif.Sharding.C75_in_shard
#print axioms Verif.Sharding.C75_shard_ends
#print axioms Verif.Sharding.C76_never_stuck_partial
#print axioms Verif.Sharding.C76_quiet_partial
#print axioms Verif.Sharding.C76_lost_refuted
#print axioms Verif.Sharding.C76_failed_start_refuted
#print axioms Verif.Remote.C77_handler_exact
#print axioms Verif.Remote.C77_factory_exact
#print axioms Verif.Remote.C77_name_leads_back
#print axioms Verif.Remote.C77_named_iff
#print axioms Verif.Remote.C77_all_sendable
#print axioms Verif.Remote.C77_capabilities
#print axioms Verif.Remote.C77_builtin
#print axioms Verif.Remote.C77_shared_name_refuted
#print axioms Verif.Remote.C77_actor_name_refuted
#print axioms Verif.Remote.C77_singletons
#print axioms Verif.Sharding.Ids.C78_host_ids
#print axioms Verif.Sharding.Ids.C78_shard_ids
#print axioms Verif.Sharding.Ids.C78_journal_keys
#print axioms Verif.Sharding.Ids.C78_reach_host
#print axioms Verif.Sharding.Ids.C78_reach_shard
#print axioms Verif.Sharding.Ids.C78_one_entity_partial
#print axioms Verif.Sharding.Ids.C78_last_coordinator_refuted
#print axioms Verif.Sharding.Ids.C78_last_manager_refuted
#print axioms Verif.Sharding.Ids.C78_odd_names_refuted
#print axioms Verif.Remote.C79_no_seed
#print axioms Verif.Remote.C79_joins
#print axioms Verif.Remote.C79_gives_up
#print axioms Verif.Remote.C79_asks_iff
#print axioms Verif.Remote.C79_address
#print axioms Verif.Remote.C79_no_answer_panics
#print axioms Verif.Remote.C79_self_seed_refuted
#print axioms Verif.Remote.C79_silent_refuted
#print axioms Verif.Remote.C80_at_most_once
#print axioms Verif.Remote.C80_all_answered
#print axioms Verif.Remote.C80_not_early
#print axioms Verif.Remote.C80_at_once
#print axioms Verif.Remote.C80_false_only_unidentified
#print axioms Verif.Remote.C80_true_refuted
#print axioms Verif.Remote.C80_second_request_refuted
#print axioms Verif.Remote.C80_discovery_undisturbed
#print axioms Verif.Remote.C81_send
#print axioms Verif.Remote.C81_missing
#print axioms Verif.Remote.C81_unsendable
#print axioms Verif.Remote.C81_result_lost
#print axioms Verif.Remote.C81_notify
#print axioms Verif.Remote.C81_closed_refuted
#print axioms Verif.Remote.C81_notify_missing_refuted
#print axioms Verif.Remote.C81_notify_reply_refuted
#print axioms Verif.Remote.C82_conserved
#print axioms Verif.Remote.C82_waiting_sender
#print axioms Verif.Remote.C82_any_order
#print axioms Verif.Remote.C82_order_refuted
#print axioms Verif.Remote.C83_local
#print axioms Verif.Remote.C83_local_reason
#print axioms Verif.Remote.C83_remote
#print axioms Verif.Remote.C83_silent_refuted
#print axioms Verif.Remote.C83_unreachable_refuted
#print axioms Verif.Remote.C83_own_node_refuted
#print axioms Verif.Remote.C83_empty_id_refuted
#print axioms Verif.Remote.C84_truth
#print axioms Verif.Remote.C84_once
#print axioms Verif.Remote.C84_none_lost
#print axioms Verif.Remote.C84_ends
#print axioms Verif.Remote.C84_table
#print axioms Verif.Remote.C84_in_order_partial
#print axioms Verif.Remote.C84_leak_refuted
#print axioms Verif.Remote.C84_overtaken_refuted
#print axioms Verif.Remote.C84_revived_refuted
#print axioms Verif.Sharding.C85_coordinator
#print axioms Verif.Sharding.C85_cluster
#print axioms Verif.Sharding.C85_given_iff
#print axioms Verif.Sharding.C85_host
#print axioms Verif.Sharding.C85_node_total_partial
#print axioms Verif.Sharding.C85_one_missing_refuted
#print axioms Verif.Sharding.C85_left_out_refuted
#print axioms Verif.Sharding.C85_empty_lists_refuted
#print axioms Verif.Sharding.C85_counted_twice_refuted
#print axioms Verif.Remote.C86_healthy_iff
#print axioms Verif.Remote.C86_told
#print axioms Verif.Remote.C86_out_partial
#print axioms Verif.Remote.C86_parting_iff
#print axioms Verif.Remote.C86_revived_refuted
#print axioms Verif.Chat.C87_history
#print axioms Verif.Chat.C87_shown
#print axioms Verif.Chat.C87_once_partial
#print axioms Verif.Chat.C87_gap_refuted
#print axioms Verif.Chat.C87_twice_refuted
#print axioms Verif.Chat.C87_order_refuted
#print axioms Verif.Chat.C87_repeated_refuted
#print axioms Verif.Chat.C87_after_leaving_refuted
#print axioms Verif.Chat.C87_joined_twice_refuted
#print axioms Verif.Chat.C87_failed_send_refuted
#print axioms Verif.Chat.C87_rejoin_keeps
#print axioms Verif.Chat.C88_in_order
#print axioms Verif.Chat.C88_ends
#print axioms Verif.Chat.C88_ends_soon
#print axioms Verif.Chat.C88_only_then
#print axioms Verif.Chat.C88_client_frames
#print axioms Verif.Chat.C88_conversation
#print axioms Verif.Chat.C88_panic_iff
#print axioms Verif.Chat.C88_panic_refuted
#print axioms Verif.Chat.C88_deaf_peer_refuted
#print axioms Verif.Chat.C88_left_open_refuted
#print axioms Verif.Chat.C88_close_stops
#print axioms Verif.Chat.C88_stays
#print axioms Verif.Actor.Path.C89_path
#print axioms Verif.Actor.Path.C89_path_partial
#print axioms Verif.Actor.Path.C89_equal_partial
#print axioms Verif.Actor.Path.C89_successor
#print axioms Verif.Actor.Path.C89_successor_refuted
#print axioms Verif.Actor.Path.C89_top_refuted
#print axioms Verif.Actor.Path.C89_slash_refuted
#print axioms Verif.Actor.Path.C89_supervised_refuted
#print axioms Verif.Actor.Path.C89_attach_refuted
#print axioms Verif.Actor.Path.C89_orphan_refuted
#print axioms Verif.Persist.Copies.C90_copies
#print axioms Verif.Persist.Copies.C90_next
#print axioms Verif.Persist.Copies.C90_blind
#print axioms Verif.Persist.Copies.C90_handover_partial
#print axioms Verif.Persist.Copies.C90_disagree_refuted
#print axioms Verif.Persist.Copies.C90_numbers_refuted
#print axioms Verif.Persist.Copies.C90_snapshot_refuted
#print axioms Verif.Persist.Copies.C90_twice_refuted
#print axioms Verif.Persist.Copies.C90_trim_refuted
#print axioms Verif.Persist.Copies.C90_redis_once_refuted
#print axioms Verif.Sharding.C91_one_each
#print axioms Verif.Sharding.C91_survivors
#print axioms Verif.Sharding.C91_all_end_partial
#print axioms Verif.Sharding.C91_once_partial
#print axioms Verif.Sharding.C91_stray_refuted
#print axioms Verif.Sharding.C91_started_twice_refuted
#print axioms Verif.Sharding.C91_move_refuted
#print axioms Verif.Proto.C92_varint
#print axioms Verif.Proto.C92_network
#print axioms Verif.Proto.C92_sharding
#print axioms Verif.Proto.C92_singleton
#print axioms Verif.Proto.C92_chat
#print axioms Verif.Proto.C92_journal
#print axioms Verif.Proto.C92_new_values_refuted
#print axioms Verif.Proto.C92_rearranged
#print axioms Verif.Proto.C92_any_order
#print axioms Verif.Proto.C92_map_last
#print axioms Verif.Proto.C92_truncated
#print axioms Verif.Sharding.C93_keeps_partial
#print axioms Verif.Sharding.C93_redis_partial
#print axioms Verif.Sharding.C93_move_refuted
#print axioms Verif.Sharding.C93_lost_refuted
#print axioms Verif.Sharding.C93_copies
#print axioms Verif.Sharding.C93_moves
#print axioms Verif.Persist.C94_redis_partial
#print axioms Verif.Persist.C94_batches
#print axioms Verif.Persist.C94_commuting_partial
#print axioms Verif.Persist.C94_handover_partial
#print axioms Verif.Persist.C94_as_one
#print axioms Verif.Persist.C94_equal_refuted
#print axioms Verif.Persist.C94_order_refuted
#print axioms Verif.Persist.C94_trim_refuted
#print axioms Verif.Sharding.C95_policy
#print axioms Verif.Sharding.C95_coordinator_reachable
#print axioms Verif.Sharding.C95_coordinator_no_loss
#print axioms Verif.Sharding.C95_coordinator_exact
#print axioms Verif.Sharding.C95_coordinator_same
#print axioms Verif.Sharding.C95_shard_partial
#print axioms Verif.Sharding.C95_shard_memory
#print axioms Verif.Sharding.C95_shard_forever_partial
#print axioms Verif.Sharding.C95_storages
#print axioms Verif.Sharding.C95_start_refuted
#print axioms Verif.Sharding.C95_lost_node_refuted
#print axioms Verif.Sharding.C95_shard_same
#print axioms Verif.Remote.Gossip.C96_identity
#print axioms Verif.Remote.Gossip.C96_handshake
#print axioms Verif.Remote.Gossip.C96_port
#print axioms Verif.Remote.Gossip.C96_agree_partial
#print axioms Verif.Remote.Gossip.C96_override_partial
#print axioms Verif.Remote.Gossip.C96_self_partial
#print axioms Verif.Remote.Gossip.C96_history
#print axioms Verif.Remote.Gossip.C96_no_panic
#print axioms Verif.Remote.Gossip.C96_selector_partial
#print axioms Verif.Remote.Gossip.C96_leader_partial
#print axioms Verif.Remote.Gossip.C96_placement_partial
#print axioms Verif.Remote.Gossip.C96_can_learn
#print axioms Verif.Remote.Gossip.C96_can_spread
#print axioms Verif.Remote.Gossip.C96_override_refuted
#print axioms Verif.Remote.Gossip.C96_override_placement_refuted
#print axioms Verif.Remote.Gossip.C96_reboot_refuted
#print axioms Verif.Remote.Gossip.C96_selects
#print axioms Verif.Sharding.C97_one_instance_partial
#print axioms Verif.Sharding.C97_where_partial
#print axioms Verif.Sharding.C97_remembers
#print axioms Verif.Sharding.C97_told_partial
#print axioms Verif.Sharding.C97_heals_partial
#print axioms Verif.Sharding.C97_can_heal_partial
#print axioms Verif.Sharding.C97_restart_refuted
#print axioms Verif.Sharding.C97_left_behind_refuted
#print axioms Verif.Sharding.C97_stopped_refuted
#print axioms Verif.Sharding.C97_crash
#print axioms Verif.Sharding.Keys.C98_keys
#print axioms Verif.Sharding.Keys.C98_group
#print axioms Verif.Sharding.Keys.C98_own
#print axioms Verif.Sharding.Keys.C98_names_partial
#print axioms Verif.Sharding.Keys.C98_entities_refuted
#print axioms Verif.Sharding.Keys.C98_snapshot_refuted
#print axioms Verif.Sharding.Keys.C98_twice_refuted
#print axioms Verif.Sharding.Keys.C98_shard_refuted
#print axioms Verif.K8s.C99_found_partial
#print axioms Verif.K8s.C99_panic_iff
#print axioms Verif.K8s.C99_phase
#print axioms Verif.K8s.C99_default
#print axioms Verif.K8s.C99_sidecar_refuted
#print axioms Verif.K8s.C99_hostname_refuted
#print axioms Verif.K8s.C99_ended_refuted
#print axioms Verif.K8s.C99_error_refuted
#print axioms Verif.Actor.Waits.C100_answered
#print axioms Verif.Actor.Waits.C100_framework_partial
#print axioms Verif.Actor.Waits.C100_knot_stays
#print axioms Verif.Actor.Waits.C100_knot_unanswered
#print axioms Verif.Actor.Waits.C100_knot_grows
#print axioms Verif.Actor.Waits.C100_knot_only
#print axioms Verif.Actor.Waits.C100_self
#print axioms Verif.Actor.Waits.C100_refused_refuted
#print axioms Verif.Actor.Waits.C100_clients_refuted
#print axioms Verif.Actor.Waits.C100_early_refuted
#print axioms Verif.Actor.Waits.C100_shutdown_refuted
#print axioms Verif.Json.C101_read_back_partial
#print axioms Verif.Json.C101_types
#print axioms Verif.Json.C101_remote
#print axioms Verif.Json.C101_newer
#print axioms Verif.Json.C101_older
#print axioms Verif.Json.C101_distinct
#print axioms Verif.Json.C101_null_refuted
#print axioms Verif.Json.C101_deep_refuted
#print axioms Verif.Json.C101_remote_refuted
#print axioms Verif.Json.C102_taken_partial
#print axioms Verif.Json.C102_refused
#print axioms Verif.Json.C102_unit_refuted
#print axioms Verif.Actor.Pool.C103_once
#print axioms Verif.Actor.Pool.C103_true
#print axioms Verif.Actor.Pool.C103_untouched
#print axioms Verif.Actor.Pool.C103_answered
#print axioms Verif.Actor.Pool.C103_ends
#print axioms Verif.Actor.Pool.C103_assigned
#print axioms Verif.Actor.Pool.C103_served
#print axioms Verif.Actor.Pool.C103_only_dead
#print axioms Verif.Actor.Pool.C103_waiting_partial
#print axioms Verif.Actor.Pool.C103_waiting_refuted
#print axioms Verif.Actor.Pool.C103_order_refuted
#print axioms Verif.Actor.Pool.C103_panic_refuted
#print axioms Verif.Actor.Pool.C103_empty
#print axioms Verif.Actor.Pool.C103_stop_pool
#print axioms Verif.Actor.Pool.C103_new_partial
#print axioms Verif.Actor.Pool.C103_new_refuted
#print axioms Verif.Remote.Peering.C104_only
#print axioms Verif.Remote.Peering.C104_mutual
#print axioms Verif.Remote.Peering.C104_far
#print axioms Verif.Remote.Peering.C104_exact
#print axioms Verif.Remote.Peering.C104_ends
#print axioms Verif.Remote.Peering.C104_stuck
#print axioms Verif.Remote.Peering.C104_answered
#print axioms Verif.Remote.Peering.C104_no_more
#print axioms Verif.Remote.Peering.C104_told
#print axioms Verif.Remote.Peering.C104_told_all
#print axioms Verif.Remote.Peering.C104_join
#print axioms Verif.Remote.Peering.C104_lost_refuted
#print axioms Verif.Remote.Peering.C104_early_refuted
#print axioms Verif.Remote.Peering.C104_unreachable_refuted
#print axioms Verif.Remote.Lookup.C105_no_circle
#print axioms Verif.Remote.Lookup.C105_ends
#print axioms Verif.Remote.Lookup.C105_moves
#print axioms Verif.Remote.Lookup.C105_account
#print axioms Verif.Remote.Lookup.C105_answered
#print axioms Verif.Remote.Lookup.C105_true
#print axioms Verif.Remote.Lookup.C105_found_partial
#print axioms Verif.Remote.Lookup.C105_circle_refuted
#print axioms Verif.Remote.Lookup.C105_before_join_refuted
#print axioms Verif.Remote.Lookup.C105_giveup_refuted
#print axioms Verif.Remote.OneLeader.C106_no_panic
#print axioms Verif.Remote.OneLeader.C106_agreement_partial
#print axioms Verif.Remote.OneLeader.C106_exactly_one_partial
#print axioms Verif.Remote.OneLeader.C106_dead_never_leads_partial
#print axioms Verif.Remote.OneLeader.C106_stays
#print axioms Verif.Remote.OneLeader.C106_missed_ping_refuted
#print axioms Verif.Remote.OneLeader.C106_split_refuted
#print axioms Verif.Remote.OneLeader.C106_two_leaders_refuted
#print axioms Verif.Remote.OneLeader.C106_ends
#print axioms Verif.Remote.OneLeader.C106_answers
#print axioms Verif.Singleton.C107_steps_partial
#print axioms Verif.Singleton.C107_only_leader_partial
#print axioms Verif.Singleton.C107_runs_partial
#print axioms Verif.Singleton.C107_reachable_partial
#print axioms Verif.Singleton.C107_failed_start_refuted
#print axioms Verif.Singleton.C108_accounted_partial
#print axioms Verif.Singleton.C108_one_instance_partial
#print axioms Verif.Singleton.C108_no_error_partial
#print axioms Verif.Singleton.C108_delivered_partial
#print axioms Verif.Singleton.C108_reachable_partial
#print axioms Verif.Singleton.C108_order_refuted
#print axioms Verif.Singleton.C108_ended_refuted
#print axioms Verif.Singleton.C109_steps_partial
#print axioms Verif.Singleton.C109_only_leader_partial
#print axioms Verif.Singleton.C109_runs_partial
#print axioms Verif.Singleton.C109_reachable_partial
#print axioms Verif.Singleton.C109_last_partial
#print axioms Verif.Singleton.C109_early_removal_refuted
#print axioms Verif.Singleton.C109_second_crash_refuted
#print axioms Verif.Singleton.C109_lost_refuted
#print axioms Verif.Singleton.Joint.C110_only_there_partial
#print axioms Verif.Singleton.Joint.C110_goes_on_partial
#print axioms Verif.Singleton.Joint.C110_told_partial
#print axioms Verif.Singleton.Joint.C110_can_be_told
#print axioms Verif.Singleton.Joint.C110_refuted
#print axioms Verif.Singleton.Joint.C110_hasty_joiner_refuted
#print axioms Verif.Singleton.Joint.C110_alone_refuted
#print axioms Verif.Singleton.Joint.C110_late_manager_refuted
#print axioms Verif.Singleton.Joint.C110_early_request_refuted
#print axioms Verif.Singleton.Joint.C110_untold_refuted
#print axioms Verif.Json.C111_understood
#print axioms Verif.Json.C111_refused
#print axioms Verif.Json.C111_one_meaning
#print axioms Verif.Json.C111_one_value
#print axioms Verif.Json.C111_written
#print axioms Verif.Singleton.Joint.C112_takes_over_partial
#print axioms Verif.Singleton.Joint.C112_only_successor_partial
#print axioms Verif.Singleton.Joint.C112_goes_on_partial
#print axioms Verif.Singleton.Joint.C112_silent_end_refuted
#print axioms Verif.Singleton.Joint.C112_out_of_sight_refuted
#print axioms Verif.Sharding.Hosts.C113_none_missed
#print axioms Verif.Sharding.Hosts.C113_registered
#print axioms Verif.Sharding.Hosts.C113_last_word
#print axioms Verif.Sharding.Hosts.C113_gone
#print axioms Verif.Sharding.Hosts.C113_steady
#print axioms Verif.Sharding.Hosts.C113_comes_back
#print axioms Verif.Sharding.Hosts.C113_shut_out_refuted
#print axioms Verif.Sharding.Hosts.C113_alive_unused_refuted
#print axioms Verif.Sharding.Hosts.C113_gone_refuted
#print axioms Verif.Sharding.Hosts.C113_work
#print axioms Verif.Sharding.Hosts.C113_not_itself
#print axioms Verif.Sharding.Hosts.C113_stopped
#print axioms Verif.Sharding.Hosts.C113_removed_once
#print axioms Verif.Remote.Topics.C114_addressees
#print axioms Verif.Remote.Topics.C114_once
#print axioms Verif.Remote.Topics.C114_everybody_partial
#print axioms Verif.Remote.Topics.C114_rest
#print axioms Verif.Remote.Topics.C114_mediator
#print axioms Verif.Remote.Topics.C114_prefix
#print axioms Verif.Remote.Topics.C114_reaches
#print axioms Verif.Remote.Topics.C114_steady
#print axioms Verif.Remote.Topics.C114_comes_back
#print axioms Verif.Remote.Topics.C114_answer
#print axioms Verif.Remote.Topics.C114_shut_out_refuted
#print axioms Verif.Remote.Topics.C114_one_way_refuted
#print axioms Verif.Remote.Topics.C114_half_refuted
#print axioms Verif.Remote.Topics.C114_lost_refuted
#print axioms Verif.Remote.Topics.C114_not_itself
#print axioms Verif.Remote.Topics.C114_told
#print axioms Verif.Remote.Topics.C114_dead
#print axioms Verif.Remote.Api.C115_nodes
#print axioms Verif.Remote.Api.C115_leader_tag
#print axioms Verif.Remote.Api.C115_steady
#print axioms Verif.Remote.Api.C115_answered
#print axioms Verif.Remote.Api.C115_elected
#print axioms Verif.Remote.Api.C115_not_elected
#print axioms Verif.Remote.Api.C115_known
#print axioms Verif.Remote.Api.C115_status
#print axioms Verif.Remote.Api.C115_health
#print axioms Verif.Remote.Api.C115_health_given
#print axioms Verif.Remote.Api.C115_checks
#print axioms Verif.Remote.Api.C115_times
#print axioms Verif.Remote.Api.C115_cause_partial
#print axioms Verif.Remote.Api.C115_actors
#print axioms Verif.Remote.Api.C115_all_actors
#print axioms Verif.Remote.Api.C115_outcome
#print axioms Verif.Remote.Api.C115_truthful
#print axioms Verif.Remote.Api.C115_types
#print axioms Verif.Remote.Api.C115_all_stats
#print axioms Verif.Remote.Api.C115_big_leader_refuted
#print axioms Verif.Remote.Api.C115_torn_refuted
#print axioms Verif.Remote.Api.C115_no_cause_refuted
#print axioms Verif.Remote.Api.C115_health_torn_refuted
#print axioms Verif.Remote.Api.C115_twice_refuted
#print axioms Verif.Remote.Api.C115_timeout_refuted
#print axioms Verif.Persist.Shared.C116_explained
#print axioms Verif.Persist.Shared.C116_once
#print axioms Verif.Persist.Shared.C116_ends
#print axioms Verif.Persist.Shared.C116_own
#print axioms Verif.Persist.Shared.C116_read_back
#print axioms Verif.Persist.Shared.C116_latest
#print axioms Verif.Persist.Shared.C116_commands
#print axioms Verif.Persist.Shared.C116_readings
#print axioms Verif.Persist.Shared.C116_methods
#print axioms Verif.Persist.Shared.C116_free
#print axioms Verif.Persist.Shared.C116_down
#print axioms Verif.Persist.Shared.C116_delete_holds_up
#print axioms Verif.Persist.Shared.C116_late_refuted
#print axioms Verif.Persist.Shared.C116_dead_writer_refuted
#print axioms Verif.Persist.Shared.C116_sent_order_refuted
#print axioms Verif.Persist.Shared.C116_stall_refuted
#print axioms Verif.Persist.Client.C117_own
#print axioms Verif.Persist.Client.C117_alone
#print axioms Verif.Persist.Client.C117_survives_partial
#print axioms Verif.Persist.Client.C117_batches
#print axioms Verif.Persist.Client.C117_keys
#print axioms Verif.Persist.Client.C117_persists
#print axioms Verif.Persist.Client.C117_dead_writer_refuted
#print axioms Verif.Persist.Client.C117_gave_up_refuted
#print axioms Verif.Persist.Client.C117_removed_refuted
#print axioms Verif.Actor.Blocking.C118_as_awaited_partial
#print axioms Verif.Actor.Blocking.C118_actors
#print axioms Verif.Actor.Blocking.C118_panics
#print axioms Verif.Actor.Blocking.C118_awaited
#print axioms Verif.Actor.Blocking.C118_true
#print axioms Verif.Actor.Blocking.C118_result
#print axioms Verif.Actor.Blocking.C118_returns
#print axioms Verif.Actor.Blocking.C118_registered
#print axioms Verif.Actor.Blocking.C118_inside_refuted
#print axioms Verif.Actor.Blocking.C118_outside_refuted
#print axioms Verif.Actor.Blocking.C118_silent_refuted
#print axioms Verif.Actor.Blocking.C118_ended
#print axioms Verif.Actor.Blocking.C118_waits
#print axioms Verif.Remote.Trip.C119_once_partial
#print axioms Verif.Remote.Trip.C119_told
#print axioms Verif.Remote.Trip.C119_actor
#print axioms Verif.Remote.Trip.C119_waits
#print axioms Verif.Remote.Trip.C119_nothing_lost
#print axioms Verif.Remote.Trip.C119_answerable
#print axioms Verif.Remote.Trip.C119_code
#print axioms Verif.Remote.Trip.C119_lost_waits
#print axioms Verif.Remote.Trip.C119_lost_refuted
#print axioms Verif.Remote.Trip.C119_unconnected_refuted
#print axioms Verif.Remote.Trip.C119_large_refuted
#print axioms Verif.Remote.Trip.C119_cannot_tell_refuted
#print axioms Verif.Remote.Trip.C119_waiting_order
#print axioms Verif.Remote.Trip.C119_order_refuted
#print axioms Verif.Remote.Trip.C119_reads_on
#print axioms Verif.Remote.Trip.C119_removed
#print axioms Verif.Remote.Trip.C119_frames
#print axioms Verif.Remote.Trip.C119_cut_off
#print axioms Verif.Remote.Trip.C119_renewed
#print axioms Verif.Remote.Trip.C119_one_client
#print axioms Verif.Remote.Trip.C119_renewed_back
#print axioms Verif.Persist.Trims.C120_range
#print axioms Verif.Persist.Trims.C120_latest
#print axioms Verif.Persist.Trims.C120_one
#print axioms Verif.Persist.Trims.C120_again
#print axioms Verif.Persist.Trims.C120_survives_partial
#print axioms Verif.Persist.Trims.C120_back_refuted
#print axioms Verif.Persist.Trims.C120_single_refuted
#print axioms Verif.Remote.Readers.C121_session_fatal
#print axioms Verif.Remote.Readers.C121_client_fatal
#print axioms Verif.Remote.Readers.C121_session_told
#print axioms Verif.Remote.Readers.C121_client_told
#print axioms Verif.Remote.Readers.C121_session_over
#print axioms Verif.Remote.Readers.C121_client_over
#print axioms Verif.Remote.Readers.C121_own_session
#print axioms Verif.Remote.Readers.C121_own_client
#print axioms Verif.Remote.Readers.C121_session_partial
#print axioms Verif.Remote.Readers.C121_client_partial
#print axioms Verif.Remote.Readers.C121_introduced
#print axioms Verif.Remote.Readers.C121_shaken
#print axioms Verif.Remote.Readers.C121_table
#print axioms Verif.Remote.Readers.C121_session_refuted
#print axioms Verif.Remote.Readers.C121_client_refuted
#print axioms Verif.Remote.Readers.C121_early_refuted
#print axioms Verif.Remote.Readers.C121_waits_refuted
#print axioms Verif.Remote.Readers.C121_newer_refuted
#print axioms Verif.Remote.Readers.C121_shut_down
#print axioms Verif.Remote.Readers.C121_introduced_once
#print axioms Verif.Persist.Flock.C122_known
#print axioms Verif.Persist.Flock.C122_asked
#print axioms Verif.Persist.Flock.C122_starts
#print axioms Verif.Persist.Flock.C122_keys
#print axioms Verif.Sharding.C122_coordinators
#print axioms Verif.Sharding.C122_shards
#print axioms Verif.Persist.Flock.C122_late_refuted
#print axioms Verif.Persist.Flock.C122_disagree_refuted
#print axioms Verif.Persist.Flock.C122_once_refuted
#print axioms Verif.Persist.Flock.C122_order_refuted
#print axioms Verif.Persist.Flock.C122_crash
#print axioms Verif.Persist.Flock.C122_apart
#print axioms Verif.Persist.Flock.C122_empty
#print axioms Verif.Persist.Flock.C122_left_behind
#print axioms Verif.Persist.Flock.C122_waits
#print axioms Verif.Uuid.C123_parse
#print axioms Verif.Uuid.C123_read_back
#print axioms Verif.Uuid.C123_messages
#print axioms Verif.Uuid.C123_panics
#print axioms Verif.Uuid.C123_length
#print axioms Verif.Uuid.C123_refused_refuted
#print axioms Verif.Sharding.Debounce.C124_arrivals
#print axioms Verif.Sharding.Debounce.C124_at_most
#print axioms Verif.Sharding.Debounce.C124_quiet
#print axioms Verif.Sharding.Debounce.C124_follows_partial
#print axioms Verif.Sharding.Debounce.C124_put_off_refuted
#print axioms Verif.Sharding.Debounce.C124_twice_refuted
#print axioms Verif.Sharding.Debounce.C124_even
#print axioms Verif.Singleton.Status.C125_status
#print axioms Verif.Singleton.Status.C125_running_partial
#print axioms Verif.Singleton.Status.C125_none_partial
#print axioms Verif.Singleton.Status.C125_one_partial
#print axioms Verif.Singleton.Status.C125_dead_refuted
#print axioms Verif.Singleton.Status.C125_idle_refuted
#print axioms Verif.Singleton.Status.C125_starting_refuted
#print axioms Verif.Singleton.Status.C125_remote_refuted
