{
 "claims": [
  {
   "property": "C01",
   "status": "proved",
   "theorems": [
    "Verif.Persist.C01_replay_without_snapshots",
    "Verif.Persist.C01_replay_any_outcome",
    "Verif.Persist.mem_recovery_exact",
    "Verif.Persist.persist_call_is_history"
   ],
   "note": "In-memory storage; all histories of any number of actors. Assumes no storage call fails after having stored; C01_replay_any_outcome drops that and gives what was kept."
  },
  {
   "property": "C02",
   "status": "partial",
   "theorems": [
    "Verif.Persist.C02_snapshot_recovery_partial",
    "Verif.Persist.C02_sound_partial",
    "Verif.Persist.C02_refuted",
    "Verif.Persist.C02_refuted_lost_ack",
    "Verif.Persist.mem_recovery_exact"
   ],
   "note": "False as stated: the first single persist after a snapshot reuses its number and is not recovered. mem_recovery_exact says exactly what is recovered."
  },
  {
   "property": "C03",
   "status": "proved",
   "theorems": [
    "Verif.Persist.C03_ok_stored_once",
    "Verif.Persist.C03_ok_stored_once_mem",
    "Verif.Persist.C03_ok_batch_stored_once",
    "Verif.Persist.C03_ok_snapshot_stored_once",
    "Verif.Persist.C03_err_unchanged",
    "Verif.Persist.C03_redis_once",
    "Verif.Persist.C03_lost_ack_duplicates"
   ],
   "note": "Any storage if failed attempts stored nothing; on Redis for every failure pattern. An appending storage that stores and then reports failure would keep a duplicate (C03_lost_ack_duplicates)."
  },
  {
   "property": "C04",
   "status": "proved",
   "theorems": [
    "Verif.Persist.C04_sequence_monotone",
    "Verif.Persist.C04_lost_ack_refuted"
   ],
   "note": "In-memory storage, no lost acknowledgements; with them numbers do repeat (C04_lost_ack_refuted)."
  },
  {
   "property": "C05",
   "status": "partial",
   "theorems": [
    "Verif.Persist.C05_trim_invisible_mem",
    "Verif.Persist.C05_redis_refuted",
    "Verif.Persist.C08_redis_replay_partial",
    "Verif.Persist.C08_redis_batches_only_partial",
    "Verif.Persist.C05_trim_call"
   ],
   "note": "In-memory: proved for every history. Redis: false (trim removes the first single message after the snapshot); true when safe, see C08."
  },
  {
   "property": "C06",
   "status": "partial",
   "theorems": [
    "Verif.Persist.C06_range_read_partial",
    "Verif.Persist.C06_panic_iff",
    "Verif.Persist.C06_exact",
    "Verif.Persist.C06_read_message",
    "Verif.Persist.C06_redis_range",
    "Verif.Persist.C06_refuted_panic",
    "Verif.Persist.C06_refuted_extra",
    "Verif.Persist.C06_refuted_missing"
   ],
   "note": "False for the in-memory storage (panic, extra and missing messages); exact panic condition; Redis exact with both bounds included."
  },
  {
   "property": "C07",
   "status": "proved",
   "theorems": [
    "Verif.Persist.C07_entry_roundtrip",
    "Verif.Persist.C07_entry_injective"
   ],
   "note": "Byte-level protobuf encoding."
  },
  {
   "property": "C08",
   "status": "partial",
   "theorems": [
    "Verif.Persist.C08_redis_replay_partial",
    "Verif.Persist.C08_redis_batches_only_partial",
    "Verif.Persist.C08_redis_nothing_lost_partial",
    "Verif.Persist.C08_refuted_order",
    "Verif.Persist.C08_refuted_duplicate"
   ],
   "note": "False as stated: singles written after a restart or batch share a number; order and multiplicity are lost, never (without trims) the message itself."
  },
  {
   "property": "C09",
   "status": "proved",
   "theorems": [
    "Verif.Persist.C09_max_attempts_ok",
    "Verif.Persist.C09_max_attempts_err",
    "Verif.Persist.C09_max_attempts_bound",
    "Verif.Persist.C09_until_success",
    "Verif.Persist.C09_stop_policy",
    "Verif.Persist.C09_batch_snapshot_bound",
    "Verif.Persist.C09_recovery",
    "Verif.Persist.C09_stop_exact",
    "Verif.Persist.C09_recovery_waiting",
    "Verif.Persist.C09_empty_batch",
    "Verif.Persist.C09_pending_attempts"
   ],
   "note": "All limits and failure patterns."
  },
  {
   "property": "C10",
   "status": "proved",
   "theorems": [
    "Verif.Persist.C10_mem_independent",
    "Verif.Persist.C10_redis_independent",
    "Verif.Persist.C10_redis_keys_injective",
    "Verif.Persist.C10_delete_all"
   ],
   "note": "Both storages, both key layouts."
  },
  {
   "property": "C11",
   "status": "proved",
   "theorems": [
    "Verif.Persist.C11_unknown_skipped",
    "Verif.Persist.C11_counters_unaffected",
    "Verif.Persist.C04_sequence_monotone"
   ],
   "note": "Any storage."
  },
  {
   "property": "C12",
   "status": "proved",
   "theorems": [
    "Verif.Actor.C12_fifo",
    "Verif.Actor.C12_nothing_lost",
    "Verif.Actor.C12_one_at_a_time",
    "Verif.Actor.C12_at_most_once",
    "Verif.Actor.C12_before_stop",
    "Verif.Actor.C12_progress"
   ],
   "note": "For every behaviour, number of senders and schedule. C12_before_stop/C12_progress are for actors that do not stop themselves or panic, as the property says."
  },
  {
   "property": "C13",
   "status": "proved",
   "theorems": [
    "Verif.Actor.C13_own_result",
    "Verif.Actor.C13_handled_is_answered",
    "Verif.Actor.C13_at_most_one",
    "Verif.Actor.C13_exactly_one",
    "Verif.Actor.C13_stop_exactly_one"
   ],
   "note": "Request identities are distinct (each send makes its own oneshot channel). Panicking handlers included."
  },
  {
   "property": "C14",
   "status": "proved",
   "theorems": [
    "Verif.Actor.C14_lifecycle",
    "Verif.Actor.C14_complete",
    "Verif.Actor.C14_status_forward",
    "Verif.Actor.C14_status_seen",
    "Verif.Actor.C14_starter",
    "Verif.Actor.C14_starter_answered"
   ],
   "note": "C14_complete excludes panics (the stopped hook is then skipped); C14_lifecycle includes them. User code calling ctx.set_status directly is not modelled."
  },
  {
   "property": "C15",
   "status": "partial",
   "theorems": [
    "Verif.Actor.C15_watchers_partial",
    "Verif.Actor.C15_not_early",
    "Verif.Actor.C15_panic_silent",
    "Verif.Actor.C15_refuted"
   ],
   "note": "Holds for every orderly stop. Refuted in full: if the scheduler cannot answer DeregisterActor the expect() panics and watchers are not told; the same after any panic."
  },
  {
   "property": "C16",
   "status": "proved",
   "theorems": [
    "Verif.Actor.C16_children",
    "Verif.Actor.C16_spawn_refused",
    "Verif.Actor.C16_reuse",
    "Verif.Actor.C16_stop_all",
    "Verif.Actor.C16_stop_all_only",
    "Verif.Actor.C16_stop_all_count",
    "Verif.Actor.C16_family_partial",
    "Verif.Actor.C16_family_refuted",
    "Verif.Actor.C16_stale_notice_refuted",
    "Verif.Actor.C16_stop_all_rest"
   ],
   "note": "By id for all operation sequences. The stronger reading about actor instances holds when no reference is attached by hand (C16_family_partial) and is refuted otherwise."
  },
  {
   "property": "C17",
   "status": "partial",
   "theorems": [
    "Verif.Actor.C17_refuted",
    "Verif.Actor.C17_dead_ref_refuted",
    "Verif.Actor.C17_lookup_partial",
    "Verif.Actor.C17_quiet_partial"
   ],
   "note": "Refuted in full: DeregisterActor removes by id, so an old actor de-registers its replacement; an actor stopping before its registration stays registered. Proved when ids are not shared by running actors and no actor stops before its registration is sent."
  },
  {
   "property": "C18",
   "status": "proved",
   "theorems": [
    "Verif.Actor.C18_round_robin",
    "Verif.Actor.C18_fair",
    "Verif.Actor.C18_all_served",
    "Verif.Actor.C18_empty_pool"
   ],
   "note": ""
  },
  {
   "property": "C19",
   "status": "partial",
   "theorems": [
    "Verif.Remote.C19_outstanding",
    "Verif.Remote.C19_answered",
    "Verif.Remote.C19_at_most_once",
    "Verif.Remote.C19_reply_completes_one",
    "Verif.Remote.C19_unknown_reply_ignored",
    "Verif.Remote.C19_duplicate_reply_ignored",
    "Verif.Remote.C19_outstanding_partial",
    "Verif.Remote.C19_failed_request_refuted",
    "Verif.Remote.C19_responder_keeps_entries",
    "Verif.Remote.C19_reply_leak_refuted",
    "Verif.Remote.C19_session_reply_clean_partial",
    "Verif.Remote.C19_pair_conserved"
   ],
   "note": "Correlation, at-most-once and ignoring of unknown replies hold for every interleaving. \"Outstanding = issued and not answered\" is refuted: send leaves the entry when building the request fails, and every reply sent through node_rpc_raw leaves an entry at the responder for ever."
  },
  {
   "property": "C20",
   "status": "proved",
   "theorems": [
    "Verif.Remote.C20_session_event_roundtrip",
    "Verif.Remote.C20_client_event_roundtrip",
    "Verif.Remote.C20_unwritable",
    "Verif.Remote.C20_client_always_writable",
    "Verif.Remote.C20_session_rejects",
    "Verif.Remote.C20_client_rejects",
    "Verif.Remote.C20_session_injective",
    "Verif.Remote.C20_session_connection",
    "Verif.Remote.C20_client_connection",
    "Verif.Remote.C20_malformed_body_panics",
    "Verif.Remote.C20_framing"
   ],
   "note": "Byte-level protobuf, length-delimited framing under any chunking, and the receive loop."
  },
  {
   "property": "C21",
   "status": "proved",
   "theorems": [
    "Verif.Remote.C21_error_roundtrip",
    "Verif.Remote.C21_error_arrives",
    "Verif.Remote.C21_injective"
   ],
   "note": ""
  },
  {
   "property": "C22",
   "status": "proved",
   "theorems": [
    "Verif.Remote.C22_gate",
    "Verif.Remote.C22_stopped",
    "Verif.Remote.C22_accepts",
    "Verif.Remote.C22_effect_needs_token",
    "Verif.Remote.C22_identify_first",
    "Verif.Remote.C22_effect_asked",
    "Verif.Remote.C22_effects_asked"
   ],
   "note": "For every sequence of frames and socket errors. Signing and verification (jwt, HMAC) are parameters. \"Stopped\" is orderly unless the first frame makes the reader panic; then the session task dies (see C57 for the consequences)."
  },
  {
   "property": "C23",
   "status": "partial",
   "theorems": [
    "Verif.Remote.C23_lifetime_partial",
    "Verif.Remote.C23_monotone",
    "Verif.Remote.C23_forged",
    "Verif.Remote.C23_accepted_only",
    "Verif.Remote.C23_huge_ttl_refuted"
   ],
   "note": "Exact for every lifetime chrono can represent; above that validation panics instead of accepting (refuted). The law verify(sign p) = p is a hypothesis."
  },
  {
   "property": "C24",
   "status": "partial",
   "theorems": [
    "Verif.Remote.C24_byte_counter",
    "Verif.Remote.C24_order_partial",
    "Verif.Remote.C24_flushed_partial",
    "Verif.Remote.C24_oversize_refuted",
    "Verif.Remote.C24_oversize_blocks",
    "Verif.Remote.C24_flush_breaks"
   ],
   "note": "Exact for every history of frames within the 8 MiB limit; the byte counter is exact for every history. Refuted for larger frames: such a frame blocks the buffer for ever and later messages overtake those behind it."
  },
  {
   "property": "C25",
   "status": "partial",
   "theorems": [
    "Verif.Remote.C25_retries",
    "Verif.Remote.C25_success_resets",
    "Verif.Remote.C25_orderly_partial",
    "Verif.Remote.C25_eleven_failures",
    "Verif.Remote.C25_off_by_one_refuted",
    "Verif.Remote.C25_closed_early_hangs",
    "Verif.Remote.C25_closed_early_refuted",
    "Verif.Remote.C25_late_report_refuted"
   ],
   "note": "Exact count over orderly histories; a retry is always under way in every history. Refuted: ten failures are enough after a lost connection; a peer closing before it identifies itself hangs the client for ever; a loss noticed twice counts twice or tears down the next connection."
  },
  {
   "property": "C26",
   "status": "partial",
   "theorems": [
    "Verif.Remote.C26_leader_partial",
    "Verif.Remote.C26_order_irrelevant",
    "Verif.Remote.C26_agree",
    "Verif.Remote.C26_never_unhealthy",
    "Verif.Remote.C26_waiters",
    "Verif.Remote.C26_big_ids_refuted",
    "Verif.Remote.C26_big_ids_reannounced"
   ],
   "note": "Oldest healthy node is elected, independent of iteration order, for ids below 2^63. Ids from 2^63 (half of the default random ids) are stored as negative i64 and read back as no leader; the leader is announced again on each tick."
  },
  {
   "property": "C27",
   "status": "partial",
   "theorems": [
    "Verif.Remote.C27_answered",
    "Verif.Remote.C27_unpinged",
    "Verif.Remote.C27_disconnected",
    "Verif.Remote.C27_self",
    "Verif.Remote.C27_missed_inverted",
    "Verif.Remote.C27_missed_refuted",
    "Verif.Remote.C27_error_twice_refuted",
    "Verif.Remote.C27_clock_back_refuted",
    "Verif.Remote.C27_last_heartbeat",
    "Verif.Remote.C27_missed_after_answer",
    "Verif.Remote.C27_notice",
    "Verif.Remote.C27_self_seen"
   ],
   "note": "Status after an answered, unsent or disconnected ping is as documented. For missed pings the comparison is the wrong way round: a long silent node is unhealthy and a recently silent one terminated."
  },
  {
   "property": "C28",
   "status": "partial",
   "theorems": [
    "Verif.Remote.C28_at_most_once",
    "Verif.Remote.C28_members_partial",
    "Verif.Remote.C28_refuted",
    "Verif.Remote.C28_published_only",
    "Verif.Remote.C28_large_cluster_refuted",
    "Verif.Remote.C28_single_node_refuted",
    "Verif.Remote.C28_announced_iff"
   ],
   "note": "MemberUp is published at most once. The minimum-size test is inverted: a cluster larger than the minimum is never announced, a smaller one is; single_node_cluster never announces."
  },
  {
   "property": "C29",
   "status": "partial",
   "theorems": [
    "Verif.Remote.C29_owner_partial",
    "Verif.Remote.C29_order_partial",
    "Verif.Remote.C29_add_partial",
    "Verif.Remote.C29_remove_partial",
    "Verif.Remote.C29_refuted",
    "Verif.Remote.C29_added_twice_refuted",
    "Verif.Remote.C29_updated_refuted"
   ],
   "note": "Consistent hashing holds in histories in which no known id is added again and updates do not change node details. Otherwise stale ring entries are left behind and chosen after removal."
  },
  {
   "property": "C30",
   "status": "partial",
   "theorems": [
    "Verif.Remote.C30_added",
    "Verif.Remote.C30_updated",
    "Verif.Remote.C30_removed",
    "Verif.Remote.C30_unknown",
    "Verif.Remote.C30_terminated",
    "Verif.Remote.C30_terminated_still_chosen_refuted",
    "Verif.Remote.C30_terminated_refuted",
    "Verif.Remote.C30_stale_update_refuted"
   ],
   "note": "The directory follows the last operation on each id. A terminated node is still chosen for placement, and a heartbeat writing back what it read brings removed nodes back."
  },
  {
   "property": "C31",
   "status": "partial",
   "theorems": [
    "Verif.Remote.C31_agree",
    "Verif.Remote.C31_sound",
    "Verif.Remote.C31_found_partial",
    "Verif.Remote.C31_stale_refuted",
    "Verif.Remote.C31_stale_instance_refuted",
    "Verif.Remote.C31_view_refuted",
    "Verif.Remote.C31_order_refuted"
   ],
   "note": "With a stable membership all nodes agree, answers are nodes the actor was started on, and an actor with one home is found there once its registration has arrived. Entries of stopped actors are never removed, are lost when membership changes, and a late registration overwrites a newer one."
  },
  {
   "property": "C32",
   "status": "partial",
   "theorems": [
    "Verif.Remote.C32_once",
    "Verif.Remote.C32_known_address",
    "Verif.Remote.C32_known_nodes",
    "Verif.Remote.C32_announced_partial",
    "Verif.Remote.C32_rediscover_partial",
    "Verif.Remote.C32_failed_refuted",
    "Verif.Remote.C32_failed_instance_refuted",
    "Verif.Remote.C32_no_client_refuted",
    "Verif.Remote.C32_forgotten_refuted",
    "Verif.Remote.C32_alias_refuted",
    "Verif.Remote.C32_forget",
    "Verif.Remote.C32_removed_once"
   ],
   "note": "At most one announcement per life of a node. After a failed handshake a node is never announced again; a node forgotten but not terminated, found under an alias, or unreachable at its own address cannot be rediscovered."
  },
  {
   "property": "C33",
   "status": "partial",
   "theorems": [
    "Verif.Remote.C33_prefix",
    "Verif.Remote.C33_accepted",
    "Verif.Remote.C33_complete_partial",
    "Verif.Remote.C33_alive",
    "Verif.Remote.C33_unsubscribed",
    "Verif.Remote.C33_lag_refuted",
    "Verif.Remote.C33_refuted",
    "Verif.Remote.C33_unsubscribe_refuted",
    "Verif.Remote.C33_name_clash_refuted",
    "Verif.Remote.C33_cluster_once_partial",
    "Verif.Remote.C33_cluster_order_refuted",
    "Verif.Remote.C33_cluster_here",
    "Verif.Remote.C33_cluster_there"
   ],
   "note": "Always a prefix in order; complete for subscribers that never fall more than 1024 behind. A subscriber further behind is silently cut off for ever; messages not yet passed on are lost on unsubscribing; across nodes the order may change."
  },
  {
   "property": "C34",
   "status": "partial",
   "theorems": [
    "Verif.Remote.C34_registered",
    "Verif.Remote.C34_report_partial",
    "Verif.Remote.C34_order",
    "Verif.Remote.C34_hangs_refuted",
    "Verif.Remote.C34_same_id_refuted"
   ],
   "note": "Exactly as documented if every check answers; a check that does not answer blocks the report for ever (no timeout). Removing by id removes checks on other paths too."
  },
  {
   "property": "C35",
   "status": "partial",
   "theorems": [
    "Verif.Remote.C35_found",
    "Verif.Remote.C35_missing",
    "Verif.Remote.C35_bounded_lookups",
    "Verif.Remote.C35_error_says_why",
    "Verif.Remote.C35_success",
    "Verif.Remote.C35_no_handler",
    "Verif.Remote.C35_direct",
    "Verif.Remote.C35_direct_result",
    "Verif.Remote.C35_one_reply",
    "Verif.Remote.C35_at_most_one_reply",
    "Verif.Remote.C35_malformed_id_refuted",
    "Verif.Remote.C35_actor_error_lost_refuted",
    "Verif.Remote.C35_lookup_sound",
    "Verif.Remote.C35_lookup_complete",
    "Verif.Remote.C35_lookup_exact_partial",
    "Verif.Remote.C35_shared_cache_refuted"
   ],
   "note": "One outcome and at most nine lookups, for every registry behaviour. Refuted: a malformed message id gets no reply; the actor's own error is replaced by a closed channel; two actor systems in one process share the reference cache."
  },
  {
   "property": "C36",
   "status": "proved",
   "theorems": [
    "Verif.Remote.C36_cluster_event_roundtrip",
    "Verif.Remote.C36_always_writable",
    "Verif.Remote.C36_rejects"
   ],
   "note": ""
  },
  {
   "property": "C37",
   "status": "proved",
   "theorems": [
    "Verif.Sharding.C37_consistent",
    "Verif.Sharding.C37_one_host",
    "Verif.Sharding.C37_available"
   ],
   "note": "For every run of the coordinator from start or recovery, with every iteration order of its tables."
  },
  {
   "property": "C38",
   "status": "proved",
   "theorems": [
    "Verif.Sharding.C38_least_loaded",
    "Verif.Sharding.C38_refused_iff"
   ],
   "note": "Ties are broken by the iteration order of the host table, which is arbitrary."
  },
  {
   "property": "C39",
   "status": "partial",
   "theorems": [
    "Verif.Sharding.C39_stable_partial",
    "Verif.Sharding.C39_from_answer_partial",
    "Verif.Sharding.C39_restart_refuted"
   ],
   "note": "Holds while the coordinator lives; a restarted coordinator may place the shard elsewhere, because the node is not persisted."
  },
  {
   "property": "C40",
   "status": "proved",
   "theorems": [
    "Verif.Sharding.C40_lost",
    "Verif.Sharding.C40_no_new_shards",
    "Verif.Sharding.C40_in_flight",
    "Verif.Sharding.C40_node_added"
   ],
   "note": "A shard already being moved when its node is lost stays unassigned until it is next requested."
  },
  {
   "property": "C41",
   "status": "partial",
   "theorems": [
    "Verif.Sharding.C41_takes",
    "Verif.Sharding.C41_even",
    "Verif.Sharding.C41_same_share_partial",
    "Verif.Sharding.C41_unavailable_refuted"
   ],
   "note": "The fair share of the code counts unavailable hosts, so more than the surplus is taken when some host is unavailable; the final distribution is even over the available nodes in every case."
  },
  {
   "property": "C42",
   "status": "proved",
   "theorems": [
    "Verif.Sharding.C42_no_loss",
    "Verif.Sharding.C42_exact",
    "Verif.Sharding.C42_exact_own_node",
    "Verif.Sharding.C42_refused_recovered_refuted"
   ],
   "note": "Given an available node at the time of every request; otherwise also refused requests are recovered as allocated shards."
  },
  {
   "property": "C43",
   "status": "proved",
   "theorems": [
    "Verif.Sharding.C43_placement",
    "Verif.Sharding.C43_same",
    "Verif.Sharding.C43_zero_shards"
   ],
   "note": "The hash is an arbitrary function; with zero shards configured the code divides by zero and panics."
  },
  {
   "property": "C44",
   "status": "partial",
   "theorems": [
    "Verif.Sharding.C44_kept_in_order_partial",
    "Verif.Sharding.C44_at_most_once",
    "Verif.Sharding.C44_stop_while_starting_refuted",
    "Verif.Sharding.C44_moved_while_starting_refuted",
    "Verif.Sharding.C44_order_refuted"
   ],
   "note": "Holds while the shard is neither asked to stop nor announced elsewhere on this node; a shard asked to stop or announced elsewhere while starting loses the requests it kept, and a late ready report reorders them. At most once holds always. Each delivery is its own spawned task, so the order of arrival at the shard actor is outside the model."
  },
  {
   "property": "C45",
   "status": "partial",
   "theorems": [
    "Verif.Sharding.C45_ready_partial",
    "Verif.Sharding.C45_completed",
    "Verif.Sharding.C45_unanswered_refuted",
    "Verif.Sharding.C45_keeps_running_refuted"
   ],
   "note": "Only shards that are ready are stopped and acknowledged; in every other state the request is never answered and a starting shard keeps running."
  },
  {
   "property": "C46",
   "status": "partial",
   "theorems": [
    "Verif.Sharding.C46_routing",
    "Verif.Sharding.C46_exclusive_partial",
    "Verif.Sharding.C46_both_refuted",
    "Verif.Sharding.C46_ended_for_good"
   ],
   "note": "Routing holds for every history; a shard can be both hosted and routed elsewhere after a late ready report."
  },
  {
   "property": "C47",
   "status": "partial",
   "theorems": [
    "Verif.Sharding.C47_once_in_order_partial",
    "Verif.Sharding.C47_up",
    "Verif.Sharding.C47_one_instance_partial",
    "Verif.Sharding.C47_failed_start_refuted",
    "Verif.Sharding.C47_second_start_refuted"
   ],
   "note": "Holds when every start succeeds and no explicit StartEntity arrives for the entity; after a failed start the waiting requests are never answered, and an explicit StartEntity starts a second instance."
  },
  {
   "property": "C48",
   "status": "partial",
   "theorems": [
    "Verif.Sharding.C48_new_partial",
    "Verif.Sharding.C48_restarted_partial",
    "Verif.Sharding.C48_refused_refuted",
    "Verif.Sharding.C48_stopped_refuted"
   ],
   "note": "Holds for entities new to the shard and for those restarted by recovery; idle and passivated entities are always refused, and a stopped entity stays marked active."
  },
  {
   "property": "C49",
   "status": "partial",
   "theorems": [
    "Verif.Sharding.C49_known",
    "Verif.Sharding.C49_restarts_since_snapshot",
    "Verif.Sharding.C49_restarts_partial",
    "Verif.Sharding.C49_restarted_once",
    "Verif.Sharding.C49_running",
    "Verif.Sharding.C49_snapshot_refuted",
    "Verif.Sharding.C49_unpersisted_refuted"
   ],
   "note": "The known entities and recipes are exact for every history; a snapshot forgets which entities were active, so those are restarted only if started since the snapshot; entities whose start could not be persisted are lost."
  },
  {
   "property": "C50",
   "status": "proved",
   "theorems": [
    "Verif.Sharding.C50_allocate",
    "Verif.Sharding.C50_allocate_result",
    "Verif.Sharding.C50_allocated",
    "Verif.Sharding.C50_reallocating",
    "Verif.Sharding.C50_stop",
    "Verif.Sharding.C50_stopped",
    "Verif.Sharding.C50_entity_request",
    "Verif.Sharding.C50_start_entity",
    "Verif.Sharding.C50_remove_entity",
    "Verif.Sharding.C50_passivate_entity",
    "Verif.Sharding.C50_snapshot",
    "Verif.Sharding.C50_sharding_stats",
    "Verif.Sharding.C50_shard_stats"
   ],
   "note": "For encodings below 4 GiB; the text form of UUIDs (external crate) is a parameter that reads back, and C123 gives the one the crate documents. Results and errors of entity requests travel as ordinary results (C21, C23). A snapshot keeps of an entity state only whether it was passivated."
  },
  {
   "property": "C51",
   "status": "partial",
   "theorems": [
    "Verif.Sharding.C51_at_most_one_instance_partial",
    "Verif.Sharding.C51_runs_where_assigned_partial",
    "Verif.Sharding.C51_request_during_move_refuted",
    "Verif.Sharding.C51_late_announcement_refuted"
   ],
   "note": "At most one instance of a shard runs anywhere, on the node it is assigned to, for every interleaving of coordinator, any number of hosts, requests and messages, provided no allocation request for the shard is handled during its move and no rebalance takes it while an announcement is under way. The code ensures neither: two concrete runs with the shard live on two nodes."
  },
  {
   "property": "C52",
   "status": "partial",
   "theorems": [
    "Verif.Singleton.C52_at_most_one_instance_partial",
    "Verif.Singleton.C52_two_nodes",
    "Verif.Singleton.C52_at_most_one_instance_refuted",
    "Verif.Singleton.C52_up_twice_refuted"
   ],
   "note": "Proved for any number of nodes when no manager that is still stopping its instance for one node is asked by another one, and for at most two nodes without that condition. Refuted for three nodes: a manager in state Stopping grants a second request at once although its instance still runs."
  },
  {
   "property": "C53",
   "status": "partial",
   "theorems": [
    "Verif.Singleton.C53_starts_once_partial",
    "Verif.Singleton.C53_only_after_all_partial",
    "Verif.Singleton.C53_repeated_ack_refuted",
    "Verif.Singleton.C53_unknown_ack_refuted",
    "Verif.Singleton.C53_node_leaves_refuted",
    "Verif.Singleton.C53_node_joins_refuted",
    "Verif.Singleton.C53_node_removed"
   ],
   "note": "Refuted for repeated and unknown acknowledgements and for nodes joining or leaving between start and start result. Proved: at most one start for distinct known acknowledgements and fixed members; every start comes after acknowledgements of all known managers when acknowledgements come from known managers."
  },
  {
   "property": "C54",
   "status": "partial",
   "theorems": [
    "Verif.Singleton.C54_running_stops",
    "Verif.Singleton.C54_ended_grants",
    "Verif.Singleton.C54_not_running_grants",
    "Verif.Singleton.C54_joining_grants",
    "Verif.Singleton.C54_joining_refuted",
    "Verif.Singleton.C54_starting_refuted",
    "Verif.Singleton.C54_never_handed_over",
    "Verif.Singleton.C54_new_leader_starts_refuted"
   ],
   "note": "The local rules are proved. The last part is refuted in every run: the singleton is not a child of its manager, so the manager is never told of its end, and the node that asked never starts an instance."
  },
  {
   "property": "C55",
   "status": "partial",
   "theorems": [
    "Verif.Singleton.C55_nothing_lost_partial",
    "Verif.Singleton.C55_order_refuted",
    "Verif.Singleton.C55_lost_refuted",
    "Verif.Singleton.C55_own_proxy_not_told"
   ],
   "note": "Proved for messages that wait for a result: kept, handed to a task exactly once, in order, for the right instance. Refuted: order of arrival (one task per message), and loss behind a notification."
  },
  {
   "property": "C56",
   "status": "partial",
   "theorems": [
    "Verif.Singleton.C56_crash_exactly_partial",
    "Verif.Singleton.C56_notify_refuted"
   ],
   "note": "Refuted: a notification kills the proxy when it is delivered (unwrap of a missing result channel). Proved: exactly when the proxy dies and what is delivered before."
  },
  {
   "property": "C57",
   "status": "partial",
   "theorems": [
    "Verif.Remote.C57_refuted",
    "Verif.Remote.C57_refusal_blocks_everything",
    "Verif.Remote.C57_malformed_frame_kills_store",
    "Verif.Remote.C57_silence_blocks_everything",
    "Verif.Remote.C57_good_peers_partial"
   ],
   "note": "Refuted: one refused connection deadlocks the session store with the session for ever, a malformed first frame kills it, a silent peer blocks it. Holds while all peers are good."
  },
  {
   "property": "C58",
   "status": "partial",
   "theorems": [
    "Verif.Remote.C58_delivered_partial",
    "Verif.Remote.C58_unknown_dropped",
    "Verif.Remote.C58_one_client_per_address",
    "Verif.Remote.C58_dead_client_kills_all",
    "Verif.Remote.C58_refuted",
    "Verif.Remote.C58_alias_refuted",
    "Verif.Remote.C58_removed",
    "Verif.Remote.C58_clients_distinct"
   ],
   "note": "Holds while no client actor dies. Refuted: a write to a node whose client actor died panics the registry, after which nothing is written to any node; removing one of two clients of a node makes the node unreachable."
  },
  {
   "property": "C59",
   "status": "partial",
   "theorems": [
    "Verif.Remote.C59_refused",
    "Verif.Remote.C59_refused_everywhere_partial",
    "Verif.Remote.C59_race_refuted",
    "Verif.Remote.C59_unanswered_refuted",
    "Verif.Remote.C59_redeploy_refuted",
    "Verif.Remote.C59_answer"
   ],
   "note": "Refused once the registration has arrived at the assigned node. Concurrent deployments both succeed; a stopped id stays refused for ever."
  },
  {
   "property": "C60",
   "status": "partial",
   "theorems": [
    "Verif.Remote.C60_seed",
    "Verif.Remote.C60_chain_refuted",
    "Verif.Remote.C60_two_hops_partial"
   ],
   "note": "The seed is found; nodes more than two hops away are not."
  },
  {
   "property": "C61",
   "status": "partial",
   "theorems": [
    "Verif.Sharding.C61_refused_partial",
    "Verif.Sharding.C61_not_protobuf",
    "Verif.Sharding.C61_panics_refuted",
    "Verif.Sharding.C61_unknown_type_refuted"
   ],
   "note": "Bytes that are not protobuf are always refused; a well-formed message with a missing or unknown field panics the reading task for ShardAllocated, StopShard, RemoteEntityRequest and allocation results."
  },
  {
   "property": "C62",
   "status": "proved",
   "theorems": [
    "Verif.Singleton.C62_request",
    "Verif.Singleton.C62_ack",
    "Verif.Singleton.C62_started",
    "Verif.Singleton.C62_stopped",
    "Verif.Singleton.C62_status",
    "Verif.Singleton.C62_unknown_status_refuted"
   ],
   "note": "Round trip for every node id and every state, without size assumption. A state number unknown to the receiver panics."
  },
  {
   "property": "C63",
   "status": "partial",
   "theorems": [
    "Verif.Persist.C63_state_survives",
    "Verif.Persist.C63_snapshots_partial",
    "Verif.Persist.C63_refuted",
    "Verif.Persist.C63_lost_ack_refuted"
   ],
   "note": "Proved for actors that never save a snapshot. With snapshots false: an event persisted singly right after a snapshot is lost at the next crash; proved when the first events after each snapshot are a batch. Assumes no write fails after having been stored (refuted otherwise)."
  },
  {
   "property": "C64",
   "status": "proved",
   "theorems": [
    "Verif.Persist.C64_runs_only_recovered",
    "Verif.Persist.C64_comes_up",
    "Verif.Persist.C64_undecodable_stops",
    "Verif.Persist.C64_unreadable_stops"
   ],
   "note": "Actor hooks are arbitrary functions of the actor state; what is read once a read succeeds is a parameter (C01 to C05 say what it is)."
  },
  {
   "property": "C65",
   "status": "partial",
   "theorems": [
    "Verif.Persist.C65_types_roundtrip_partial",
    "Verif.Persist.C65_still_readable",
    "Verif.Persist.C65_collision_refuted"
   ],
   "note": "False as stated: identifiers are not checked for collisions. Proved when no two types share one. Message table; the snapshot table is built by the same code."
  },
  {
   "property": "C66",
   "status": "partial",
   "theorems": [
    "Verif.Persist.C66_default_partial",
    "Verif.Persist.C66_disabled_refuted"
   ],
   "note": "False for actors that override recover to return Disabled: the journal is never initialised and persist panics."
  },
  {
   "property": "C67",
   "status": "partial",
   "theorems": [
    "Verif.Persist.C67_redis_set",
    "Verif.Persist.C67_redis_ordered",
    "Verif.Persist.C67_one_slot",
    "Verif.Persist.C67_prefix_separates",
    "Verif.Persist.redisKey_ok",
    "Verif.Persist.C67_prefix_collision_refuted"
   ],
   "note": "Everything proved except that journals under different prefixes have different keys: false when one prefix continues the other; proved for equal prefixes (any ids) and for equal ids (any prefixes)."
  },
  {
   "property": "C68",
   "status": "partial",
   "theorems": [
    "Verif.Actor.Shutdown.C68_returned_all_ended",
    "Verif.Actor.Shutdown.C68_returns_iff",
    "Verif.Actor.Shutdown.C68_stuck_forever",
    "Verif.Actor.Shutdown.C68_refuted_handler",
    "Verif.Actor.Shutdown.C68_refuted_race",
    "Verif.Actor.Shutdown.C68_survivors",
    "Verif.Actor.Shutdown.C68_nobody_waits",
    "Verif.Actor.Shutdown.C68_remote_returns",
    "Verif.Actor.Shutdown.C68_remote_alone"
   ],
   "note": "The first half is proved for actors registered when the scheduler takes Stop. That shutdown returns is false: it deadlocks exactly when an awaited actor needs the scheduler (C68_returns_iff), which happens when a handler calls it or an actor is just deregistering. The remote part of shutdown stops its five actors one after the other: after the scheduler has ended there is nothing left to wait for (C68_remote_returns), and called alone, by RemoteActorSystem::shutdown, it can always return (C68_remote_alone). Not modelled here: handlers waiting for each other (C100)."
  },
  {
   "property": "C69",
   "status": "partial",
   "theorems": [
    "Verif.Actor.Timer.C69_one_at_a_time",
    "Verif.Actor.Timer.C69_rate",
    "Verif.Actor.Timer.C69_stop",
    "Verif.Actor.Timer.C69_gone",
    "Verif.Actor.Timer.C69_zero",
    "Verif.Actor.Timer.C69_drop_refuted",
    "Verif.Actor.Timer.C69_ends_only",
    "Verif.Actor.Timer.C69_gone_ends",
    "Verif.Actor.Timer.C69_stop_ends"
   ],
   "note": "Proved except that dropping a Timer does not stop it (refuted: any number of ticks can follow). The tick already past the check for the stop signal can still be sent after stop: at most one."
  },
  {
   "property": "C70",
   "status": "partial",
   "theorems": [
    "Verif.Actor.Timer.C70_once",
    "Verif.Actor.Timer.C70_sent",
    "Verif.Actor.Timer.C70_cancelled_partial",
    "Verif.Actor.Timer.C70_cancel_refuted"
   ],
   "note": "At most once, never early, sent if not cancelled. A cancel in time is only certain to prevent the message if the task is polled before the delay is over."
  },
  {
   "property": "C71",
   "status": "proved",
   "theorems": [
    "Verif.Actor.Describe.C71_one_each",
    "Verif.Actor.Describe.C71_faithful",
    "Verif.Actor.Describe.C71_depth",
    "Verif.Actor.Describe.C71_complete"
   ],
   "note": "Faithful is an inductive specification independent of time; the order of children is that of the map."
  },
  {
   "property": "C72",
   "status": "partial",
   "theorems": [
    "Verif.Actor.Describe.C72_bounded",
    "Verif.Actor.Describe.C72_independent",
    "Verif.Actor.Describe.C72_two_levels",
    "Verif.Actor.Describe.C72_hidden_parent_refuted",
    "Verif.Actor.Describe.C72_timeout_option_refuted"
   ],
   "note": "Bounded and confined at the first two levels. Below, a stuck actor hides its parent and siblings (refuted for every such tree); the timeout option has no effect (proved for every input)."
  },
  {
   "property": "C73",
   "status": "partial",
   "theorems": [
    "Verif.Remote.Handshake.C73_identify_at_most_once",
    "Verif.Remote.Handshake.C73_identify_answered",
    "Verif.Remote.Handshake.C73_handshake_at_most_once",
    "Verif.Remote.Handshake.C73_one_frame",
    "Verif.Remote.Handshake.C73_completed_partial",
    "Verif.Remote.Handshake.C73_not_connected",
    "Verif.Remote.Handshake.C73_attempts",
    "Verif.Remote.Handshake.C73_stale_ack_refuted",
    "Verif.Remote.Handshake.C73_stuck_refuted",
    "Verif.Remote.Handshake.C73_crash_refuted",
    "Verif.Remote.Handshake.C73_accounted",
    "Verif.Remote.Handshake.C73_identify_now",
    "Verif.Remote.Handshake.C73_acknowledged",
    "Verif.Remote.Handshake.C73_gives_up"
   ],
   "note": "Callbacks end at most once and one frame goes out per connection. False: a late acknowledgement from an earlier connection completes handshakes on the new one; a peer closing early blocks the client for ever; a failed write of the frame panics. Completion implies acknowledgement if acknowledgements come from the current connection."
  },
  {
   "property": "C74",
   "status": "partial",
   "theorems": [
    "Verif.Remote.Handshake.C74_bound",
    "Verif.Remote.Handshake.C74_one_timer_partial",
    "Verif.Remote.Handshake.C74_leak",
    "Verif.Remote.Handshake.C74_refuted",
    "Verif.Remote.Handshake.C74_reports"
   ],
   "note": "A reconnect before a ping tick was handled leaves the old timer running until the client ends, without limit. With a tick handled in between there is never more than one."
  },
  {
   "property": "C75",
   "status": "proved",
   "theorems": [
    "Verif.Sharding.C75_one_place",
    "Verif.Sharding.C75_made",
    "Verif.Sharding.C75_one_answer",
    "Verif.Sharding.C75_executed_once",
    "Verif.Sharding.C75_truthful",
    "Verif.Sharding.C75_refused",
    "Verif.Sharding.C75_in_shard",
    "Verif.Sharding.C75_shard_ends"
   ],
   "note": "End-to-end model of hosts, shards, tasks, frames and replies on any number of nodes, for every allocator. A token invariant: for every request made, its occurrences on the way and its uses of the result channel add up to one. Assumes distinct request ids and no duplicated frames."
  },
  {
   "property": "C76",
   "status": "partial",
   "theorems": [
    "Verif.Sharding.C76_never_stuck_partial",
    "Verif.Sharding.C76_quiet_partial",
    "Verif.Sharding.C76_lost_refuted",
    "Verif.Sharding.C76_failed_start_refuted"
   ],
   "note": "Proved for runs in which no start of an entity fails, for requests not lost: never stuck, and answered whenever nothing is left to do. False in general: a frame that finds no shard actor is answered with an error for an id nobody waits for, a lost frame or reply is never noticed (no timeout), and a failed start leaves the requests buffered for ever."
  },
  {
   "property": "C77",
   "status": "proved",
   "theorems": [
    "Verif.Remote.C77_handler_exact",
    "Verif.Remote.C77_factory_exact",
    "Verif.Remote.C77_name_leads_back",
    "Verif.Remote.C77_named_iff",
    "Verif.Remote.C77_all_sendable",
    "Verif.Remote.C77_capabilities",
    "Verif.Remote.C77_builtin",
    "Verif.Remote.C77_shared_name_refuted",
    "Verif.Remote.C77_actor_name_refuted",
    "Verif.Remote.C77_singletons"
   ],
   "note": "For every sequence of registrations and every iteration order of the maps on either node. The statement was first wider; it was narrowed after these parts were refuted: a name used twice silently takes the message type registered first out of service; actor_name never finds anything, because the table holds the ids of handler types and is searched with the ids of markers."
  },
  {
   "property": "C78",
   "status": "partial",
   "theorems": [
    "Verif.Sharding.Ids.C78_host_ids",
    "Verif.Sharding.Ids.C78_shard_ids",
    "Verif.Sharding.Ids.C78_journal_keys",
    "Verif.Sharding.Ids.C78_reach_host",
    "Verif.Sharding.Ids.C78_reach_shard",
    "Verif.Sharding.Ids.C78_one_entity_partial",
    "Verif.Sharding.Ids.C78_last_coordinator_refuted",
    "Verif.Sharding.Ids.C78_last_manager_refuted",
    "Verif.Sharding.Ids.C78_odd_names_refuted"
   ],
   "note": "Hosts, shards and journals of different entity types are separate. Refuted: the ids of coordinator, lease manager and proxy are made from the type ShardCoordinator alone, so with two sharded entity types every remote request reaches the coordinator (and manager) of the type started last. With one entity type all is well. Odd entity names can also make a host and a shard collide."
  },
  {
   "property": "C79",
   "status": "proved",
   "theorems": [
    "Verif.Remote.C79_no_seed",
    "Verif.Remote.C79_joins",
    "Verif.Remote.C79_gives_up",
    "Verif.Remote.C79_asks_iff",
    "Verif.Remote.C79_address",
    "Verif.Remote.C79_no_answer_panics",
    "Verif.Remote.C79_self_seed_refuted",
    "Verif.Remote.C79_silent_refuted"
   ],
   "note": "Exact course of start-up for every behaviour of name resolution. The statement was first wider; it was narrowed after these parts were refuted: the guard against discovering oneself never works (the seed is taken out before it is compared); the caller cannot tell success from failure. Eleven attempts are made although the limit is called twelve and the message says ten."
  },
  {
   "property": "C80",
   "status": "proved",
   "theorems": [
    "Verif.Remote.C80_at_most_once",
    "Verif.Remote.C80_all_answered",
    "Verif.Remote.C80_not_early",
    "Verif.Remote.C80_at_once",
    "Verif.Remote.C80_false_only_unidentified",
    "Verif.Remote.C80_true_refuted",
    "Verif.Remote.C80_second_request_refuted",
    "Verif.Remote.C80_discovery_undisturbed"
   ],
   "note": "Answered at most once, never lost, never before its handshakes have ended, for every history (identify is assumed to return). The statement was first wider (true only if a node was found); it was narrowed after that was refuted: true does not mean that anybody was found, nor that the seed has been contacted: a second request for the same address is answered while the first handshake is under way."
  },
  {
   "property": "C81",
   "status": "proved",
   "theorems": [
    "Verif.Remote.C81_send",
    "Verif.Remote.C81_missing",
    "Verif.Remote.C81_unsendable",
    "Verif.Remote.C81_result_lost",
    "Verif.Remote.C81_notify",
    "Verif.Remote.C81_closed_refuted",
    "Verif.Remote.C81_notify_missing_refuted",
    "Verif.Remote.C81_notify_reply_refuted"
   ],
   "note": "The whole way is composed from the models of the request table, the frames, the registry and the handler. Differences found and proved: an actor that has stopped but is still registered gives ResultChannelClosed instead of InvalidRef; notify to a missing remote actor succeeds; a notification whose type has no conversion of the answer makes the other node send an error for an id nobody waits for."
  },
  {
   "property": "C82",
   "status": "proved",
   "theorems": [
    "Verif.Remote.C82_conserved",
    "Verif.Remote.C82_waiting_sender",
    "Verif.Remote.C82_any_order",
    "Verif.Remote.C82_order_refuted"
   ],
   "note": "Connections that fail are in C24. The order is not kept for messages that are not waited for: every permutation of the messages sent can arrive (C82_any_order), because each message is handled by its own task."
  },
  {
   "property": "C83",
   "status": "partial",
   "theorems": [
    "Verif.Remote.C83_local",
    "Verif.Remote.C83_local_reason",
    "Verif.Remote.C83_remote",
    "Verif.Remote.C83_silent_refuted",
    "Verif.Remote.C83_unreachable_refuted",
    "Verif.Remote.C83_own_node_refuted",
    "Verif.Remote.C83_empty_id_refuted"
   ],
   "note": "What is started is exact on both ways, and on the own node the outcome is always reported. On another node a success is reported and gives a reference that works. Refuted: a remote deployment that fails, for any reason, is never answered; without a client for the node the caller waits for ever although there is an error NodeUnreachable for it; the reference got from a deployment on the own node is remote and points to the node itself, so sending through it waits for ever; an empty id is replaced by a fresh one on another node."
  },
  {
   "property": "C84",
   "status": "partial",
   "theorems": [
    "Verif.Remote.C84_truth",
    "Verif.Remote.C84_once",
    "Verif.Remote.C84_none_lost",
    "Verif.Remote.C84_ends",
    "Verif.Remote.C84_table",
    "Verif.Remote.C84_in_order_partial",
    "Verif.Remote.C84_leak_refuted",
    "Verif.Remote.C84_overtaken_refuted",
    "Verif.Remote.C84_revived_refuted"
   ],
   "note": "Reports are true, none is made twice and none is lost (bytes that are no pong make the task panic). Refuted: the heartbeat goes by the report that came last, so a ping lost fifteen seconds ago makes it take a node for terminated that has just answered, and a late answer makes it take a disconnected node for healthy; the request of a ping that timed out or could not be written is never forgotten. In order is proved for pings that do not overlap."
  },
  {
   "property": "C85",
   "status": "partial",
   "theorems": [
    "Verif.Sharding.C85_coordinator",
    "Verif.Sharding.C85_cluster",
    "Verif.Sharding.C85_given_iff",
    "Verif.Sharding.C85_host",
    "Verif.Sharding.C85_node_total_partial",
    "Verif.Sharding.C85_one_missing_refuted",
    "Verif.Sharding.C85_left_out_refuted",
    "Verif.Sharding.C85_empty_lists_refuted",
    "Verif.Sharding.C85_counted_twice_refuted"
   ],
   "note": "The account of the coordinator, the account of the cluster when it is given, and the counts of a host are exact. Refuted: one assigned shard of another node that is not running makes the whole request fail with a panic; a missing shard of the own node is left out but counted; the statistics of a node never list a shard and count a shard twice that is both hosted and referred to."
  },
  {
   "property": "C86",
   "status": "partial",
   "theorems": [
    "Verif.Remote.C86_healthy_iff",
    "Verif.Remote.C86_told",
    "Verif.Remote.C86_out_partial",
    "Verif.Remote.C86_parting_iff",
    "Verif.Remote.C86_revived_refuted"
   ],
   "note": "Exactly when another node counts as healthy is determined in terms of what was last heard of it; a node that shuts down tells the other end of every established connection, in the frames of that connection, and is then neither healthy nor leader as long as no answered ping of it is reported. Refuted: the report of an answered ping that was already on its way makes it healthy, and leader, again."
  },
  {
   "property": "C87",
   "status": "partial",
   "theorems": [
    "Verif.Chat.C87_history",
    "Verif.Chat.C87_shown",
    "Verif.Chat.C87_once_partial",
    "Verif.Chat.C87_gap_refuted",
    "Verif.Chat.C87_twice_refuted",
    "Verif.Chat.C87_order_refuted",
    "Verif.Chat.C87_repeated_refuted",
    "Verif.Chat.C87_after_leaving_refuted",
    "Verif.Chat.C87_joined_twice_refuted",
    "Verif.Chat.C87_failed_send_refuted",
    "Verif.Chat.C87_rejoin_keeps"
   ],
   "note": "Exact: what the history has and what a peer is shown. Proved for a peer that joins while nothing is under way and nothing is said until it has subscribed: every message exactly once (and in order on the node of the stream). Refuted: what is said between the answer and the subscription is never shown; what is under way when a peer joins is shown twice; the order on other nodes; a message whose first storing was not acknowledged is repeated after a restart; messages are shown after leaving; joining twice shows the history again; a request that fails ends the peer."
  },
  {
   "property": "C88",
   "status": "partial",
   "theorems": [
    "Verif.Chat.C88_in_order",
    "Verif.Chat.C88_ends",
    "Verif.Chat.C88_ends_soon",
    "Verif.Chat.C88_only_then",
    "Verif.Chat.C88_client_frames",
    "Verif.Chat.C88_conversation",
    "Verif.Chat.C88_panic_iff",
    "Verif.Chat.C88_panic_refuted",
    "Verif.Chat.C88_deaf_peer_refuted",
    "Verif.Chat.C88_left_open_refuted",
    "Verif.Chat.C88_close_stops",
    "Verif.Chat.C88_stays"
   ],
   "note": "Order, the end with the stream, and the frames of the chat client are proved. Refuted: if the conversion of an item panics the actor hears nothing more and lives on for ever; in the chat example one broken frame does that to a peer (which frames do is exact); the task goes on reading a stream whose actor has ended."
  },
  {
   "property": "C89",
   "status": "partial",
   "theorems": [
    "Verif.Actor.Path.C89_path",
    "Verif.Actor.Path.C89_path_partial",
    "Verif.Actor.Path.C89_equal_partial",
    "Verif.Actor.Path.C89_successor",
    "Verif.Actor.Path.C89_successor_refuted",
    "Verif.Actor.Path.C89_top_refuted",
    "Verif.Actor.Path.C89_slash_refuted",
    "Verif.Actor.Path.C89_supervised_refuted",
    "Verif.Actor.Path.C89_attach_refuted",
    "Verif.Actor.Path.C89_orphan_refuted"
   ],
   "note": "Exact: which path an actor is given after any history. Proved where actors are only started at the top and by spawn: the full path is the name of the system and the ids of all it stands under; and, with slash-free ids, distinct ids at the top and living ancestors, references are equal exactly for the same actor. Refuted: an actor that has ended equals its successor; two actors at the top with one id; ids with a slash; children of new_supervised_actor (entities of shards), whose path is the name of the system; children spawned after attach_child_ref, whose path lacks the id of the parent; orphans."
  },
  {
   "property": "C90",
   "status": "partial",
   "theorems": [
    "Verif.Persist.Copies.C90_copies",
    "Verif.Persist.Copies.C90_next",
    "Verif.Persist.Copies.C90_blind",
    "Verif.Persist.Copies.C90_handover_partial",
    "Verif.Persist.Copies.C90_disagree_refuted",
    "Verif.Persist.Copies.C90_numbers_refuted",
    "Verif.Persist.Copies.C90_snapshot_refuted",
    "Verif.Persist.Copies.C90_twice_refuted",
    "Verif.Persist.Copies.C90_trim_refuted",
    "Verif.Persist.Copies.C90_redis_once_refuted"
   ],
   "note": "Exact for actors without snapshots over the in-memory storage, for any overlap and any failures of writes: each copy has what was stored before it started and its own acknowledged events; a copy started next has everything. Proved with snapshots where copies take turns: they are as one actor. Refuted where copies overlap: running copies disagree and use the same numbers; a snapshot of one loses the events of the other or counts its own twice; trimming removes events no snapshot holds; over Redis equal events are stored once."
  },
  {
   "property": "C91",
   "status": "partial",
   "theorems": [
    "Verif.Sharding.C91_one_each",
    "Verif.Sharding.C91_survivors",
    "Verif.Sharding.C91_all_end_partial",
    "Verif.Sharding.C91_once_partial",
    "Verif.Sharding.C91_stray_refuted",
    "Verif.Sharding.C91_started_twice_refuted",
    "Verif.Sharding.C91_move_refuted"
   ],
   "note": "Within one instance of a shard an entity runs at most once, also after the shard has stopped, and who outlives the shard is said exactly; across the system an entity runs at most once, and where its shard runs, in runs where a shard is started only after everything of its earlier instances has ended. Refuted: the host acknowledges the stop of a shard before the entities of the shard are told to stop, so that in an orderly move the entity runs on both nodes; an entity whose creation the shard has not heard of when it stops is never told to stop; a second StartEntity leaves the first instance without a parent that knows it."
  },
  {
   "property": "C92",
   "status": "partial",
   "theorems": [
    "Verif.Proto.C92_varint",
    "Verif.Proto.C92_network",
    "Verif.Proto.C92_sharding",
    "Verif.Proto.C92_singleton",
    "Verif.Proto.C92_chat",
    "Verif.Proto.C92_journal",
    "Verif.Proto.C92_new_values_refuted",
    "Verif.Proto.C92_rearranged",
    "Verif.Proto.C92_any_order",
    "Verif.Proto.C92_map_last",
    "Verif.Proto.C92_truncated"
   ],
   "note": "Every message of the five .proto files used is written as the file says, field by field, and is read whatever fields of a newer version stand between its own and in whatever order the fields of different numbers come, also in sub-messages and map entries. Refuted for values of enums: a number this version does not know is read but panics where it is used, in five places."
  },
  {
   "property": "C93",
   "status": "partial",
   "theorems": [
    "Verif.Sharding.C93_keeps_partial",
    "Verif.Sharding.C93_redis_partial",
    "Verif.Sharding.C93_move_refuted",
    "Verif.Sharding.C93_lost_refuted",
    "Verif.Sharding.C93_copies",
    "Verif.Sharding.C93_moves"
   ],
   "note": "In runs where a shard is started only after everything of its earlier instances has ended (as for C91), the running instance of a persistent entity has exactly the events acknowledged to any of its instances on any node; with snapshots under the condition of C63, over Redis under that of C94. Refuted for moves that are orderly in the sense of C51 only: the entity still runs on the old node while it runs on the new one, events acknowledged by the one are unknown to the other, and a snapshot of the old instance loses those of the new one for good."
  },
  {
   "property": "C94",
   "status": "partial",
   "theorems": [
    "Verif.Persist.C94_redis_partial",
    "Verif.Persist.C94_batches",
    "Verif.Persist.C94_commuting_partial",
    "Verif.Persist.C94_handover_partial",
    "Verif.Persist.C94_as_one",
    "Verif.Persist.C94_equal_refuted",
    "Verif.Persist.C94_order_refuted",
    "Verif.Persist.C94_trim_refuted"
   ],
   "note": "Proved for histories in which no single event is written right after a batch or a start that found events, and no trimming follows a single event right after a snapshot; in particular for all actors that write batches only. Proved for all histories without trims for actors whose events commute and are all different. Copies in turn are as one actor over every storage. Refuted otherwise: after a restart a single event is given the number of the last one; it is lost when it equals it and may come back before it when it does not; trimming removes an event no snapshot holds."
  },
  {
   "property": "C95",
   "status": "partial",
   "theorems": [
    "Verif.Sharding.C95_policy",
    "Verif.Sharding.C95_coordinator_reachable",
    "Verif.Sharding.C95_coordinator_no_loss",
    "Verif.Sharding.C95_coordinator_exact",
    "Verif.Sharding.C95_coordinator_same",
    "Verif.Sharding.C95_shard_partial",
    "Verif.Sharding.C95_shard_memory",
    "Verif.Sharding.C95_shard_forever_partial",
    "Verif.Sharding.C95_storages",
    "Verif.Sharding.C95_start_refuted",
    "Verif.Sharding.C95_lost_node_refuted",
    "Verif.Sharding.C95_shard_same"
   ],
   "note": "Coordinator and shard with their journals in a storage (Redis or the in-memory one), their events as bytes, their writes retried under the default policy, any of them stored several times, the node possibly lost in the middle. A new coordinator knows every shard ever reported as allocated, and only those when no node was lost during a write; a new shard knows the same entities with the same recipes as the one before it and starts each once, if nobody sends `StartEntity` or the storage keeps the order. Refuted for `StartEntity` with another recipe over Redis: the old recipe comes back, since the new event shares a number with the newest old one. Also found: the default policy retries without end and the actor waits meanwhile, so `AllocateShardErr::Persistence` is never the answer to a storage that fails, and nothing else is answered until the storage works again."
  },
  {
   "property": "C96",
   "status": "partial",
   "theorems": [
    "Verif.Remote.Gossip.C96_identity",
    "Verif.Remote.Gossip.C96_handshake",
    "Verif.Remote.Gossip.C96_port",
    "Verif.Remote.Gossip.C96_agree_partial",
    "Verif.Remote.Gossip.C96_override_partial",
    "Verif.Remote.Gossip.C96_self_partial",
    "Verif.Remote.Gossip.C96_history",
    "Verif.Remote.Gossip.C96_no_panic",
    "Verif.Remote.Gossip.C96_selector_partial",
    "Verif.Remote.Gossip.C96_leader_partial",
    "Verif.Remote.Gossip.C96_placement_partial",
    "Verif.Remote.Gossip.C96_can_learn",
    "Verif.Remote.Gossip.C96_can_spread",
    "Verif.Remote.Gossip.C96_override_refuted",
    "Verif.Remote.Gossip.C96_override_placement_refuted",
    "Verif.Remote.Gossip.C96_reboot_refuted",
    "Verif.Remote.Gossip.C96_selects"
   ],
   "note": "Proved for every run without overriding nodes and without a process coming back under the id of one that still counts as running; with overriding nodes all but the host of the address agrees (port, tag, start time, attributes, hence leader and selection); with restarts every account is still one that some process with that id gave of itself. Refuted with `COERCE_OVERRIDE_INCOMING_NODE_ADDR` on one node: two nodes have different addresses for the same node, and since the address is hashed, look for the same actor on different nodes. Refuted for a restart under the same id before the old process is taken for terminated: a known node is never registered again, so the old start time stays and the nodes elect different leaders, all of them healthy."
  },
  {
   "property": "C97",
   "status": "partial",
   "theorems": [
    "Verif.Sharding.C97_one_instance_partial",
    "Verif.Sharding.C97_where_partial",
    "Verif.Sharding.C97_remembers",
    "Verif.Sharding.C97_told_partial",
    "Verif.Sharding.C97_heals_partial",
    "Verif.Sharding.C97_can_heal_partial",
    "Verif.Sharding.C97_restart_refuted",
    "Verif.Sharding.C97_left_behind_refuted",
    "Verif.Sharding.C97_stopped_refuted",
    "Verif.Sharding.C97_crash"
   ],
   "note": "Coordinators that end and are started anywhere, with any knowledge of the nodes, and nodes that crash. Every shard that ever ran is placed by every later coordinator, and everybody it knows to be healthy is told. At most one instance runs, where the coordinator says, if new coordinators place the shard where it was or it runs nowhere. Refuted in general: the journal has the shards but not their places, so a new coordinator places a running shard elsewhere, and it runs on two nodes until the first is told; a node that is not healthy at that time is never told, not even when it is healthy again, and both run for good; a request to stop that the old coordinator sent takes effect after the new one has placed the shard there, and then the shard runs nowhere although everybody has its place. When the nodes are known and nothing is under way, everything that runs elsewhere is told, at most one instance runs once what is under way has been handled, and this can always come about."
  },
  {
   "property": "C98",
   "status": "partial",
   "theorems": [
    "Verif.Sharding.Keys.C98_keys",
    "Verif.Sharding.Keys.C98_group",
    "Verif.Sharding.Keys.C98_own",
    "Verif.Sharding.Keys.C98_names_partial",
    "Verif.Sharding.Keys.C98_entities_refuted",
    "Verif.Sharding.Keys.C98_snapshot_refuted",
    "Verif.Sharding.Keys.C98_twice_refuted",
    "Verif.Sharding.Keys.C98_shard_refuted"
   ],
   "note": "Any number of persistent actors of any kinds over one storage, in memory or Redis. What happens to an actor depends only on what those do that have its key. Coordinators and shards have keys of their own; an entity has its id as key, without its type. Refuted: entities of two types with the same id share a journal; with the same event names each recovers the events of the other; with different names a snapshot of one makes the other lose its events (the number of an unknown snapshot counts) or count them twice; an entity whose id is the key of a shard makes the shard forget its entities. Without snapshots and with different names sharing goes unnoticed in memory."
  },
  {
   "property": "C99",
   "status": "partial",
   "theorems": [
    "Verif.K8s.C99_found_partial",
    "Verif.K8s.C99_panic_iff",
    "Verif.K8s.C99_phase",
    "Verif.K8s.C99_default",
    "Verif.K8s.C99_sidecar_refuted",
    "Verif.K8s.C99_hostname_refuted",
    "Verif.K8s.C99_ended_refuted",
    "Verif.K8s.C99_error_refuted"
   ],
   "note": "What discovery finds, exactly, when every pod and container has what the code unwraps, and exactly when it panics. Refuted in general: one container without declared ports in any selected pod (a sidecar), or a pod without host name and subdomain where these are used, makes discovery panic; pods are used whatever their phase; an error of the API is given as an empty cluster."
  },
  {
   "property": "C100",
   "status": "partial",
   "theorems": [
    "Verif.Actor.Waits.C100_answered",
    "Verif.Actor.Waits.C100_framework_partial",
    "Verif.Actor.Waits.C100_knot_stays",
    "Verif.Actor.Waits.C100_knot_unanswered",
    "Verif.Actor.Waits.C100_knot_grows",
    "Verif.Actor.Waits.C100_knot_only",
    "Verif.Actor.Waits.C100_self",
    "Verif.Actor.Waits.C100_refused_refuted",
    "Verif.Actor.Waits.C100_clients_refuted",
    "Verif.Actor.Waits.C100_early_refuted",
    "Verif.Actor.Waits.C100_shutdown_refuted"
   ],
   "note": "For actors in general: if the waits go down everything is answered, exactly once; a knot is for ever, grows with whoever asks, and is the only way to wait for ever. For the framework: proved for all histories without four hooks (shutdown of the scheduler, stop of the client registry, a refused session, a connection that ends before the identity) and for applications whose actors wait downwards. Refuted for each of the four hooks by itself. Not modelled: panicking handlers, sockets that never take a write."
  },
  {
   "property": "C101",
   "status": "partial",
   "theorems": [
    "Verif.Json.C101_read_back_partial",
    "Verif.Json.C101_types",
    "Verif.Json.C101_remote",
    "Verif.Json.C101_newer",
    "Verif.Json.C101_older",
    "Verif.Json.C101_distinct",
    "Verif.Json.C101_null_refuted",
    "Verif.Json.C101_deep_refuted",
    "Verif.Json.C101_remote_refuted"
   ],
   "note": "Text (printer, escapes, UTF-8, parser with the nesting limit) and types (integers, strings, options, lists, tuples, structs, enums) are modelled; a value is read back exactly if it is nested no deeper than 127 and its type has no Option over a type with a null value; for types of bounded height this is an equivalence. Refuted: Option<()> and Option<Option<_>> (Some is read as None, and a remote caller gets another answer than a local one), nesting deeper than 127. Not modelled: floats, maps, serde attributes."
  },
  {
   "property": "C102",
   "status": "partial",
   "theorems": [
    "Verif.Json.C102_taken_partial",
    "Verif.Json.C102_refused",
    "Verif.Json.C102_unit_refuted"
   ],
   "note": "Refuted: an attribute with one item that is not understood (a path of several segments, a string that is no type) compiles with the result type ()."
  },
  {
   "property": "C103",
   "status": "partial",
   "theorems": [
    "Verif.Actor.Pool.C103_once",
    "Verif.Actor.Pool.C103_true",
    "Verif.Actor.Pool.C103_untouched",
    "Verif.Actor.Pool.C103_answered",
    "Verif.Actor.Pool.C103_ends",
    "Verif.Actor.Pool.C103_assigned",
    "Verif.Actor.Pool.C103_served",
    "Verif.Actor.Pool.C103_only_dead",
    "Verif.Actor.Pool.C103_waiting_partial",
    "Verif.Actor.Pool.C103_waiting_refuted",
    "Verif.Actor.Pool.C103_order_refuted",
    "Verif.Actor.Pool.C103_panic_refuted",
    "Verif.Actor.Pool.C103_empty",
    "Verif.Actor.Pool.C103_stop_pool",
    "Verif.Actor.Pool.C103_new_partial",
    "Verif.Actor.Pool.C103_new_refuted"
   ],
   "note": "The pool's actor, the spawned sends and the workers as one system in any interleaving. Refuted: a worker that has stopped keeps its turn, so every n-th task is refused for ever although other workers are idle; tasks given without waiting can be done in the wrong order even by one worker; after a panic the caller of a task that was begun is told of a closed channel; Worker::new that fails part-way leaves the workers started so far running."
  },
  {
   "property": "C104",
   "status": "partial",
   "theorems": [
    "Verif.Remote.Peering.C104_only",
    "Verif.Remote.Peering.C104_mutual",
    "Verif.Remote.Peering.C104_far",
    "Verif.Remote.Peering.C104_exact",
    "Verif.Remote.Peering.C104_ends",
    "Verif.Remote.Peering.C104_stuck",
    "Verif.Remote.Peering.C104_answered",
    "Verif.Remote.Peering.C104_no_more",
    "Verif.Remote.Peering.C104_told",
    "Verif.Remote.Peering.C104_told_all",
    "Verif.Remote.Peering.C104_join",
    "Verif.Remote.Peering.C104_lost_refuted",
    "Verif.Remote.Peering.C104_early_refuted",
    "Verif.Remote.Peering.C104_unreachable_refuted"
   ],
   "note": "All nodes of a cluster as one system in any interleaving: registries, handshakes, the tasks that wait for them. Refuted: a handshake that is lost is not repeated, so one node knows the other for ever and not the other way round, and the caller is told that all is done; a caller may be told before its node knows the nodes behind the one it joined, if that one was given it at the same time; a node that cannot be reached at that moment is dropped. This is the system-level side of C60, where a single look at a seed is only two hops deep."
  },
  {
   "property": "C105",
   "status": "partial",
   "theorems": [
    "Verif.Remote.Lookup.C105_no_circle",
    "Verif.Remote.Lookup.C105_ends",
    "Verif.Remote.Lookup.C105_moves",
    "Verif.Remote.Lookup.C105_account",
    "Verif.Remote.Lookup.C105_answered",
    "Verif.Remote.Lookup.C105_true",
    "Verif.Remote.Lookup.C105_found_partial",
    "Verif.Remote.Lookup.C105_circle_refuted",
    "Verif.Remote.Lookup.C105_before_join_refuted",
    "Verif.Remote.Lookup.C105_giveup_refuted"
   ],
   "note": "Every node with its own directory and ring, questions passed from node to node in any interleaving with nodes becoming known, actors starting, questions and answers being lost and nodes giving up. No circle and an end are proved for nodes known under the same details everywhere, with no two hashes alike and each node registering itself first. Refuted: with differing details (override_incoming_node_addr, or an entry of a node that came back under another address) two nodes can pass one question back and forth for ever after its caller has been answered; an actor started before its node joined is never handed to the node responsible and is not found; a caller that waits longer than five seconds is told None for an actor that runs. Found is proved under the conditions in C105_found_partial."
  },
  {
   "property": "C106",
   "status": "partial",
   "theorems": [
    "Verif.Remote.OneLeader.C106_no_panic",
    "Verif.Remote.OneLeader.C106_agreement_partial",
    "Verif.Remote.OneLeader.C106_exactly_one_partial",
    "Verif.Remote.OneLeader.C106_dead_never_leads_partial",
    "Verif.Remote.OneLeader.C106_stays",
    "Verif.Remote.OneLeader.C106_missed_ping_refuted",
    "Verif.Remote.OneLeader.C106_split_refuted",
    "Verif.Remote.OneLeader.C106_two_leaders_refuted",
    "Verif.Remote.OneLeader.C106_ends",
    "Verif.Remote.OneLeader.C106_answers"
   ],
   "note": "All heartbeats of a cluster with a true clock, clocks that are off by a constant, processes that end, and answers that only running nodes can have sent. After any history whatever, once the running nodes know the same nodes, have their pings answered and the ended ones have been gone for twice the unhealthy time, one tick each makes them agree on the oldest running node; it stays so while pings are answered; a node that ended leads nowhere after that time. Limited to ids below 2^63 (C26). Refuted: one result of a ping that is not an answer, even that of an old ping given up after thirty later ones were answered, makes the next tick take another leader while the old one runs and leads itself, so two nodes lead and announce it; nodes that cannot reach each other all lead (no quorum)."
  },
  {
   "property": "C107",
   "status": "partial",
   "theorems": [
    "Verif.Singleton.C107_steps_partial",
    "Verif.Singleton.C107_only_leader_partial",
    "Verif.Singleton.C107_runs_partial",
    "Verif.Singleton.C107_reachable_partial",
    "Verif.Singleton.C107_failed_start_refuted"
   ],
   "note": "All managers of a new cluster with one leader, messages in any order, any number of repeated leader announcements and node announcements, instances that end. If the start does not fail: at most 4n-1 steps do anything, nothing is left to do exactly after 4n-1 of them, and then the leader has the singleton running, and no other node has or ever had; no instance runs before every node is up; from every moment the end can be reached. Refuted: after one failed start (an error of `into_actor`, only logged in start.rs 65-67) no instance is ever started again on any node of the cluster, whoever becomes the leader afterwards, because the manager stays in `Starting`, neither tries again nor gives its lease to others."
  },
  {
   "property": "C108",
   "status": "partial",
   "theorems": [
    "Verif.Singleton.C108_accounted_partial",
    "Verif.Singleton.C108_one_instance_partial",
    "Verif.Singleton.C108_no_error_partial",
    "Verif.Singleton.C108_delivered_partial",
    "Verif.Singleton.C108_reachable_partial",
    "Verif.Singleton.C108_order_refuted",
    "Verif.Singleton.C108_ended_refuted"
   ],
   "note": "The managers of a whole cluster together with the proxy and its mailbox on every node and the tasks that send. For messages sent with `send`: in every history whatsoever each message is in exactly one place; in a new cluster with one leader everything received is received by the first instance of the leader, no sender gets an error as long as that instance does not end, when nothing is left to do every message of every node has been received exactly once and every proxy is active, and such a moment can be reached from every other. Refuted: messages of one node may overtake each other; once the instance has ended it is never replaced while the leader stays, and everything sent later comes back with an error. A message sent with `notify` ends the proxy (C56)."
  },
  {
   "property": "C109",
   "status": "partial",
   "theorems": [
    "Verif.Singleton.C109_steps_partial",
    "Verif.Singleton.C109_only_leader_partial",
    "Verif.Singleton.C109_runs_partial",
    "Verif.Singleton.C109_reachable_partial",
    "Verif.Singleton.C109_last_partial",
    "Verif.Singleton.C109_early_removal_refuted",
    "Verif.Singleton.C109_second_crash_refuted",
    "Verif.Singleton.C109_lost_refuted"
   ],
   "note": "The managers of a whole cluster whose nodes crash; messages to a crashed node are never handled, those it has sent still are. For a cluster at rest in which any node crashes and which is then left in peace (any number of times): in every order of events at most 4 (leader crashed) or 1 (another node crashed) steps per node left, nothing left to do exactly when as many have been taken, whatever runs is the one instance of the leader, at the end the leader runs it and the nodes left know exactly each other, such an end can be reached from every moment, and this down to the last node. Refuted: a node told of the crash before it is told that it is up waits for the crashed node for ever, because the news of being up lists it still; a second crash during the start makes a second instance on the same node; a leader only lost from sight keeps its instance while another starts one."
  },
  {
   "property": "C110",
   "status": "partial",
   "theorems": [
    "Verif.Singleton.Joint.C110_only_there_partial",
    "Verif.Singleton.Joint.C110_goes_on_partial",
    "Verif.Singleton.Joint.C110_told_partial",
    "Verif.Singleton.Joint.C110_can_be_told",
    "Verif.Singleton.Joint.C110_refuted",
    "Verif.Singleton.Joint.C110_hasty_joiner_refuted",
    "Verif.Singleton.Joint.C110_alone_refuted",
    "Verif.Singleton.Joint.C110_late_manager_refuted",
    "Verif.Singleton.Joint.C110_early_request_refuted",
    "Verif.Singleton.Joint.C110_untold_refuted"
   ],
   "note": "Heartbeats, registries, managers and proxies of all nodes as one system, nodes joining at any time. Proved for histories in which no node but L chooses a leader while no older node answers it: nobody but L ever starts or runs an instance; an instance of L goes on, with no stop signal and no other start, for as long as it and its node last; a node whose manager exists when L hears of it is told of L and of nobody else. The code does not ensure the condition: a node that joins and has no answer of an older node at its second tick makes L stop the instance, after which neither it nor any node that knows it ever starts one (C110_hasty_joiner_refuted); a node that has not found the others yet starts an instance of its own and both go on for ever (C110_alone_refuted). Further: a manager built after MemberUp was published is joining for ever and blocks everybody who knows it (C110_late_manager_refuted); a request to a manager not built yet is lost and the leader waits for ever (C110_early_request_refuted); the word where the singleton runs is sent once, so a manager built later never hears it (C110_untold_refuted)."
  },
  {
   "property": "C111",
   "status": "proved",
   "theorems": [
    "Verif.Json.C111_understood",
    "Verif.Json.C111_refused",
    "Verif.Json.C111_one_meaning",
    "Verif.Json.C111_one_value",
    "Verif.Json.C111_written"
   ],
   "note": "The grammar of JSON is written down as a relation between values and texts (white space, every escape, surrogate pairs, integers without leading zeros), and the JSON of a type as a relation between types, values and JSON; the reader accepts exactly what is in both and gives the value that they give. Serde and serde_json are external and modelled: numbers are integers, no maps and attributes, and members of an object that are not fields are read like all others (serde_json skips them and is more lenient there)."
  },
  {
   "property": "C112",
   "status": "partial",
   "theorems": [
    "Verif.Singleton.Joint.C112_takes_over_partial",
    "Verif.Singleton.Joint.C112_only_successor_partial",
    "Verif.Singleton.Joint.C112_goes_on_partial",
    "Verif.Singleton.Joint.C112_silent_end_refuted",
    "Verif.Singleton.Joint.C112_out_of_sight_refuted"
   ],
   "note": "The same system as C110. Proved: after any history in which the older nodes B knows have ended twice the unhealthy time ago, B takes over, with the answers and removals in any order; nothing runs anywhere else afterwards, and the new instance goes on as the old one did. What the code does not ensure is that L is taken for removed exactly when it has ended: NodeRemoved is published only when a ping tick finds the client not connected, while the leader changes by missed heartbeats. Without the removal (power loss or partition with the TCP connection still open) B waits for L's answer for ever and nobody ever starts the singleton again (C112_silent_end_refuted); with a removal of a node that runs, both instances run for ever, even after the nodes have found each other again and agree on a leader (C112_out_of_sight_refuted)."
  },
  {
   "property": "C113",
   "status": "partial",
   "theorems": [
    "Verif.Sharding.Hosts.C113_none_missed",
    "Verif.Sharding.Hosts.C113_registered",
    "Verif.Sharding.Hosts.C113_last_word",
    "Verif.Sharding.Hosts.C113_gone",
    "Verif.Sharding.Hosts.C113_steady",
    "Verif.Sharding.Hosts.C113_comes_back",
    "Verif.Sharding.Hosts.C113_shut_out_refuted",
    "Verif.Sharding.Hosts.C113_alive_unused_refuted",
    "Verif.Sharding.Hosts.C113_gone_refuted",
    "Verif.Sharding.Hosts.C113_work",
    "Verif.Sharding.Hosts.C113_not_itself",
    "Verif.Sharding.Hosts.C113_stopped",
    "Verif.Sharding.Hosts.C113_removed_once"
   ],
   "note": "Discovery (the model of C32), the registry and the coordinator (the model of C37 and C40) of one node in one system. Proved for every execution: no announcement is lost between the subscription and the question to the registry; availability is decided by the last event handled, else by the answer of the registry; steady nodes are available; removed nodes have no shards; terminated nodes can come back. Refuted, both in general: a node that is in the registry and not available to the coordinator stays without shards for ever unless a discovery message finds it Terminated (a connection lost and made again before the heartbeat notices, a slow answer when the coordinator starts, a failed handshake, a removal overtaken by the announcement of the node that came back); a node that died just before the coordinator started and was still Healthy in the registry is given shards for ever, even after the heartbeat has it as Terminated. Partial because of these refutations."
  },
  {
   "property": "C114",
   "status": "partial",
   "theorems": [
    "Verif.Remote.Topics.C114_addressees",
    "Verif.Remote.Topics.C114_once",
    "Verif.Remote.Topics.C114_everybody_partial",
    "Verif.Remote.Topics.C114_rest",
    "Verif.Remote.Topics.C114_mediator",
    "Verif.Remote.Topics.C114_prefix",
    "Verif.Remote.Topics.C114_reaches",
    "Verif.Remote.Topics.C114_steady",
    "Verif.Remote.Topics.C114_comes_back",
    "Verif.Remote.Topics.C114_answer",
    "Verif.Remote.Topics.C114_shut_out_refuted",
    "Verif.Remote.Topics.C114_one_way_refuted",
    "Verif.Remote.Topics.C114_half_refuted",
    "Verif.Remote.Topics.C114_lost_refuted",
    "Verif.Remote.Topics.C114_not_itself",
    "Verif.Remote.Topics.C114_told",
    "Verif.Remote.Topics.C114_dead"
   ],
   "note": "The discoveries (C32) and mediators (C33) of any number of nodes in one system. Proved for every execution: the addressees of a publication are exactly the nodes last announced to the mediator, one copy each, at most one of them handed over, unchanged; everything comes to rest, and then all addressees have it unless their copy was lost; subscribers receive a gapless beginning of what arrives; steady nodes are addressed, terminated nodes can come back. Refuted: a node whose connection was lost and made again before the heartbeat noticed is never addressed again, in general (publishing is then one-way); a message that cannot be serialised reaches local subscribers only, and the error depends on whether other nodes are known (PubSub::publish drops it anyway); what is sent while there is no connection is lost and the publisher told Ok. Partial because of these refutations."
  },
  {
   "property": "C115",
   "status": "partial",
   "theorems": [
    "Verif.Remote.Api.C115_nodes",
    "Verif.Remote.Api.C115_leader_tag",
    "Verif.Remote.Api.C115_steady",
    "Verif.Remote.Api.C115_answered",
    "Verif.Remote.Api.C115_elected",
    "Verif.Remote.Api.C115_not_elected",
    "Verif.Remote.Api.C115_known",
    "Verif.Remote.Api.C115_status",
    "Verif.Remote.Api.C115_health",
    "Verif.Remote.Api.C115_health_given",
    "Verif.Remote.Api.C115_checks",
    "Verif.Remote.Api.C115_times",
    "Verif.Remote.Api.C115_cause_partial",
    "Verif.Remote.Api.C115_actors",
    "Verif.Remote.Api.C115_all_actors",
    "Verif.Remote.Api.C115_outcome",
    "Verif.Remote.Api.C115_truthful",
    "Verif.Remote.Api.C115_types",
    "Verif.Remote.Api.C115_all_stats",
    "Verif.Remote.Api.C115_big_leader_refuted",
    "Verif.Remote.Api.C115_torn_refuted",
    "Verif.Remote.Api.C115_no_cause_refuted",
    "Verif.Remote.Api.C115_health_torn_refuted",
    "Verif.Remote.Api.C115_twice_refuted",
    "Verif.Remote.Api.C115_timeout_refuted"
   ],
   "note": "Requests are sequences of steps among which the rest of the node acts. Proved for every execution: from which moments the parts of each reply are (leader at the start of a request for the nodes, directory at its answer; for the health checks first, directory second, leader last), that the listing is exact, sorted and complete in every field, when the tag of the leader is missing, that replies are consistent if the leader does not change meanwhile, when requests fail; that every actor described is shown with its own whole path, outcome and children within the limits of the query; that types and their statistics are those of the hosts attached last. Refuted: a reply may combine a leader and nodes that never were at the same time; a leader with an id of 2^63 or more is shown as none; a check registered again under the same path hides the failed one, so that an unhealthy node shows no cause; a shard is listed twice; the waiting time of the query has no effect. Partial because of these refutations. HTTP, JSON text and version fields are not modelled."
  },
  {
   "property": "C116",
   "status": "partial",
   "theorems": [
    "Verif.Persist.Shared.C116_explained",
    "Verif.Persist.Shared.C116_once",
    "Verif.Persist.Shared.C116_ends",
    "Verif.Persist.Shared.C116_own",
    "Verif.Persist.Shared.C116_read_back",
    "Verif.Persist.Shared.C116_latest",
    "Verif.Persist.Shared.C116_commands",
    "Verif.Persist.Shared.C116_readings",
    "Verif.Persist.Shared.C116_methods",
    "Verif.Persist.Shared.C116_free",
    "Verif.Persist.Shared.C116_down",
    "Verif.Persist.Shared.C116_delete_holds_up",
    "Verif.Persist.Shared.C116_late_refuted",
    "Verif.Persist.Shared.C116_dead_writer_refuted",
    "Verif.Persist.Shared.C116_sent_order_refuted",
    "Verif.Persist.Shared.C116_stall_refuted"
   ],
   "note": "Linearizability of the shared journal, for any number of nodes and callers, any interleaving of requests, commands, replies, errors, losses, stops and crashes: one order of the requests that took effect explains every answer and the contents of Redis and respects real time (C116_explained); calls end once (C116_once) and do end (C116_ends); one who has keys to themselves and waits for answers, as a persistent actor does, sees exactly a Redis of their own (C116_own), which carries the sequential results C08, C67 and C94 over to concurrent use through C116_methods. Partial because a request that failed can take effect later than requests called after its failure (C116_late_refuted), also one of a node that has crashed, behind the back of its successor (C116_dead_writer_refuted); requests do not take effect in the order of the mailbox (C116_sent_order_refuted); and a pending delete_all stops the whole node (C116_stall_refuted)."
  },
  {
   "property": "C117",
   "status": "partial",
   "theorems": [
    "Verif.Persist.Client.C117_own",
    "Verif.Persist.Client.C117_alone",
    "Verif.Persist.Client.C117_survives_partial",
    "Verif.Persist.Client.C117_batches",
    "Verif.Persist.Client.C117_keys",
    "Verif.Persist.Client.C117_persists",
    "Verif.Persist.Client.C117_dead_writer_refuted",
    "Verif.Persist.Client.C117_gave_up_refuted",
    "Verif.Persist.Client.C117_removed_refuted"
   ],
   "note": "An event-sourced actor as a caller of the Redis it shares with any number of others on any number of nodes (the system of C116), its journal functions, retry loop and recovery being programs that make calls and go on with the answers. One who waits for each call to end and makes changes again until they are answered has the answers, and leaves the sets, of a Redis of its own in which the unanswered calls were never made, even if failed writings are carried out at once or much later (C117_own, which strengthens C116_own; two forms: changes all answered, readings may fail; or nothing removed and changes repeated until answered). So the actor is in the state it would be in alone (C117_alone), which with C94 is the one its acknowledged events make, on whichever nodes it was started and however often a start failed (C117_survives_partial, C117_batches). C117_keys: what is asked about keys of others always holds among persistent actors; C117_persists: exactly which calls an actor makes. Partial: without care it is false. A command of a crashed node reaches Redis after the actor was recovered elsewhere, and a second recovery finds an event the first did not (C117_dead_writer_refuted); an actor that gives up after an error and goes on finds both events later (C117_gave_up_refuted); with removals, making changes again is not enough (C117_removed_refuted)."
  },
  {
   "property": "C118",
   "status": "partial",
   "theorems": [
    "Verif.Actor.Blocking.C118_as_awaited_partial",
    "Verif.Actor.Blocking.C118_actors",
    "Verif.Actor.Blocking.C118_panics",
    "Verif.Actor.Blocking.C118_awaited",
    "Verif.Actor.Blocking.C118_true",
    "Verif.Actor.Blocking.C118_result",
    "Verif.Actor.Blocking.C118_returns",
    "Verif.Actor.Blocking.C118_registered",
    "Verif.Actor.Blocking.C118_inside_refuted",
    "Verif.Actor.Blocking.C118_outside_refuted",
    "Verif.Actor.Blocking.C118_silent_refuted",
    "Verif.Actor.Blocking.C118_ended",
    "Verif.Actor.Blocking.C118_waits"
   ],
   "note": "The blocking interface beside the functions it mirrors, with any number of callers and actors; every actor is the actor loop of C12-C14. Two rules of tokio are trusted: spawn panics on a thread that has entered no runtime, blocking_recv panics on a thread that runs tasks. Where tokio lets the calls wait, everything is as if they were awaited, throughout (C118_as_awaited_partial); wherever they are made from, the actors and the scheduler do what they would do with the calls awaited unless an actor is created from outside, and callers are where they would be or have panicked (C118_actors); exactly when a blocking call panics (C118_panics) and that awaited ones never do; what is returned is true, results are the handler's results for this very message, and nobody waits longer than the actor lives or than the scheduler needs for its mailbox. Refuted: from a task of the runtime new_actor_blocking leaves an actor behind, registered and running, to which nobody has a reference, and send_blocking panics with the message delivered and handled; from a thread outside, new_actor_blocking can never succeed (the one test of it in the repository is commented out)."
  },
  {
   "property": "C119",
   "status": "partial",
   "theorems": [
    "Verif.Remote.Trip.C119_once_partial",
    "Verif.Remote.Trip.C119_told",
    "Verif.Remote.Trip.C119_actor",
    "Verif.Remote.Trip.C119_waits",
    "Verif.Remote.Trip.C119_nothing_lost",
    "Verif.Remote.Trip.C119_answerable",
    "Verif.Remote.Trip.C119_code",
    "Verif.Remote.Trip.C119_lost_waits",
    "Verif.Remote.Trip.C119_lost_refuted",
    "Verif.Remote.Trip.C119_unconnected_refuted",
    "Verif.Remote.Trip.C119_large_refuted",
    "Verif.Remote.Trip.C119_cannot_tell_refuted",
    "Verif.Remote.Trip.C119_waiting_order",
    "Verif.Remote.Trip.C119_order_refuted",
    "Verif.Remote.Trip.C119_reads_on",
    "Verif.Remote.Trip.C119_removed",
    "Verif.Remote.Trip.C119_frames",
    "Verif.Remote.Trip.C119_cut_off",
    "Verif.Remote.Trip.C119_renewed",
    "Verif.Remote.Trip.C119_one_client",
    "Verif.Remote.Trip.C119_renewed_back"
   ],
   "note": "Two nodes with the clients of C24 and C25 as they are, connections that may break with frames on them, tasks of the sessions in any order, good answers on the connection the request came on and errors over the other node's own client. At most once, told the truth, the actor as if alone, no loss and full answerability while nothing breaks: all proved, for the code's frames by C119_code. Exactly once is refuted: a request or a reply on a connection that breaks is lost and the caller waits for ever, there being no time limit in send (C119_lost_refuted, C119_lost_waits for every continuation); a call made while the client registry has no client for the node is dropped with a log line, and its caller waits for ever (C119_unconnected_refuted; the TODO in clients.rs 112 names it); an answer above 8 MiB is dropped by the session although the message was handled, and the caller waits for ever (C119_large_refuted); the caller cannot tell whether its message was handled (C119_cannot_tell_refuted). A caller that waits is served in the order of its calls (C119_waiting_order); one that does not is not, even on one connection, since each request is handled by a task of its own (C119_order_refuted). A frame that cannot be read holds up nothing (C119_reads_on). A client that gave up may be replaced by a new one for the same address: that works, but what the old one had buffered, and what was asked meanwhile, is lost (C119_renewed, C119_renewed_back, C119_one_client)."
  },
  {
   "property": "C120",
   "status": "partial",
   "theorems": [
    "Verif.Persist.Trims.C120_range",
    "Verif.Persist.Trims.C120_latest",
    "Verif.Persist.Trims.C120_one",
    "Verif.Persist.Trims.C120_again",
    "Verif.Persist.Trims.C120_survives_partial",
    "Verif.Persist.Trims.C120_back_refuted",
    "Verif.Persist.Trims.C120_single_refuted"
   ],
   "note": "The actors of C117 on the Redis of C116, now with trims (clear_old_messages) together with writings that are made again, which C117 leaves out since then no Redis of its own explains what the actor sees (C117_removed_refuted). Instead: what one who waits and repeats its writings can read, whatever becomes of its removals (C120_range, C120_latest, C120_one); an actor that gives up nothing is such a one (C120_again); and an actor that writes batches is in the state its acknowledged events make, whatever becomes of its trims (C120_survives_partial). Partial: with single events (persist) it is false. A single event has the number of the snapshot before it, and a trim that was taken for failed reaches Redis after the event was acknowledged and removes it (C120_single_refuted), although the order of the actor's own calls is one C94 finds safe. And trimming is not for good: a late repeated writing brings a trimmed event back into the journal, below the snapshot, where it stays until the next trim (C120_back_refuted)."
  },
  {
   "property": "C121",
   "status": "partial",
   "theorems": [
    "Verif.Remote.Readers.C121_session_fatal",
    "Verif.Remote.Readers.C121_client_fatal",
    "Verif.Remote.Readers.C121_session_told",
    "Verif.Remote.Readers.C121_client_told",
    "Verif.Remote.Readers.C121_session_over",
    "Verif.Remote.Readers.C121_client_over",
    "Verif.Remote.Readers.C121_own_session",
    "Verif.Remote.Readers.C121_own_client",
    "Verif.Remote.Readers.C121_session_partial",
    "Verif.Remote.Readers.C121_client_partial",
    "Verif.Remote.Readers.C121_introduced",
    "Verif.Remote.Readers.C121_shaken",
    "Verif.Remote.Readers.C121_table",
    "Verif.Remote.Readers.C121_session_refuted",
    "Verif.Remote.Readers.C121_client_refuted",
    "Verif.Remote.Readers.C121_early_refuted",
    "Verif.Remote.Readers.C121_waits_refuted",
    "Verif.Remote.Readers.C121_newer_refuted",
    "Verif.Remote.Readers.C121_shut_down",
    "Verif.Remote.Readers.C121_introduced_once"
   ],
   "note": "The two reading tasks from the bytes of each frame to what their actors are told. Exactly which frames end a task by a panic is stated field by field (C121_session_fatal, C121_client_fatal); who is told of which end (C121_session_told, C121_client_told), that nothing has any effect afterwards (C121_session_over, C121_client_over), that no frame written by this version is fatal (C121_own_session, C121_own_client), so that among nodes of this version the property holds (the partial theorems; for a session, or the session is gone; for a client, once it has been introduced), and that identities and handshakes are given as they were written (C121_introduced, C121_shaken). Partial: it is false for frames of others. receive_loop runs in a spawned task whose handle is used only to abort it, so its panic is noticed by nobody: the session runs on, unread and untold (C121_session_refuted), the client stays connected as far as it knows and callers whose answers come on the connection wait for ever (C121_client_refuted, C121_waits_refuted). The frame need not be garbled: an error of a kind added by a newer version is enough (C121_newer_refuted). And without any foreign frame: a client that connects handles nothing until it is introduced, while its task waits for it to handle Disconnected or a handshake, so that a connection that ends before the introduction leaves both waiting for each other for ever (C121_early_refuted; C25_closed_early_refuted has the client's side), where a garbled frame would have freed the client. Not modelled: that a heartbeat may find the node silent later, when its pings time out."
  },
  {
   "property": "C122",
   "status": "partial",
   "theorems": [
    "Verif.Persist.Flock.C122_known",
    "Verif.Persist.Flock.C122_asked",
    "Verif.Persist.Flock.C122_starts",
    "Verif.Persist.Flock.C122_keys",
    "Verif.Sharding.C122_coordinators",
    "Verif.Sharding.C122_shards",
    "Verif.Persist.Flock.C122_late_refuted",
    "Verif.Persist.Flock.C122_disagree_refuted",
    "Verif.Persist.Flock.C122_once_refuted",
    "Verif.Persist.Flock.C122_order_refuted",
    "Verif.Persist.Flock.C122_crash",
    "Verif.Persist.Flock.C122_apart",
    "Verif.Persist.Flock.C122_empty",
    "Verif.Persist.Flock.C122_left_behind",
    "Verif.Persist.Flock.C122_waits"
   ],
   "note": "C90 and C95 had copies whose operations are done at once, C116 a Redis with calls in flight; this has any number of copies as callers of that Redis. C122_known and C122_starts: a copy started at any time has every event reported before to any copy, all its own later ones, none that was not asked for and none more often than asked for, however often the write was retried; C122_starts also gives that such a copy can always come up on a node that works. C122_coordinators and C122_shards apply it: with several leaders at once no allocated shard is forgotten, and no started entity is. Partial: the rest of the statement is false. A write of a dead node takes effect when copies already run, so that two copies started after each other differ though nothing was asked for (C122_late_refuted); running copies do not hear of each other (C122_disagree_refuted); the same event reported to two copies is stored once (C122_once_refuted); and numbers given by copies that do not know of each other make later events come before earlier ones (C122_order_refuted). Left out: snapshots and trimming by several copies, which lose events even without failures (C90)."
  },
  {
   "property": "C123",
   "status": "partial",
   "theorems": [
    "Verif.Uuid.C123_parse",
    "Verif.Uuid.C123_read_back",
    "Verif.Uuid.C123_messages",
    "Verif.Uuid.C123_panics",
    "Verif.Uuid.C123_length",
    "Verif.Uuid.C123_refused_refuted"
   ],
   "note": "The assumption of C50 about the text of UUIDs is proved here for the text form that the uuid crate documents (to_string, and the four forms parse_str takes); the crate itself is not in /repo, so that what is trusted is that it does what is modelled. Partial: a message whose id is no UUID is not refused, the reading panics (unwrap), and exactly then (C123_panics, C123_refused_refuted)."
  },
  {
   "property": "C124",
   "status": "partial",
   "theorems": [
    "Verif.Sharding.Debounce.C124_arrivals",
    "Verif.Sharding.Debounce.C124_at_most",
    "Verif.Sharding.Debounce.C124_quiet",
    "Verif.Sharding.Debounce.C124_follows_partial",
    "Verif.Sharding.Debounce.C124_put_off_refuted",
    "Verif.Sharding.Debounce.C124_twice_refuted",
    "Verif.Sharding.Debounce.C124_even"
   ],
   "note": "One coordinator from its start to its end, with the real time of its timer. At most one rebalance is scheduled and not cancelled, and no more are sent than nodes arrived, whatever the runtime does. With a prompt runtime rebalances are sent exactly 500 ms after the arrivals that no other followed in between. Partial: nodes that keep coming less than 500 ms apart put the rebalance off for as long as they do (C124_put_off_refuted), and a cancelled task that is polled late may still send, so that two are handled (C124_twice_refuted)."
  },
  {
   "property": "C125",
   "status": "partial",
   "theorems": [
    "Verif.Singleton.Status.C125_status",
    "Verif.Singleton.Status.C125_running_partial",
    "Verif.Singleton.Status.C125_none_partial",
    "Verif.Singleton.Status.C125_one_partial",
    "Verif.Singleton.Status.C125_dead_refuted",
    "Verif.Singleton.Status.C125_idle_refuted",
    "Verif.Singleton.Status.C125_starting_refuted",
    "Verif.Singleton.Status.C125_remote_refuted"
   ],
   "note": "Running and Stopping are reported only of an instance that was started and runs or has ended since (all runs); Joining and Idle mean that there is nothing of the singleton on the node, if the manager starts it only when there is nothing of an earlier one. Partial: a manager whose instance has ended by itself goes on reporting Running though it was told; after a repeated acknowledgement it can report Idle while an instance runs; after a failed start it reports Starting with nothing under way; and no other node can ask, GetStatus cannot be read from bytes."
  }
 ]
}
