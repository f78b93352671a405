{"id": "C01", "title": "Replay fidelity without snapshots", "statement": "A persistent actor that has never taken a snapshot recovers, on every restart, exactly the messages whose persist or persist_batch call returned Ok, each once and in the order they were persisted (in-memory journal storage, for writes that store nothing when they report failure).", "quantifier": "every sequence of single persists, batch persists (any size), storage write failures at any point and restarts at any point", "why_tests_cant": "Sequence numbers depend on the whole interleaving of singles, batches and restarts; a test fixes one interleaving.", "anchors": ["coerce/src/persistent/journal/mod.rs: Journal::persist_message, persist_batch, recover_messages", "coerce/src/persistent/journal/provider.rs: InMemoryJournalStorage::write_message, write_message_batch, read_latest_messages"]}
{"id": "C02", "title": "Recovery from a snapshot", "statement": "After a restart a persistent actor is given its most recent successfully stored snapshot and then exactly the messages persisted after that snapshot, in order, none missing and none from before it (in-memory journal storage).", "quantifier": "every sequence of persists, batches, snapshots, storage failures and restarts", "why_tests_cant": "The outcome depends on which kind of write comes first after a snapshot and on restarts in between; example tests only use one shape.", "anchors": ["coerce/src/persistent/journal/mod.rs: Journal::persist_snapshot, persist_message, recover_snapshot, recover_messages", "coerce/src/persistent/journal/provider.rs: InMemoryJournalStorage::read_latest_snapshot, read_latest_messages"]}
{"id": "C03", "title": "Acknowledged writes are stored exactly once", "statement": "When persist returns Ok to the actor, the message is in the journal exactly once, however many storage attempts were rejected before; when it returns Err and every storage attempt was rejected, the journal is unchanged. On Redis this holds even if attempts that reported failure had stored the message.", "quantifier": "every pattern of storage failures and every retry policy", "why_tests_cant": "Failure patterns are unbounded; tests inject one or two failures.", "anchors": ["coerce/src/persistent/actor.rs: PersistentActor::persist, persist_batch, check", "coerce/src/persistent/failure.rs: should_retry", "coerce/src/persistent/journal/mod.rs: Journal::persist_message"]}
{"id": "C04", "title": "Journal order numbers never go backwards", "statement": "The sequence numbers of the messages stored for one actor never decrease in storage order, every stored message's number is at most the journal's own counter, and a snapshot's number is strictly greater than the number of every message stored before it (for writes that store nothing when they report failure).", "quantifier": "every history of writes, snapshots, failures and restarts", "why_tests_cant": "An ordering invariant over unbounded histories including restarts.", "anchors": ["coerce/src/persistent/journal/mod.rs: Journal::persist_message, persist_batch, persist_snapshot, recover_messages, recover_snapshot"]}
{"id": "C05", "title": "Trimming old messages is invisible to recovery", "statement": "Deleting the messages made obsolete by a snapshot (clear_old_messages) never changes what the actor recovers afterwards: the same snapshot and the same messages, with either journal storage.", "quantifier": "every history before the trim and every moment at which the trim runs", "why_tests_cant": "The trim can run any number of writes after the snapshot; whether it takes one message too many depends on boundaries.", "anchors": ["coerce/src/persistent/journal/mod.rs: Journal::clear_old_messages", "coerce/src/persistent/journal/provider.rs: InMemoryJournalStorage::delete_messages_to", "providers/persistence/coerce-redis/src/journal/mod.rs: RedisJournalStorage::delete_messages_to", "providers/persistence/coerce-redis/src/journal/actor.rs: Handler<DeleteRange>"]}
{"id": "C06", "title": "Range reads of the journal", "statement": "Reading the journal between two sequence numbers returns, without crashing, exactly the stored messages whose number lies in the requested range, in order.", "quantifier": "every journal content and every pair of bounds", "why_tests_cant": "Boundary behaviour for all contents and bounds; the code has an unimplemented branch a sample can miss.", "anchors": ["coerce/src/persistent/journal/provider.rs: InMemoryJournalStorage::read_messages, read_message", "coerce/src/persistent/journal/mod.rs: Journal::read_messages"]}
{"id": "C07", "title": "Journal entry encoding round-trips", "statement": "A journal entry written to bytes and read back is the same entry: sequence number, payload type and payload are preserved, and two different entries never have the same bytes.", "quantifier": "every sequence number (64-bit signed), payload type and payload", "why_tests_cant": "The input space is infinite.", "anchors": ["coerce/src/persistent/journal/storage.rs: JournalEntry::write_to_bytes, read_from_bytes", "coerce/src/persistent/journal/proto/journal.rs"]}
{"id": "C08", "title": "Replay fidelity on Redis storage", "statement": "With the Redis journal a restarted actor recovers its latest snapshot and every message persisted after it, each as often as it was persisted and in the order it was persisted.", "quantifier": "every sequence of singles, batches, snapshots and restarts and every message content", "why_tests_cant": "Redis sorted sets collapse equal members and order equal scores by content; collisions depend on histories and payloads no sample covers.", "anchors": ["providers/persistence/coerce-redis/src/journal/mod.rs: RedisJournalStorage (all JournalStorage methods)", "providers/persistence/coerce-redis/src/journal/actor.rs: Handler<Write>, Handler<WriteBatch>, Handler<ReadMessages>, Handler<ReadSnapshot>"]}
{"id": "C09", "title": "Persist failure policy bounds attempts", "statement": "Under a bounded retry policy a persist or recovery makes at most the configured number of attempts (and at least one), stops the actor and reports an error if all fail, and stops trying at the first success; under retry-until-success it returns only after a success; under the stop policy it makes exactly one attempt.", "quantifier": "every attempt limit and every pattern of failures", "why_tests_cant": "Quantifies over all limits and all failure patterns.", "anchors": ["coerce/src/persistent/failure.rs: should_retry", "coerce/src/persistent/actor.rs: check, persist", "coerce/src/persistent/recovery.rs: recover_journal, load_journal"]}
{"id": "C10", "title": "Journals of different actors are independent", "statement": "Operations on one persistence id never change what an actor with a different persistence id reads or recovers, in the in-memory store and under both Redis key layouts.", "quantifier": "all pairs of distinct persistence ids, all key prefixes, all operation sequences", "why_tests_cant": "Key-collision freedom is a statement about all strings.", "anchors": ["coerce/src/persistent/journal/provider.rs: InMemoryJournalStorage", "providers/persistence/coerce-redis/src/journal/mod.rs: get_redis_key, get_clustered_redis_key"]}
{"id": "C11", "title": "Unknown payload types are skipped, known ones are not disturbed", "statement": "When some stored messages have a payload type the actor no longer has a handler for, recovery delivers exactly the messages with known types, in order, and later persists still never reuse an order number lower than one already stored.", "quantifier": "every journal content and every set of known types", "why_tests_cant": "Arbitrary mixes of known and unknown entries.", "anchors": ["coerce/src/persistent/journal/mod.rs: Journal::recover_messages, recover_snapshot", "coerce/src/persistent/journal/types.rs"]}
{"id": "C12", "title": "Mailbox is processed in order, one message at a time, at most once", "statement": "An actor handles the messages sent to it in the order they were accepted by its mailbox, each at most once and never two at a time; the handled messages are a prefix of the accepted ones, and everything accepted before a stop request is handled unless the actor stops itself earlier.", "quantifier": "every number of senders, every interleaving of sends with handling, every point at which a stop is requested", "why_tests_cant": "Schedules are unbounded.", "anchors": ["coerce/src/actor/lifecycle.rs: ActorLoop::run", "coerce/src/actor/refs/mod.rs: LocalActorRef::send, notify", "coerce/src/actor/message/mod.rs: ActorMessage::handle"]}
{"id": "C13", "title": "Every request is answered exactly once", "statement": "Each send to an actor gets exactly one outcome: the handler's result for that very message if it was handled, otherwise an error; a request never receives another request's result and none is left without outcome once the actor has stopped.", "quantifier": "every schedule of senders, handling and stopping", "why_tests_cant": "Depends on every interleaving of sends with the stop.", "anchors": ["coerce/src/actor/refs/mod.rs: LocalActorRef::send", "coerce/src/actor/message/mod.rs: ActorMessage::handle", "coerce/src/actor/lifecycle.rs: ActorLoop::run"]}
{"id": "C14", "title": "Lifecycle hooks run in order and once", "statement": "started runs exactly once and before any message is handled, stopped runs exactly once and after the last handled message (at most once if a hook or handler panics), the status seen by the outside moves only forward (starting, started, stopping, stopped), and the starter is only told the actor is up if started finished without requesting a stop.", "quantifier": "every message sequence and every point at which the actor or someone else requests a stop, including inside started", "why_tests_cant": "All stop points in all message sequences.", "anchors": ["coerce/src/actor/lifecycle.rs: ActorLoop::run, actor_stopped", "coerce/src/actor/context.rs: ActorContext::stop"]}
{"id": "C15", "title": "Watchers hear of termination exactly once", "statement": "When an actor stops, every actor that is watching it (subscribed and not unsubscribed since) is notified exactly once, however often it subscribed, and nobody else is.", "quantifier": "every history of watch and unwatch requests", "why_tests_cant": "Set semantics over unbounded histories.", "anchors": ["coerce/src/actor/watch/mod.rs", "coerce/src/actor/lifecycle.rs: actor_stopped", "coerce/src/actor/context.rs: ActorContext::new_watcher, remove_watcher"]}
{"id": "C16", "title": "Supervision keeps the children set exact", "statement": "A parent's children are exactly the actors it spawned or attached that have not been reported terminated; spawning an id that is already a child is refused and changes nothing; a terminated child's id can be used again; when a parent stops, every child it still has is asked to stop.", "quantifier": "every sequence of spawns, attaches, failed starts, child terminations and stops", "why_tests_cant": "Unbounded histories with id reuse.", "anchors": ["coerce/src/actor/supervised.rs: Supervised", "coerce/src/actor/context.rs: ActorContext::on_context_dropped"]}
{"id": "C17", "title": "Looking up an actor by id finds the live one", "statement": "Looking up an id in the actor system returns the actor most recently started under that id as long as that actor has not stopped, and returns nothing if no actor with that id is running.", "quantifier": "every interleaving of actor starts, stops and the deregistrations those stops cause, with ids reused arbitrarily", "why_tests_cant": "The deregistration is asynchronous, so the order in which it meets a re-registration is a schedule.", "anchors": ["coerce/src/actor/scheduler/mod.rs: Handler<RegisterActor>, Handler<DeregisterActor>, Handler<GetActor>", "coerce/src/actor/lifecycle.rs: actor_stopped"]}
{"id": "C18", "title": "Worker pool distributes evenly", "statement": "A worker pool of n workers hands each request to exactly one worker, and after any number of requests the numbers of requests given to any two workers differ by at most one.", "quantifier": "every pool size and every number of requests", "why_tests_cant": "Unbounded request counts and pool sizes.", "anchors": ["coerce/src/actor/worker.rs: Worker, Handler<WorkerMessage<M>>"]}
{"id": "C19", "title": "Remote replies reach the request they belong to", "statement": "Every response frame completes at most one outstanding remote request, the one with the same message id, at most once; unknown or repeated responses change nothing; requests still outstanding are exactly those issued and not yet answered.", "quantifier": "every interleaving of requests, responses, duplicates and unsolicited responses", "why_tests_cant": "Unbounded concurrency of outstanding requests.", "anchors": ["coerce/src/remote/actor/mod.rs: RemoteHandler", "coerce/src/remote/system/rpc.rs: push_request, pop_request", "coerce/src/remote/net/client/receive.rs: ClientMessageReceiver::on_receive", "coerce/src/remote/net/server/session/mod.rs: SessionMessageReceiver::on_receive"]}
{"id": "C20", "title": "Network frames round-trip", "statement": "Every event one node writes to a connection is read by the peer as the same event with the same content; frames that are empty or carry an unknown tag are rejected without affecting other frames; the only event that cannot be written is the unused Raft one.", "quantifier": "every event and every payload", "why_tests_cant": "Infinite input space.", "anchors": ["coerce/src/remote/net/message.rs: ClientEvent/SessionEvent read_from_bytes, write_to_bytes, write_event", "coerce/src/remote/net/mod.rs: receive_loop"]}
{"id": "C21", "title": "Errors survive the wire", "statement": "An actor error sent to another node arrives as the same error with the same details.", "quantifier": "every error value", "why_tests_cant": "All variants with all payloads.", "anchors": ["coerce/src/remote/net/message.rs: From<ActorRefErr> for proto::ActorRefErr, From<proto::ActorRefErr> for ActorRefErr"]}
{"id": "C22", "title": "Unauthenticated connections can do nothing", "statement": "With token authentication configured, a peer whose first frame is not an identification with a valid token gets no frame processed, no reply and no information about the node; the session is stopped.", "quantifier": "every sequence of frames a peer can send", "why_tests_cant": "A security property over all attacker inputs.", "anchors": ["coerce/src/remote/net/server/session/mod.rs: RemoteSession::started, validate_session_token", "coerce/src/remote/net/security/auth/mod.rs: ClientAuth::validate_token"]}
{"id": "C23", "title": "Tokens expire exactly after their lifetime", "statement": "A token produced with the shared secret is accepted exactly while the clock is not past its creation time plus the configured lifetime (always if no lifetime is set), and a token that does not verify under the secret is never accepted.", "quantifier": "every token, creation time, lifetime and clock reading", "why_tests_cant": "Boundary for all times.", "anchors": ["coerce/src/remote/net/security/auth/jwt.rs: Jwt::validate_token, is_token_still_valid"]}
{"id": "C24", "title": "Outgoing messages survive reconnects in order", "statement": "Messages written to a remote node's client before or while it is disconnected are kept and sent after the next successful connection, each exactly once and in the order written; the byte counter of the buffer always equals the bytes buffered.", "quantifier": "every sequence of writes, connection successes and failures and stream errors until the client gives up", "why_tests_cant": "Every placement of failures relative to writes.", "anchors": ["coerce/src/remote/net/client/send.rs: RemoteClient::write, flush_buffered_writes, buffer_message", "coerce/src/remote/net/client/connect.rs: Handler<Connect>, Handler<Disconnected>"]}
{"id": "C25", "title": "Reconnection gives up after ten failures and only then", "statement": "A client that cannot reach its node retries and terminates exactly when more than ten consecutive attempts have failed; any successful connection resets the count.", "quantifier": "every sequence of connection outcomes", "why_tests_cant": "Counting over arbitrary outcome sequences.", "anchors": ["coerce/src/remote/net/client/connect.rs: Handler<Connect>, Handler<Disconnected>"]}
{"id": "C26", "title": "The leader is the oldest healthy node", "statement": "After every heartbeat that changes the leader, the leader is the healthy node that started earliest (ties broken by the smaller id); two nodes with the same view of the cluster choose the same leader, whatever order they learned of the nodes; the leader never changes to an unhealthy node.", "quantifier": "every set of nodes, statuses and start times, and every order in which nodes are listed", "why_tests_cant": "All cluster views and orderings.", "anchors": ["coerce/src/remote/heartbeat/mod.rs: Handler<HeartbeatTick>, update_leader", "coerce/src/remote/system/cluster.rs: current_leader, update_leader"]}
{"id": "C27", "title": "Node health is classified by ping results", "statement": "A node whose last ping answered within the unhealthy limit is healthy, one that has not answered for longer than the termination timeout is terminated and one in between is unhealthy; a node with a recent heartbeat is never declared terminated because of one missed ping.", "quantifier": "every ping history, timeout configuration and clock", "why_tests_cant": "All times and histories; boundaries.", "anchors": ["coerce/src/remote/heartbeat/mod.rs: node_status, update_node"]}
{"id": "C28", "title": "Cluster-up waits for the minimum size", "statement": "The member-up notification, which unlocks cluster features, is published at most once and only when the node knows at least the configured minimum number of members.", "quantifier": "every minimum size and every growth of the cluster", "why_tests_cant": "All sizes and all histories.", "anchors": ["coerce/src/remote/heartbeat/mod.rs: Handler<HeartbeatTick>, on_min_cluster_size_reached"]}
{"id": "C29", "title": "Placement of actors on nodes is consistent hashing", "statement": "The node responsible for an actor id depends only on the set of members, not on the order they joined; adding a node only moves ids to that node and removing a node only moves the ids that were on it.", "quantifier": "every membership set, join order, actor id and hash function without collisions", "why_tests_cant": "All memberships and hash functions.", "anchors": ["coerce/src/remote/cluster/node.rs: RemoteNodeStore::add, remove, get_by_key, update_nodes"]}
{"id": "C30", "title": "Node directory reflects membership changes", "statement": "The node directory answers exactly the nodes that were added and not removed since, with their latest details; a node marked terminated is no longer chosen for placement.", "quantifier": "every sequence of adds, updates, terminations and removals", "why_tests_cant": "Unbounded histories with repeated ids.", "anchors": ["coerce/src/remote/cluster/node.rs: RemoteNodeStore"]}
{"id": "C31", "title": "Remote actor location", "statement": "Looking up where an actor lives returns the node it was registered on by whichever node registered it, from any node sharing the same membership view; after the actor is gone the lookup no longer answers a stale node.", "quantifier": "every history of registrations, and every membership view shared by the nodes", "why_tests_cant": "Multi-node histories.", "anchors": ["coerce/src/remote/actor/registry.rs: Handler<GetActorNode>, Handler<RegisterActor>", "coerce/src/remote/system/actor.rs: locate_actor_node"]}
{"id": "C32", "title": "Node discovery announces each node once and can retry", "statement": "A node that is discovered while unknown is announced to the system exactly once until it is forgotten; rediscovering a known node announces nothing; a node whose handshake failed or which was forgotten can be discovered again.", "quantifier": "every sequence of discoveries, handshake outcomes and forgets", "why_tests_cant": "Histories with failures and aliases.", "anchors": ["coerce/src/remote/cluster/discovery/mod.rs: Handler<Discover>, Handler<Forget>, Handler<NodeDiscovered>"]}
{"id": "C33", "title": "Publish/subscribe delivers everything in order", "statement": "Every subscriber of a topic receives every message published to that topic after it subscribed and before it unsubscribed, exactly once and in publication order, and no message of any other topic.", "quantifier": "every sequence of subscribes, unsubscribes and publishes on any topics and every speed of the subscribers", "why_tests_cant": "All interleavings of publishing and slow receiving.", "anchors": ["coerce/src/remote/stream/mediator/mod.rs: StreamMediator::subscribe, Handler<Publish<T>>", "coerce/src/remote/stream/pubsub.rs: Subscription::new, TopicEmitter"]}
{"id": "C34", "title": "Health report combines checks", "statement": "The node's reported health is unhealthy exactly if some registered check gave no answer in time or stopped, otherwise degraded exactly if some check was slow, otherwise healthy; removed checks no longer count.", "quantifier": "every set of checks and outcomes and every order of registration and removal", "why_tests_cant": "All combinations of check outcomes.", "anchors": ["coerce/src/remote/heartbeat/health.rs: Handler<GetHealth>, Handler<RegisterHealthCheck>, Handler<RemoveHealthCheck>"]}
{"id": "C35", "title": "Remote message handling always reports one outcome", "statement": "A message for an actor arriving from another node yields exactly one outcome: the encoded result if the actor is found and handles it, or an error that says whether the actor was missing, the payload could not be decoded, the result could not be encoded or the actor failed; a missing actor is looked up a bounded number of times.", "quantifier": "every registry behaviour over time, every payload and handler outcome", "why_tests_cant": "All combinations of lookup timing and failure.", "anchors": ["coerce/src/remote/handler.rs: RemoteActorMessageHandler::handle_attempt, handle_direct, get_actor_ref"]}
{"id": "C36", "title": "Cluster events round-trip", "statement": "Cluster membership events published to other nodes arrive as the same event about the same node.", "quantifier": "every event", "why_tests_cant": "All events with all contents.", "anchors": ["coerce/src/remote/stream/system.rs: SystemEvent::read_from_bytes, write_to_bytes"]}
{"id": "C37", "title": "Each shard is assigned to exactly one known host", "statement": "At every moment the coordinator assigns each shard to at most one node, the per-node shard lists and the shard-to-node table agree exactly, and the node is one the coordinator knows.", "quantifier": "every sequence of allocations, node joins, node losses, rebalances and recoveries, and every tie-break", "why_tests_cant": "Invariant over unbounded histories.", "anchors": ["coerce/src/sharding/coordinator/allocation.rs: ShardCoordinator::allocate_shard, allocate", "coerce/src/sharding/coordinator/balancing.rs: rebalance_shards, rebalance_unavailable_node", "coerce/src/sharding/coordinator/discovery.rs: on_node_discovered, on_node_removed"]}
{"id": "C38", "title": "New shards go to the least loaded available node", "statement": "A newly allocated shard is placed on an available node carrying no more shards than any other available node; it is refused only if no node is available.", "quantifier": "every cluster state and tie-break order", "why_tests_cant": "All states.", "anchors": ["coerce/src/sharding/coordinator/allocation.rs: ShardCoordinator::allocate_shard, allocate"]}
{"id": "C39", "title": "Allocation is stable", "statement": "Once a shard is allocated every later allocation request answers the same node, until the shard is moved by a rebalance or its node becomes unavailable.", "quantifier": "every sequence of requests and membership events in between", "why_tests_cant": "Unbounded histories.", "anchors": ["coerce/src/sharding/coordinator/allocation.rs: Handler<AllocateShard>"]}
{"id": "C40", "title": "Losing a node moves its shards", "statement": "When a node becomes unavailable no shard stays assigned to it, every shard it had is assigned to an available node if there is one, shards on other nodes stay where they are, and it receives no new shards until it is back.", "quantifier": "every cluster state and lost node", "why_tests_cant": "All states.", "anchors": ["coerce/src/sharding/coordinator/balancing.rs: rebalance_unavailable_node", "coerce/src/sharding/coordinator/discovery.rs: on_node_removed"]}
{"id": "C41", "title": "Full rebalance evens out load", "statement": "A full rebalance takes from each node exactly the shards above the fair share and no others, and once the moved shards are placed again no available node carries more than the fair share plus one.", "quantifier": "every distribution of shards over nodes", "why_tests_cant": "All distributions.", "anchors": ["coerce/src/sharding/coordinator/balancing.rs: Handler<Rebalance>, rebalance_shards", "coerce/src/sharding/coordinator/mod.rs: schedule_full_rebalance"]}
{"id": "C42", "title": "Coordinator recovery knows the same shards", "statement": "After the coordinator restarts, the set of shards it considers allocated is exactly the set of shards that were ever successfully allocated (given an available node), each again on exactly one available node.", "quantifier": "every history before the crash", "why_tests_cant": "All histories and crash points.", "anchors": ["coerce/src/sharding/coordinator/allocation.rs: Handler<AllocateShard>, RecoverJournal/Recover<AllocateShard>", "coerce/src/sharding/coordinator/mod.rs: pre_recovery"]}
{"id": "C43", "title": "Entity placement is a function of its id", "statement": "The same entity id always maps to the same shard, on every node configured with the same number of shards, and the shard number is always below that number.", "quantifier": "every entity id and shard count", "why_tests_cant": "All ids and counts.", "anchors": ["coerce/src/sharding/coordinator/allocation.rs: DefaultAllocator::allocate"]}
{"id": "C44", "title": "Requests to a shard being located or started are kept and forwarded in order", "statement": "A request for an entity whose shard is not yet located or is still starting is kept and forwarded exactly once, in arrival order, when the shard is located or ready; no request is silently dropped while the shard is not being stopped.", "quantifier": "every interleaving of requests with allocation answers, start completions and moves of the shard", "why_tests_cant": "Interleavings.", "anchors": ["coerce/src/sharding/host/mod.rs: Handler<ShardAllocated>, Handler<ShardReady>", "coerce/src/sharding/host/request.rs: Handler<EntityRequest>, handle_request"]}
{"id": "C45", "title": "A request to stop a shard is always honoured and acknowledged", "statement": "Whenever the coordinator asks a node to stop a shard, the shard stops and the coordinator is told, in whatever state the shard was, so that the shard can be placed elsewhere.", "quantifier": "every shard state and every interleaving of the stop with the start of the shard", "why_tests_cant": "The stop can meet the shard in any phase.", "anchors": ["coerce/src/sharding/host/mod.rs: Handler<StopShard>, Handler<ShardReady>, stop_shard, Handler<ShardStopped>"]}
{"id": "C46", "title": "Routing goes to the current owner", "statement": "A request is handled locally if this node hosts the shard, otherwise sent to the node last announced as its owner, and a shard is never both hosted locally and routed elsewhere.", "quantifier": "every sequence of allocation, reallocation and stop announcements", "why_tests_cant": "Histories.", "anchors": ["coerce/src/sharding/host/mod.rs: ShardHost handlers", "coerce/src/sharding/host/request.rs: Handler<EntityRequest>"]}
{"id": "C47", "title": "An entity is started once and sees its requests in order", "statement": "While an entity is starting no second instance is started; requests that arrive meanwhile are delivered to it exactly once, in order, when it is up, and are answered with an error if it cannot be started.", "quantifier": "every interleaving of requests and start results for any number of entities", "why_tests_cant": "Interleavings.", "anchors": ["coerce/src/sharding/shard/mod.rs: Handler<EntityRequest>, Handler<EntityStartResult>, start_entity, Entity::request"]}
{"id": "C48", "title": "Idle and passivated entities come back on demand", "statement": "A request to an entity the shard knows but which is not running starts it and is then delivered.", "quantifier": "every entity state reachable by any history including passivation and recovery from a snapshot", "why_tests_cant": "States reachable only through particular histories.", "anchors": ["coerce/src/sharding/shard/mod.rs: Entity::request, Handler<EntityRequest>", "coerce/src/sharding/shard/recovery.rs"]}
{"id": "C49", "title": "A recovered shard restarts the entities it had", "statement": "After a restart the shard knows exactly the entities that were started and not removed since, with the latest recipe of each, and restarts those that were active and not passivated.", "quantifier": "every history of starts, passivations, removals and snapshots", "why_tests_cant": "All histories and crash points.", "anchors": ["coerce/src/sharding/shard/recovery.rs: Recover<StartEntity>, Recover<PassivateEntity>, Recover<RemoveEntity>, RecoverSnapshot", "coerce/src/sharding/shard/mod.rs: post_recovery, recover_entities, get_active_entities"]}
{"id": "C50", "title": "Sharding messages round-trip", "statement": "Every sharding message sent to another node (allocation requests and results, shard allocated/reallocating/stop/stopped/ready, entity requests and their results) arrives as the same message.", "quantifier": "every message content", "why_tests_cant": "All contents.", "anchors": ["coerce/src/sharding/coordinator/allocation.rs", "coerce/src/sharding/host/mod.rs", "coerce/src/sharding/host/request.rs", "coerce/src/sharding/shard/message.rs", "coerce/src/sharding/shard/recovery.rs"]}
{"id": "C51", "title": "A shard never runs on two nodes during a rebalance", "statement": "While nodes stay reachable, a shard moved by a rebalance is started on the new node only after the old node has stopped it.", "quantifier": "every interleaving of rebalances, allocation requests and message deliveries over any number of nodes", "why_tests_cant": "Distributed interleavings.", "anchors": ["coerce/src/sharding/coordinator/balancing.rs: rebalance_shards", "coerce/src/sharding/coordinator/allocation.rs: broadcast_allocation", "coerce/src/sharding/host/mod.rs: Handler<StopShard>, stop_shard"]}
{"id": "C52", "title": "At most one instance of a cluster singleton", "statement": "At no time do two nodes run the singleton, provided all nodes know each other and messages are delivered.", "quantifier": "every number of nodes and every interleaving of leader changes, lease messages, starts and stops", "why_tests_cant": "Distributed interleavings.", "anchors": ["coerce/src/singleton/manager/mod.rs: Manager", "coerce/src/singleton/manager/lease.rs: Handler<RequestLease>, Handler<LeaseAck>", "coerce/src/singleton/manager/start.rs"]}
{"id": "C53", "title": "A node starts its singleton at most once per leadership", "statement": "From the moment a node begins to take over the singleton until it stops it, the node starts the singleton actor at most once, and only after every other known manager has given up its lease.", "quantifier": "every sequence of acknowledgements (including repeated, late and unknown ones) and nodes joining and leaving", "why_tests_cant": "Arbitrary acknowledgement orders with membership changes.", "anchors": ["coerce/src/singleton/manager/lease.rs: on_lease_ack, on_all_managers_acknowledged", "coerce/src/singleton/manager/mod.rs: Handler<NodeAdded>/on system topic"]}
{"id": "C54", "title": "Leases are handed over", "statement": "A manager that is asked for the lease while it runs the singleton stops it and then gives the lease to the node that asked; a manager not running it gives the lease at once; so a new leader eventually starts the singleton.", "quantifier": "every manager state and every requester", "why_tests_cant": "All states and orders.", "anchors": ["coerce/src/singleton/manager/lease.rs: Handler<RequestLease>, grant_lease", "coerce/src/singleton/manager/mod.rs: begin_stopping, on_child_stopped"]}
{"id": "C55", "title": "The singleton proxy loses nothing and keeps order", "statement": "Messages sent through the proxy while no instance is known are kept and delivered exactly once, in order, to the next announced instance, before any message sent later.", "quantifier": "every sequence of sends, instance announcements and stops", "why_tests_cant": "Histories.", "anchors": ["coerce/src/singleton/proxy/mod.rs: Handler<SingletonStarted>, Handler<SingletonStopping>", "coerce/src/singleton/proxy/send.rs: Handler<Deliver<M>>"]}
{"id": "C56", "title": "Fire-and-forget through the proxy is safe", "statement": "Notifying the singleton without waiting for a result delivers the message like a send and never crashes the proxy.", "quantifier": "every proxy state", "why_tests_cant": "All states.", "anchors": ["coerce/src/singleton/mod.rs: Singleton::notify, send", "coerce/src/singleton/proxy/send.rs: MessageWrapper::deliver"]}
{"id": "C57", "title": "A bad connection does not affect the others", "statement": "Whatever earlier peers did - sent a wrong token, a malformed frame, or nothing at all - a node goes on accepting connections: a new peer that identifies itself properly can still get a session.", "quantifier": "every history of connections, first frames (good, refused, malformed), silences and closures, in every interleaving", "why_tests_cant": "It is about every history of misbehaving peers, and the failure is a wait cycle between three tasks.", "anchors": ["coerce/src/remote/net/server/mod.rs: server_loop", "coerce/src/remote/net/server/session/store.rs: Handler<NewSession>, Handler<SessionClosed>", "coerce/src/remote/net/server/session/mod.rs: RemoteSession::started, RemoteSession::stopped", "coerce/src/actor/lifecycle.rs: ActorLoop::run", "coerce/src/actor/supervised.rs: Supervised::spawn"]}
{"id": "C58", "title": "Writing to a node survives the loss of other nodes' clients", "statement": "There is at most one client per address. A message for a node is handed exactly once to the client last connected to it, and a dead or removed client of another node (or of another address of the same node) does not prevent that; messages for unknown nodes change nothing.", "quantifier": "every history of client creations, connections, removals, deaths and writes", "why_tests_cant": "It needs a client to die at a particular point of an arbitrary history.", "anchors": ["coerce/src/remote/actor/clients.rs: Handler<NewClient>, Handler<RemoveClient>, Handler<ClientConnected>, Handler<ClientWrite>", "coerce/src/remote/net/client/connect.rs: Handler<BeginHandshake>, Handler<Disconnected>"]}
{"id": "C59", "title": "Deploying an actor id is exclusive", "statement": "Deploying an actor under an id that is already running somewhere in the cluster is refused, and an id whose actor has stopped can be deployed again.", "quantifier": "every history of deployments, stops and message delays and every choice of nodes", "why_tests_cant": "Races between nodes and delayed registrations.", "anchors": ["coerce/src/remote/system/actor.rs: handle_create_actor, locate_actor_node", "coerce/src/remote/actor/registry.rs: Handler<RegisterActor>, Handler<GetActorNode>"]}
{"id": "C60", "title": "Discovery reaches the whole cluster", "statement": "Discovering a seed address finds every node reachable from the seed through peers that answer.", "quantifier": "every peer graph and every address", "why_tests_cant": "All graphs.", "anchors": ["coerce/src/remote/cluster/discovery/mod.rs: Handler<Discover>, NodeDiscovery::discover_nodes"]}
{"id": "C61", "title": "Undecodable sharding messages are refused, not fatal", "statement": "Bytes that are not a valid sharding message are refused with a deserialisation error by the node that reads them; they never make the reading task panic.", "quantifier": "every byte sequence and every sharding message type", "why_tests_cant": "All byte sequences.", "anchors": ["coerce/src/sharding/host/mod.rs: ShardAllocated::from_bytes, StopShard::from_bytes", "coerce/src/sharding/host/request.rs: RemoteEntityRequest::from_bytes", "coerce/src/sharding/coordinator/allocation.rs: AllocateShard::read_remote_result"]}
{"id": "C62", "title": "Singleton manager messages round-trip", "statement": "Every lease request, acknowledgement, start and stop announcement, and status answer that one singleton manager sends to another is decoded by the receiver as exactly the message that was sent.", "quantifier": "every node id (all 64-bit values) and every manager state", "why_tests_cant": "2^64 node ids with different encoded lengths.", "anchors": ["coerce/src/singleton/manager/lease.rs: RequestLease/LeaseAck as_bytes, from_bytes", "coerce/src/singleton/manager/mod.rs: SingletonStarted/SingletonStopped as_bytes, from_bytes", "coerce/src/singleton/manager/status.rs: write_remote_result, read_remote_result", "coerce/src/singleton/proto/singleton.rs"]}
{"id": "C63", "title": "An event-sourced actor survives restarts", "statement": "The state of a persistent actor that applies each event once its persist call succeeded is, at every moment and after any number of crashes and restarts, the state its acknowledged events make of the initial state.", "quantifier": "every event type, state type and apply function with lawful encodings; every history of single and batched persists, snapshots of the current state, trims, failed writes, crashes and failed journal reads", "why_tests_cant": "It relates the live state to the recovered one over all interleavings of crashes with writes and snapshots.", "anchors": ["coerce/src/persistent/actor.rs: PersistentActor::persist, persist_batch, snapshot, Actor::started", "coerce/src/persistent/journal/mod.rs: Journal", "coerce/src/persistent/recovery.rs: recover_journal", "coerce/src/persistent/journal/provider.rs: InMemoryJournalStorage"]}
{"id": "C64", "title": "A persistent actor runs only when fully recovered", "statement": "A persistent actor starts processing messages only if its journal was read and its snapshot and every recovered message were applied, each once and in order, between pre_recovery and post_recovery; otherwise (a payload does not decode, or the policy gives up on reading) it stops, nothing past the failure is applied, and post_recovery is not called.", "quantifier": "every actor, recovery policy, sequence of failed journal reads and journal content", "why_tests_cant": "Failure patterns of the storage and position of the undecodable payload range over unbounded sequences.", "anchors": ["coerce/src/persistent/actor.rs: impl Actor for PersistentActor, started", "coerce/src/persistent/recovery.rs: recover_journal, should_retry", "coerce/src/persistent/failure.rs"]}
{"id": "C65", "title": "A persisted message is read back by the handler of its type", "statement": "For every message type registered in a journal's type table, the identifier written with its messages leads back to the handler of the same type.", "quantifier": "every sequence of registrations", "why_tests_cant": "The number of registered types is unbounded; the failing case needs two types with the same identifier.", "anchors": ["coerce/src/persistent/journal/types.rs: JournalTypes::message, init_journal_types, get_message_identifier", "coerce/src/persistent/journal/mod.rs: persist_message, recover_messages"]}
{"id": "C66", "title": "After start-up a persistent actor can persist", "statement": "Once a persistent actor has started, its persist calls reach the storage, whatever recovery mode it chose.", "quantifier": "every actor, storage content, payload", "why_tests_cant": "It is about every storage and every recovery mode, the tests only use the default one.", "anchors": ["coerce/src/persistent/actor.rs: PersistentActor::recover, Recovery::Disabled", "coerce/src/persistent/context.rs: ActorPersistence::journal, init_journal"]}
{"id": "C67", "title": "The Redis journal is a set ordered by sequence number", "statement": "What a Redis journal holds depends only on which entries were written to it, not on their order, batching or repetition; it is kept in order of number; the keys of different journals differ, and with hash tags on all keys of one actor fall in one cluster slot.", "quantifier": "every sequence of written entries (64-bit numbers, any payload), every key prefix and persistence id", "why_tests_cant": "Quantifies over all write orders and all strings used in keys.", "anchors": ["providers/persistence/coerce-redis/src/journal/actor.rs: Handler<Write>, Handler<WriteBatch>", "providers/persistence/coerce-redis/src/journal/mod.rs: get_redis_key, get_clustered_redis_key"]}
{"id": "C68", "title": "Shutdown ends every tracked actor and returns", "statement": "When ActorSystem::shutdown returns, every actor that was registered with the scheduler when it took the stop message has run its stop procedure; and whatever the actors were doing, shutdown can return.", "quantifier": "every number of actors, every interleaving of their messages, scheduler calls, self-stops and the steps of shutdown", "why_tests_cant": "The deadlocks need a particular interleaving between the terminated flag, the scheduler's mailbox and an actor's own stop.", "anchors": ["coerce/src/actor/system/mod.rs: ActorSystem::shutdown, new_actor", "coerce/src/actor/scheduler/mod.rs: ActorScheduler::stopped, Handler<RegisterActor>, Handler<DeregisterActor>", "coerce/src/actor/lifecycle.rs: ActorLoop::run, actor_stopped"]}
{"id": "C69", "title": "Timers tick one at a time, no faster than their period, until stopped", "statement": "A timer sends a tick only after the previous one was answered and at least a period after that answer, never before its first tick is due; after it is stopped or dropped, or its actor has ended, no further tick is sent.", "quantifier": "every period, actor speed and interleaving of time, answers, stop, drop and the actor's end", "why_tests_cant": "Depends on timing and on a race between stop and the loop's check.", "anchors": ["coerce/src/actor/scheduler/timer.rs: Timer::start, Timer::start_immediately, Timer::stop, timer_loop"]}
{"id": "C70", "title": "A scheduled notification is delivered at most once, not early, and not if cancelled in time", "statement": "A message scheduled with scheduled_notify is sent at most once and not before its delay is over; if it is cancelled before the delay is over it is not sent.", "quantifier": "every delay and interleaving of time, cancellation and polls of the task", "why_tests_cant": "Needs both branches of the select to become ready between two polls.", "anchors": ["coerce/src/actor/mod.rs: LocalActorRef::scheduled_notify, ScheduledNotify::cancel"]}
{"id": "C71", "title": "A description of the system is truthful and complete", "statement": "DescribeAll yields one entry for each tracked actor and the scheduler, in order; each entry names its actor, lists exactly the first max_children describable children, truthfully, down to max_depth levels (at least one), and reports errors only for actors that cannot answer; with no limits and prompt actors every actor of the hierarchy is listed.", "quantifier": "every hierarchy, options, reaction of every actor and resolution of ties", "why_tests_cant": "The hierarchy, the limits and the reactions of the actors vary independently.", "anchors": ["coerce/src/actor/describe/mod.rs: Handler<Describe>, describe_all, get_describable_actors, Handler<DescribeAll>"]}
{"id": "C72", "title": "An unresponsive actor delays a description for a bounded time and hides only itself", "statement": "A description of the system is ready within a fixed time whatever the actors do, does not depend on other top-level actors, and an actor that does not answer is reported as timed out while its parents and siblings are reported as they are; child_describe_timeout sets the waiting time.", "quantifier": "every hierarchy, options and set of unresponsive actors", "why_tests_cant": "Needs actors stuck at different levels and exact timing.", "anchors": ["coerce/src/actor/describe/mod.rs: describe_all, DescribeOptions"]}
{"id": "C73", "title": "Identification and handshake callbacks end once and truthfully", "statement": "Everybody waiting for a node's identity is told once, when an attempt to connect ends; a handshake frame is written at most once per connection; a handshake request ends at most once and is completed only if the current connection acknowledged its handshake; a lost connection does not end the client.", "quantifier": "every interleaving of connections, losses, identity questions, handshake requests and acknowledgements", "why_tests_cant": "Needs acknowledgements and losses of connections crossing each other.", "anchors": ["coerce/src/remote/net/client/connect.rs: Handler<Connect>, Handler<BeginHandshake>, Handler<HandshakeAcknowledge>, Handler<Disconnected>", "coerce/src/remote/net/client/mod.rs: Handler<Identify>, RemoteClientRef::handshake"]}
{"id": "C74", "title": "A client has at most one ping timer", "statement": "However often a client loses and regains its connection, at most one ping timer runs for it, the one it holds, and none when it has ended.", "quantifier": "every sequence of connections, losses and ticks", "why_tests_cant": "Leaks only if a reconnect overtakes a tick.", "anchors": ["coerce/src/remote/net/client/connect.rs: RemoteClient::connect", "coerce/src/remote/net/client/ping.rs: Handler<PingTick>", "coerce/src/actor/scheduler/timer.rs: Timer"]}
{"id": "C75", "title": "A sharded request has one place, one execution and one truthful answer", "statement": "Sharded::send over any number of nodes: every request made is at any time in exactly one place (buffered by one shard host or shard, in one task, frame or reply, with its entity, answered, or lost); it is executed at most once, by its own entity, in the shard the allocator names; no caller gets two answers; a result is what the entity returned for that request; a refusal or closed channel means the request was not executed.", "quantifier": "every interleaving of requests, allocations, reallocations, shard starts and stops, entity starts, frames, replies and losses, for any allocator", "why_tests_cant": "Needs requests crossing reallocations and losses at every point of a path of five actors on two nodes.", "anchors": ["coerce/src/sharding/mod.rs: Sharded::send", "coerce/src/sharding/host/request.rs: handle_request, Handler<EntityRequest>, remote_entity_request", "coerce/src/sharding/shard/mod.rs: Handler<EntityRequest>, Handler<RemoteEntityRequest>, Entity::request, Handler<EntityStartResult>", "coerce/src/remote/handler.rs: handle_direct"]}
{"id": "C76", "title": "Every sharded request is eventually answered", "statement": "A caller of Sharded::send gets an answer: no request is left waiting when nothing is left to do, and from every state there is a way to the answer.", "quantifier": "every reachable state of the whole sharded system", "why_tests_cant": "A caller that waits for ever is only visible if the particular loss or failed start is provoked.", "anchors": ["coerce/src/sharding/mod.rs: Sharded::send", "coerce/src/sharding/shard/mod.rs: Handler<EntityStartResult>", "coerce/src/remote/net/server/session/mod.rs: session_handle_message", "coerce/src/remote/actor_ref.rs: RemoteActorRef"]}
{"id": "C77", "title": "Names of registered types lead back to them", "statement": "The name under which a node sends a message leads, on every node with the same registrations, to the handler of exactly that actor and message type; every message type registered under a name that is not used for another type has such a name; the capabilities list every type that can be sent exactly once, sorted; what a program registers under other names does not disturb the framework's own messages.", "quantifier": "every sequence of with_handler and with_actor calls, every iteration order of the hash maps on either node, every message type", "why_tests_cant": "Iteration order of the maps differs between processes; collisions depend on the whole set of registrations.", "anchors": ["coerce/src/remote/system/builder.rs: RemoteSystemConfigBuilder::with_handler, with_actor, build", "coerce/src/remote/config/mod.rs: RemoteSystemConfig::handler_name, actor_name, message_handler, actor_handler, get_capabilities", "coerce/src/remote/handler.rs: ActorHandler::id, ActorMessageHandler::id, RemoteActorMarker, RemoteActorMessageMarker", "coerce/src/sharding/mod.rs: sharding", "coerce/src/singleton/mod.rs: singleton"]}
{"id": "C78", "title": "Sharded entity types keep to themselves", "statement": "When several entity types are sharded in one cluster, every message for a host, shard, coordinator or lease manager of one type reaches the actor of that type, and no two of them share a journal.", "quantifier": "every sequence of starting sharding, coordinators and shards on a node, all entity names, node ids and shard ids", "why_tests_cant": "Ids are made by string formatting from unbounded names and numbers; tests use one entity type.", "anchors": ["coerce/src/sharding/host/mod.rs: ShardHost::actor_id, shard_actor_id", "coerce/src/sharding/coordinator/mod.rs: persistence_key", "coerce/src/sharding/shard/mod.rs: persistence_key", "coerce/src/singleton/mod.rs: SingletonBuilder::new, build", "coerce/src/sharding/mod.rs: Sharding::try_start", "coerce/src/actor/scheduler/mod.rs: Handler<RegisterActor>"]}
{"id": "C79", "title": "A worker joins through its seed", "statement": "A starting worker registers itself under its external address, serves, and then, if it has a seed, resolves the seed's name at most eleven times with a pause after each failure, asks discovery exactly once if and only if it resolved, and returns after the answer.", "quantifier": "every configuration, every outcome of every resolution attempt and every answer", "why_tests_cant": "The eleven attempts take almost a minute and depend on DNS; tests resolve at once.", "anchors": ["coerce/src/remote/cluster/builder/worker.rs: ClusterWorkerBuilder::start, cluster_node_addr, discover_peers"]}
{"id": "C80", "title": "Discovery requests are answered once, after their handshakes, and truthfully", "statement": "Every discovery request with a completion channel is answered at most once and can always still be answered; never before all handshakes begun for it have ended; with false exactly when the address was not known and could not be identified.", "quantifier": "every interleaving of requests, handshakes ending either way, forgetting and status changes, every behaviour of other nodes", "why_tests_cant": "Handshakes of several requests overlap in any order.", "anchors": ["coerce/src/remote/cluster/discovery/mod.rs: Handler<Discover>, Handler<NodeDiscovered>, discover_node_handshake"]}
{"id": "C81", "title": "A remote reference behaves like a local one", "statement": "Sending through a reference to an actor of another node gives exactly the value the actor's handler returned, and has exactly the effect on the actor that sending through a local reference has, provided the message type has lawful conversions, is registered on both nodes, the frames fit and the actor is there; a missing actor gives the same error; a message or answer that cannot be written gives an error and never a wrong value.", "quantifier": "every message type with its conversions, every actor behaviour and state, every registry content, every request table and request id", "why_tests_cant": "The tests use two message types and one node pair; what can go wrong depends on the type's conversions and on the registry.", "anchors": ["coerce/src/actor/mod.rs: ActorRef::send, ActorRef::notify", "coerce/src/remote/mod.rs: RemoteActorRef::send, RemoteActorRef::notify", "coerce/src/remote/handler.rs: RemoteActorMessageHandler::handle", "coerce/src/remote/net/server/session/mod.rs: session_handle_message"]}
{"id": "C82", "title": "Messages to an actor of another node: none lost or duplicated by the way, ordered for a sender that waits", "statement": "On a connection that stays up every message sent is at every moment either in the actor's mailbox, with a task of the session or on the wire, exactly once; the messages of a sender that waits for each answer before sending again reach the mailbox in the order sent, whatever other senders do.", "quantifier": "every interleaving of sends by any number of senders, frames read and tasks run, any scheduling of tasks", "why_tests_cant": "The order in which spawned tasks run is chosen by the scheduler.", "anchors": ["coerce/src/remote/net/server/session/mod.rs: SessionEvent::NotifyActor, session_handle_message", "coerce/src/remote/system/cluster.rs: notify_node"]}
{"id": "C83", "title": "Deploying starts exactly the actor asked for, and the caller learns the outcome", "statement": "Deploying an actor of a registered type from a recipe, under an id, on the own node or on another one, starts exactly the actor that the factory registered for the type makes of the recipe, under that id, on that node, or nothing if the id is taken, the type is not registered or the recipe is not accepted. The caller always learns which of these happened, and on success gets a reference through which the actor can be reached.", "quantifier": "for every type table, every recipe and its encodings, every id, every set of actors already running, and deployment on the own and on another node", "why_tests_cant": "Failures of a remote deployment leave the caller waiting; a test that only deploys valid actors on a reachable node never sees them, and no finite set of ids and recipes covers the rest.", "anchors": ["coerce/src/remote/system/actor.rs: deploy_actor, handle_create_actor", "coerce/src/remote/handler.rs: RemoteActorHandler::create", "coerce/src/remote/system/rpc.rs: node_rpc", "coerce/src/remote/net/server/session/mod.rs: session_create_actor"]}
{"id": "C84", "title": "Every ping is reported once and truthfully, and the newest one counts", "statement": "Every ping written on a connection is reported to the heartbeat exactly once: as alive only if a readable answer to this very ping came, with the time it took; as timed out only if no answer came within the limit; as an error only if an error came; and the connection is reported lost only if it was found lost. The heartbeat goes by the newest ping, and nothing is kept of a ping that is over.", "quantifier": "for every sequence of ticks, answers, losses, runs of the waiting tasks and passing of time, and every limit", "why_tests_cant": "Pings overlap: one is sent every half second and each may take fifteen seconds, so the order in which their tasks end is free; the number of interleavings has no bound, and the leak only shows over long times.", "anchors": ["coerce/src/remote/net/client/ping.rs: Handler<PingTick>", "coerce/src/remote/net/client/receive.rs: on_receive", "coerce/src/remote/actor/mod.rs: push_request, pop_request", "coerce/src/remote/heartbeat/mod.rs: Handler<NodePing>, node_status"]}
{"id": "C85", "title": "Statistics of sharded entities tell the truth", "statement": "The statistics given over HTTP agree with the state of the sharding: the coordinator lists each assigned shard once with its node and each known node once with status and the number of its shards, and these add up to the total; the statistics of the cluster have exactly one entry for each assigned shard, with exactly the entities known to it; they are given whenever the coordinator answers; the statistics of a node list and count each shard it knows once.", "quantifier": "all reachable states of a coordinator, all sets of running shards with any entities, all nodes asked, all states of hosts", "why_tests_cant": "The statistics are read while shards start, stop and move; a test sees a quiet cluster in which every assigned shard happens to run.", "anchors": ["coerce/src/sharding/coordinator/stats.rs: Handler<GetShardingStats>", "coerce/src/sharding/shard/stats.rs: Handler<GetShardStats>", "coerce/src/sharding/host/stats.rs: Handler<GetStats>", "coerce/src/remote/api/sharding/cluster.rs: Handler<GetClusterStats>, get_shards, get_sharding_stats", "coerce/src/remote/api/sharding/node.rs: Handler<GetStats>"]}
{"id": "C86", "title": "A node that leaves in good order is out at once and stays out", "statement": "A node that shuts down says so on each of its established outgoing connections, after everything else sent there; the node at the other end marks it terminated and, if it was the leader, has another leader at once; from then on it is not healthy and not leader. In general another node counts as healthy after a heartbeat exactly if the last thing heard of it is an answer to a ping that was quick enough and is recent enough.", "quantifier": "all histories of pings, notices, new nodes and heartbeats on the observing node; all events sent before the parting word; all ways the connection cuts the bytes; all configurations", "why_tests_cant": "The order of notice, late answers, broken connections and heartbeats is up to the network and the scheduler; a test sees one order.", "anchors": ["coerce/src/remote/net/client/mod.rs: Actor::stopped for RemoteClient", "coerce/src/remote/net/server/session/mod.rs: SessionMessageReceiver::on_receive (Ping)", "coerce/src/remote/heartbeat/mod.rs: Handler<NodeTerminated>, Handler<NodePing>, node_status", "coerce/src/actor/system/mod.rs: ActorSystem::shutdown"]}
{"id": "C87", "title": "A member of a chat sees every message once and in order", "statement": "In the chat example the history of a stream is what was said in it, in order, also after the stream has been started again; and a peer that joins is shown every message of the stream exactly once, in order, first the history and then what is said from then on, until it leaves.", "quantifier": "for every history of things said, messages under way between nodes, restarts of the stream, and joins, subscriptions, receipts and departures of a peer, on the node of the stream or another", "why_tests_cant": "what is lost or repeated depends on what is said or is under way in the moments between the answer of the stream and the subscription, and on acknowledgements of the journal that are lost; tests send messages one at a time to peers that have long joined", "anchors": ["examples/coerce-sharded-chat-example/src/actor/stream/mod.rs: Handler<Join>, Handler<ChatMessage>, Recover<ChatMessage>", "examples/coerce-sharded-chat-example/src/actor/peer/mod.rs: Handler<JoinChat>, Handler<Receive>, Handler<LeaveChat>, Handler<SendChatMessage>", "coerce/src/remote/stream/pubsub.rs: PubSub"]}
{"id": "C88", "title": "A stream attached to an actor is heard in order and ends it", "statement": "An actor to which a stream is attached handles the messages its items convert to in order, each once; it ends, after what came before, when the stream ends or fails (if so configured), and the stream is not the reason of its end otherwise; and what a client of the chat example sends over its web socket is what its peer hears.", "quantifier": "for every stream, conversion, actor, interleaving of items, failures and handled messages, and every sequence of events a client sends", "why_tests_cant": "the frames that break the reading task are those no well-behaved client sends, and that a peer lives on after its client has gone is not seen from outside", "anchors": ["coerce/src/actor/context.rs: attach_stream", "examples/coerce-sharded-chat-example/src/actor/peer/mod.rs: Peer::started, Handler<ClientEvent>", "examples/coerce-sharded-chat-example/src/actor/peer/message.rs: parse_inbound_message, JoinChat, SendChatMessage, LeaveChat", "examples/coerce-sharded-chat-example/src/websocket/client/mod.rs: ChatClient::write"]}
{"id": "C89", "title": "The path of an actor tells where it stands, and references are equal for one actor only", "statement": "The full path of an actor is the name of the system, the ids of all the actors it was started under, and its own id; and two LocalActorRefs compare equal exactly if they refer to the same actor.", "quantifier": "every sequence of starting actors at the top, spawning, attaching and supervising children, actors ending and parents handling their end; every pair of actors; all ids and system names", "why_tests_cant": "whether two actors can collide depends on the order in which a parent first gets children and on the ids in use over the whole life of the system", "anchors": ["coerce/src/actor/context.rs: full_path, spawn, spawn_deferred, attach_child_ref, add_child_ref", "coerce/src/actor/supervised.rs: Supervised::spawn, on_child_stopped", "coerce/src/actor/system/mod.rs: new_actor, new_supervised_actor", "coerce/src/actor/refs/mod.rs: PartialEq for LocalActorRef"]}
{"id": "C90", "title": "Copies of a persistent actor over one journal lose no acknowledged event", "statement": "If several actors with the same persistence key are run over the same storage, one after another or at the same time, every event acknowledged to any of them is in the state of every copy started later exactly once, and copies running at the same time agree.", "quantifier": "every event type, state type and apply function with lawful encodings; every number of copies, every interleaving of their events, snapshots, trims, starts and ends; every outcome of the storage calls", "why_tests_cant": "it takes two copies alive at once, and the loss shows only at a later start; the interleavings of numbers, snapshots and trims are unbounded", "anchors": ["coerce/src/persistent/actor.rs: PersistentActor::persistence_key, persist, snapshot", "coerce/src/persistent/context.rs: init_journal", "coerce/src/persistent/journal/mod.rs: Journal::persist_message, persist_batch, persist_snapshot, clear_old_messages, recover_snapshot, recover_messages", "coerce/src/persistent/journal/provider.rs: InMemoryJournalStorage", "providers/persistence/coerce-redis/src/journal/mod.rs: RedisJournalStorage"]}
{"id": "C91", "title": "The entities of a shard end with it, and an entity runs in one place while its shard moves", "statement": "An entity actor of a shard runs at most once: once under an instance of the shard, at all times, also after the shard has stopped; once in the whole cluster, and there where the shard runs, while the shard is moved in good order. When a shard stops, all its entities are told to stop and none is left behind.", "quantifier": "all journals, all interleavings of requests, creations that succeed or fail, results handled late, entities ending by themselves, the stop of the shard and of its children, for all entities; all runs of the coordinator, hosts and network of C51 with any number of nodes", "why_tests_cant": "The gaps lie between the end of an actor, the task that stops its children and the task that creates a new one; a test waits until all these have finished, and no test looks at an entity on two nodes at the same time.", "anchors": ["coerce/src/sharding/shard/mod.rs: start_entity, EntityStartResult", "coerce/src/actor/context.rs: Drop for ActorContext", "coerce/src/actor/lifecycle.rs: actor_stopped", "coerce/src/actor/supervised.rs: add_child_ref, stop_all, on_child_stopped", "coerce/src/sharding/host/mod.rs: StopShard, StoppedShard"]}
{"id": "C92", "title": "Messages follow their .proto files, and messages of a newer version are understood", "statement": "Every message type is written exactly as its .proto file says (numbers, types, defaults left out, maps, repeated fields, sub-messages, base-128 numbers). A message is read back unchanged when a newer version has added fields of other numbers anywhere in it or in its sub-messages, and values of enums that this version does not know do no harm.", "quantifier": "all messages of all types of network.proto, sharding.proto, singleton.proto, journal.proto and chat.proto; all insertions of unknown fields at every place and depth; all numbers of enums", "why_tests_cant": "Tests write and read with the same version, so that a number used wrongly on both sides, or a field of a later version, is never seen.", "anchors": ["coerce/src/protocol/network.proto", "coerce/src/protocol/sharding.proto", "coerce/src/protocol/singleton.proto", "coerce/src/protocol/persistent/journal.proto", "coerce/src/remote/net/proto/network.rs: write_to_with_cached_sizes, merge_from", "coerce/src/sharding/proto/sharding.rs", "coerce/src/singleton/proto/singleton.rs", "coerce/src/persistent/journal/proto/journal.rs", "coerce/src/remote/net/message.rs: From<proto::network::ActorRefErr>", "coerce/src/sharding/coordinator/allocation.rs: read_remote_result", "coerce/src/singleton/manager/status.rs"]}
{"id": "C93", "title": "A persistent entity keeps what was acknowledged, wherever its shard runs", "statement": "However often the shard of an entity that is a persistent actor is moved between nodes, the running instance of the entity has exactly the events that were acknowledged to any of its instances, in their order.", "quantifier": "all event-sourced actors; all hash functions of entity ids, all nodes, all interleavings of the messages of coordinator, hosts and shards, of the starts and ends of entities and of their reads and writes, with any number of moves and of failed reads and writes", "why_tests_cant": "A test moves a shard once while its entities are idle; what counts is an entity that goes on writing at any point of the move.", "anchors": ["coerce/src/sharding/host/mod.rs: StopShard", "coerce/src/sharding/shard/mod.rs: stopped", "coerce/src/persistent/actor.rs: PersistentActor::persistence_key, started, persist", "coerce/src/persistent/journal/mod.rs: Journal", "coerce/src/persistent/journal/provider/inmemory.rs", "coerce/src/sharding/coordinator/rebalance.rs"]}
{"id": "C94", "title": "An event-sourced actor over Redis survives restarts and handovers", "statement": "Over the Redis journal the state of a persistent actor that applies each event once its persist call succeeded is, at every moment and after any number of restarts, by the same or by another process, the state its acknowledged events make of the initial state.", "quantifier": "every event type, state type and apply function with lawful encodings; every key prefix, with and without hash tags; every history of single and batched persists, snapshots, trims, failed writes, crashes, failed journal reads, and every sequence of copies that take turns", "why_tests_cant": "Whether an event shares a number with another depends on what was written before the last restart, and whether it then is lost or misplaced on the bytes of both; a test that restarts once and reads back sees nothing.", "anchors": ["coerce/src/persistent/actor.rs: PersistentActor", "coerce/src/persistent/journal/mod.rs: persist_message, persist_batch, recover_messages, clear_old_messages", "coerce/src/persistent/recovery.rs: load_journal", "providers/persistence/coerce-redis/src/journal/actor.rs: Handler<Write>, Handler<WriteBatch>, Handler<ReadMessages>", "providers/persistence/coerce-redis/src/journal/mod.rs: RedisJournalStorage"]}
{"id": "C95", "title": "The journals of coordinator and shard keep what was answered", "statement": "With the journals of the shard coordinator and of the shards in a storage (Redis or in memory), a coordinator started anywhere knows every shard ever reported as allocated, on an available node, and a shard started anywhere knows exactly the entities, with their recipes, that the running shard before it knew, and starts each of them once.", "quantifier": "every history of allocations, rebalancings, node changes, entity requests, starts and stops; every number of failed write attempts, each of which may or may not have reached the storage; every loss of a node, also in the middle of a write; every number of restarts; every use of the storage by others under other keys; every naming of entities and recipes", "why_tests_cant": "A retried write may be stored many times and, over Redis, events written after a restart share numbers with older ones and are ordered by their bytes; whether that matters depends on the whole history and on the encodings.", "anchors": ["coerce/src/sharding/coordinator/allocation.rs: Handler<AllocateShard>, Recover<AllocateShard>", "coerce/src/sharding/shard/mod.rs: Handler<StartEntity>, RecoverJournal", "coerce/src/persistent/actor.rs: persist, PersistFailurePolicy", "coerce/src/persistent/failure.rs: PersistErr, RetryPolicy", "providers/persistence/coerce-redis/src/journal/actor.rs: Handler<Write>, Handler<ReadMessages>"]}
{"id": "C96", "title": "All nodes have the same account of a node", "statement": "What any node has in its directory about a node (id, address, tag, start time, attributes) is what that node says of itself, however it came by it: from the identity that node sent, or passed on from node to node in handshakes. So nodes that know the same nodes place every actor alike, nodes for which the same nodes are healthy elect the same leader, and selecting nodes by attribute gives the same on every node. Reading what another node wrote never panics.", "quantifier": "all clusters of any number of nodes with any accounts, all orders of starts, identities, handshakes, losses, registrations and status changes; which nodes override incoming addresses is arbitrary where not excluded", "why_tests_cant": "the accounts travel through conversions on several paths (identity, handshake, second hand); tests look at two nodes and one path, and never at addresses being overridden or at a process that comes back under its id", "anchors": ["coerce/src/remote/net/server/session/mod.rs: session_handshake, RemoteSession::started", "coerce/src/remote/cluster/node.rs: From conversions, NodeSelector::includes, RemoteNodeStore::add", "coerce/src/remote/net/client/receive.rs: ClientMessageReceiver::on_receive", "coerce/src/remote/net/client/connect.rs: Handler<BeginHandshake>", "coerce/src/remote/cluster/discovery/mod.rs: Handler<Discover>", "coerce/src/remote/cluster/builder/worker.rs: start"]}
{"id": "C97", "title": "Shards survive a change of the coordinator", "statement": "When the shard coordinator ends and another is started, and when nodes crash, every shard that has run is placed again, at most one instance of it runs at any time, and it runs on the node the coordinator has for it.", "quantifier": "every number of coordinators one after another, each on any node and with any knowledge of the other nodes and any order of its table; every number of nodes, crashes and restarts of nodes; every order in which messages, requests, answers and stopping tasks are handled, across coordinators", "why_tests_cant": "What an old coordinator has sent may be handled at any time after a new one has started, and what the new one decides depends on the order of a hash table; a test sees one order.", "anchors": ["coerce/src/sharding/coordinator/mod.rs: pre_recovery", "coerce/src/sharding/coordinator/allocation.rs: Recover<AllocateShard>, allocate_shard, broadcast_allocation", "coerce/src/sharding/coordinator/balancing.rs: rebalance_shards, rebalance_unavailable_node", "coerce/src/sharding/coordinator/factory.rs: CoordinatorFactory", "coerce/src/sharding/host/mod.rs: Handler<ShardAllocated>, Handler<StopShard>, stop_shard"]}
{"id": "C98", "title": "Persistent actors of different kinds do not share a journal", "statement": "A persistent actor recovers what it persisted itself and nothing of any other actor: what other coordinators, shards, entities of the same or other types and directly started actors persist, save or trim in the same storage has no effect on it.", "quantifier": "every number of persistent actors of every kind and type over one storage (in memory or Redis), every interleaving of their starts, writes, snapshots, trims, failures and ends, every entity type, entity id and shard number", "why_tests_cant": "Tests use one kind of persistent actor at a time; whether two keys can coincide is a question about all names, and the effect needs an interleaving of two kinds of actors with a restart.", "anchors": ["coerce/src/persistent/actor.rs: persistence_key, started", "coerce/src/sharding/shard/mod.rs: persistence_key, start_entity", "coerce/src/sharding/coordinator/mod.rs: persistence_key", "coerce/src/remote/handler.rs: RemoteActorHandler::create", "coerce/src/persistent/journal/mod.rs: recover_snapshot, recover_messages", "coerce/src/persistent/journal/provider.rs: InMemoryJournalStorage"]}
{"id": "C99", "title": "Kubernetes discovery finds the nodes", "statement": "Discovery gives the address and port of exactly those containers of the selected pods that offer the named port and can be reached in the configured way; other pods and containers do not keep it from doing so, pods that have ended are left out, and an error is not reported as a cluster without nodes.", "quantifier": "every configuration, every environment, every answer of the API: any number of pods with any parts missing, any containers, ports and names", "why_tests_cant": "There are no tests: it needs a cluster, and the shapes of pods (sidecars, missing parts, phases) are many.", "anchors": ["providers/discovery/coerce-k8s/src/lib.rs: KubernetesDiscovery::discover", "providers/discovery/coerce-k8s/src/config.rs: KubernetesDiscoveryConfig::default"]}
{"id": "C100", "title": "Nobody waits for ever", "statement": "Whatever is asked of the actors of the framework, in whatever order they run, every request is answered in the end: the waits of their handlers and hooks for each other never close a circle.", "quantifier": "every history of requests from outside (network, timers, tasks, application) and every interleaving of the actors, any number of clients, sessions, shards and application actors", "why_tests_cant": "A circle of waits needs a particular interleaving of several actors; that there is none is a statement about all handlers together.", "anchors": ["coerce/src/actor/lifecycle.rs: ActorLoop::run, actor_stopped", "coerce/src/actor/refs/mod.rs: LocalActorRef::send, stop", "coerce/src/actor/supervised.rs: Supervised::spawn", "coerce/src/actor/scheduler/mod.rs: ActorScheduler::stopped", "coerce/src/remote/actor/clients.rs: RemoteClientRegistry::stopped, Handler<NewClient>", "coerce/src/remote/net/client/connect.rs: Handler<Connect>, Handler<Disconnected>", "coerce/src/remote/net/client/receive.rs: on_receive, on_close", "coerce/src/remote/net/server/session/mod.rs: started, stopped", "coerce/src/remote/net/server/session/store.rs: Handler<NewSession>", "coerce/src/remote/cluster/discovery/mod.rs: Handler<Discover>", "coerce/src/remote/heartbeat/mod.rs: Handler<HeartbeatTick>"]}
{"id": "C101", "title": "Messages derived as JSON are read back as what was sent", "statement": "A message, a result or a snapshot whose type derives JsonMessage or JsonSnapshot is read back as the value that was written, whatever strings and numbers it holds; so a remote caller gets the answer a local caller would. Fields of a struct may come in any order and with unknown fields between them, and an optional field may be missing.", "quantifier": "every type built from integers, strings, options, lists, tuples, structs and enums, and every value of it", "why_tests_cant": "Infinitely many types and values; escapes, nesting and nullable types combine in ways no test suite enumerates.", "anchors": ["coerce/macros/src/message/json.rs: expand", "coerce/macros/src/snapshot/json.rs: expand", "coerce/src/actor/message/mod.rs: Message", "coerce/src/remote/actor_ref.rs: RemoteActorRef::send"]}
{"id": "C102", "title": "A derived message has the result type its attribute names", "statement": "A type with #[derive(JsonMessage)] gets exactly the result type that its #[result(...)] attribute names; if the attribute is missing or does not name exactly one type, the declaration is not compiled.", "quantifier": "every list of attributes", "why_tests_cant": "Attributes are arbitrary token trees; a test compiles only the ones somebody thought of.", "anchors": ["coerce/macros/src/lib.rs: get_attribute_type_multiple, meta_item_to_ty", "coerce/macros/src/message/json.rs: expand"]}
{"id": "C103", "title": "A task given to a worker pool is done once and its caller gets the result", "statement": "Every task dispatched to a worker pool is done by exactly one worker, exactly once, in the order given, and the caller gets that worker's result; as long as one worker is alive no task is refused. A pool that cannot be started leaves nothing behind.", "quantifier": "every number of workers, every list of tasks, every interleaving of callers, pool actor, spawned sends and workers, with stops and panics at any time", "why_tests_cant": "The order of spawned sends and the moments at which workers stop are chosen by the runtime; a test sees one schedule.", "anchors": ["coerce/src/actor/worker.rs: Worker::new, WorkerRefExt::dispatch, Handler<WorkerMessage>"]}
{"id": "C104", "title": "All nodes of a cluster come to know each other", "statement": "However nodes start, are given nodes to join, exchange handshakes and wait for them: a node only ever knows nodes it is linked to by joins; the exchange of handshakes ends after boundedly many steps in whatever order they happen; nobody waits in a ring, so every caller of a discovery is told of its end exactly once; and when nothing is under way and no connection failed, a node knows exactly the nodes it is linked to by any chain of joins in either direction, and is known by them.", "quantifier": "for all sets of nodes, all joins (overlapping or not), all interleavings of handshakes, answers and finished tasks, with and without failing connections", "why_tests_cant": "A test joins two or three nodes in one order; knowledge must spread through chains of joins of any length made at the same time, with handshakes overtaking each other, and the waits of the nodes for each other must not form a ring in any interleaving.", "anchors": ["coerce/src/remote/cluster/discovery/mod.rs::Handler<Discover> for NodeDiscovery", "coerce/src/remote/cluster/discovery/mod.rs::discover_node_handshake", "coerce/src/remote/net/server/session/mod.rs::session_handshake"]}
{"id": "C105", "title": "The search for an actor ends, is answered once, and finds the actor", "statement": "A question after an actor, passed from node to node by nodes that each have their own view of the cluster, comes to no node twice and ends after finitely many steps; everyone who asked gets exactly one answer per question; a node named in an answer is one on which the actor was started; an actor that was started on a node of the cluster is found by every later question.", "quantifier": "for all hashes, all numbers of nodes, all views and their changes while questions are under way, all actors, any number of questions at once and every interleaving of registrations, questions, answers, losses and timeouts", "why_tests_cant": "Which node is asked next depends on the hashes of node details in the ring each node happens to have at that moment; circles appear only for particular combinations of hashes and views, and tests have clusters of two or three nodes with one view.", "anchors": ["coerce/src/remote/actor/registry.rs: Handler<GetActorNode>, Handler<RegisterActor>", "coerce/src/remote/system/actor.rs: RemoteActorSystem::locate_actor_node, register_actor", "coerce/src/remote/net/server/session/mod.rs: session_handle_lookup, Handler<SetSessionId> override_incoming_node_addr", "coerce/src/remote/cluster/node.rs: RemoteNodeStore::get_by_key, Hash for RemoteNode"]}
{"id": "C106", "title": "The nodes of a cluster agree on one leader", "statement": "Whatever has happened in a cluster before, once the nodes that run know the same nodes and answer each other, all of them have the same leader after their next heartbeat, the node running for the longest; they keep it, announcing nothing, while that goes on; a node whose process has ended leads nowhere for long; and no node takes itself for the leader while the leader its cluster agreed on runs.", "quantifier": "every number of nodes, clock offset, history of joins, ends, answered and missed pings, notices and heartbeats, in every interleaving", "why_tests_cant": "Disagreement needs a particular order of ping results and heartbeats on several nodes, such as a late timeout overtaking newer answers, and a test only sees the few orders its timing produces.", "anchors": ["coerce/src/remote/heartbeat/mod.rs: Handler<HeartbeatTick>, Handler<NodePing>, Handler<NodeTerminated>, node_status, update_leader", "coerce/src/remote/net/client/ping.rs: Handler<PingTick>", "coerce/src/remote/cluster/node.rs: RemoteNodeStore::update_nodes", "coerce/src/remote/system/cluster.rs: current_leader, update_leader"]}
{"id": "C107", "title": "The leader of a new cluster comes to run its singleton", "statement": "When the nodes of a new cluster come up and are told of one leader, the leader starts the singleton once every node is up, and after finitely many steps one instance runs, on the leader, and nothing is left to do; a start that fails is made good by a later one, on this node or another.", "quantifier": "every number of nodes and every interleaving of member-up events, repeated leader announcements, node announcements, lease messages, starts, results of starts and ends of instances", "why_tests_cant": "All orders of events over any number of nodes; that it always comes to an end, and that it never does after a failed start, are claims about all continuations.", "anchors": ["coerce/src/singleton/manager/mod.rs: Manager::begin_starting, on_leader_changed, Handler<Receive<SystemTopic>>", "coerce/src/singleton/manager/lease.rs: request_lease, grant_lease, on_lease_ack", "coerce/src/singleton/manager/start.rs: start_actor, Handler<ActorStartResult>"]}
{"id": "C108", "title": "A message to the singleton of a new cluster is received once, by its one instance", "statement": "Whatever is sent to the singleton on whichever node of a new cluster with one leader, before, during or after the start of the singleton, is received exactly once, by the one instance on the leader, in the order in which it was sent on that node; an instance that ends is replaced.", "quantifier": "every number of nodes, every number of messages sent on every node at any time, every interleaving of cluster events, lease messages, starts, mailbox handling and sending tasks", "why_tests_cant": "Any number of nodes and messages and all interleavings of four kinds of concurrent activity; that nothing is lost or doubled and that an ended instance is never replaced are claims about all histories.", "anchors": ["coerce/src/singleton/mod.rs: Singleton::send", "coerce/src/singleton/proxy/mod.rs: Handler<SingletonStarted>", "coerce/src/singleton/proxy/send.rs: Deliver::deliver, Handler<Deliver>", "coerce/src/singleton/manager/start.rs: Handler<ActorStartResult>", "coerce/src/singleton/manager/mod.rs: Handler<SingletonStarted>, Handler<SingletonStopped>, on_child_stopped"]}
{"id": "C109", "title": "When the node of the leader fails, the next leader takes over the singleton", "statement": "When a node of a cluster with a singleton fails, the singleton goes on to run on one node: if the leader failed, the next leader asks the nodes left, starts it and runs it, whatever the order in which the nodes learn of the failure and of the new leader; if another node failed, it runs on where it is. There is never more than one instance on the nodes left, and this goes on until the last node.", "quantifier": "every number of nodes, every sequence of failures, every order of the news of a failure, of the new leader, of lease messages, starts and their results on all nodes left", "why_tests_cant": "The news of a failure and of the new leader reach every node at different times, interleaved with the lease messages; the number of orders grows factorially with the nodes and the failures, and that a wait never ends is no observation of a test.", "anchors": ["coerce/src/singleton/manager/mod.rs: on_leader_changed, Handler<ClusterEvent> NodeRemoved, MemberUp", "coerce/src/singleton/manager/lease.rs: request_lease, on_lease_ack, on_all_managers_acknowledged", "coerce/src/singleton/manager/start.rs: start_actor, Handler<ActorStartResult>", "coerce/src/remote/cluster/discovery/mod.rs: Handler<Forget>"]}
{"id": "C110", "title": "A running singleton goes on undisturbed while nodes join the cluster", "statement": "While an instance of the singleton runs on node L, nodes may join, be learned of by the others in any order, build their managers and hear or miss each other's pings: as long as L and the instance last, the instance goes on, it is not asked to stop, no other instance is started on any node, and a node that joins is told that the singleton runs on L. Exactly: this holds in every history in which no node other than L chooses a leader while no older node answers it. The code does not ensure that: a node that joins chooses itself if it has no answer by its second heartbeat tick, and then the instance is stopped and never started again, or a second one runs for ever if it had not found the others at all.", "quantifier": "all configurations, all numbers of nodes, all histories of heartbeats, pings answered, late or missed, registries, node events, manager messages and starts in any order and with any delays, all continuations of them", "why_tests_cant": "what happens depends on whether the first answer to a ping comes before or after the second tick of the node that joins, on when the application builds the manager relative to the heartbeat, and on the order of messages between managers; the failures are permanent waits, which no finite run shows to be permanent", "anchors": ["coerce/src/remote/heartbeat/mod.rs: Handler<HeartbeatTick>, update_leader, on_min_cluster_size_reached", "coerce/src/singleton/manager/mod.rs: Handler<Receive<SystemTopic>>, Manager::started, begin_starting, begin_stopping", "coerce/src/singleton/manager/lease.rs: RequestLease, LeaseAck", "coerce/src/singleton/manager/start.rs: start_actor", "coerce/src/remote/handler.rs: RemoteActorMessageHandler::handle_attempt", "coerce/src/remote/cluster/discovery/mod.rs: NodeDiscovery"]}
{"id": "C111", "title": "Bytes are understood as a JSON message exactly if they are one", "statement": "The bytes of a message, a result or a snapshot derived as JSON are accepted exactly if they are the UTF-8 text of a JSON document, with any spacing and any escapes, nested no deeper than 127, whose value has the shape of the type: the right kinds of values, numbers in range, every field once (an optional one may be missing), a known variant. Everything else is refused with a deserialisation error. A text stands for one value at most, and what is written is always such a document.", "quantifier": "every type built from integers, strings, options, lists, tuples, structs and enums, every sequence of bytes, every value", "why_tests_cant": "The set of byte sequences is infinite, and a reader that accepts too much, or takes a malformed text for some other message, is found only by the one input a test does not try.", "anchors": ["coerce/macros/src/message/json.rs: as_bytes, from_bytes, read_remote_result, write_remote_result", "coerce/macros/src/snapshot/json.rs: into_remote_envelope, from_remote_envelope"]}
{"id": "C112", "title": "When the leader's process ends, the next oldest node takes over the singleton", "statement": "Heartbeats, registries, managers and proxies of all nodes together: when the process of the node L that runs the singleton ends, the next oldest node B starts it again. Exactly: once the nodes older than B have been gone for twice the unhealthy time, B's next tick makes it leader, its manager asks every node it knows, and when each of these has answered or been taken for removed, in whatever order, its instance runs and its own proxy and those of the nodes that answered send to it; nobody is asked to stop; from the end of L on nothing runs anywhere but at B; and the new instance then goes on as the old one did. The code lets B forget L only when it finds a connection closed, which is independent of its heartbeat: if L ends silently B waits for ever and the singleton is never started again; if B merely loses sight of L it takes over although L still runs, and both run for ever.", "quantifier": "all configurations, all numbers of nodes, all histories before the end of L, all orders of the answers and removals, all continuations", "why_tests_cant": "the takeover depends on two independent detections of the same failure, by missing heartbeats and by a closed connection, in either order, for each of any number of nodes; the failure when only one of them happens is a wait that no finite run shows to be permanent", "anchors": ["coerce/src/remote/heartbeat/mod.rs: Handler<HeartbeatTick>, update_leader", "coerce/src/remote/net/client/ping.rs: Handler<PingTick>", "coerce/src/remote/cluster/discovery/mod.rs: Handler<Forget>", "coerce/src/singleton/manager/mod.rs: Handler<Receive<SystemTopic>>, begin_starting, on_lease_ack", "coerce/src/singleton/manager/lease.rs: RequestLease, LeaseAck", "coerce/src/singleton/manager/start.rs: start_actor, SingletonStarted"]}
{"id": "C113", "title": "A shard coordinator knows the nodes of its cluster", "statement": "Discovery, node registry and shard coordinator of one node taken together: whenever the coordinator starts, every node the discovery has announced is one of its hosts or its announcement is waiting in its mailbox. The coordinator takes a node for available exactly if the last event it handled about it was NodeAdded, or, without any, if the registry had it as Healthy or Joining when the coordinator asked. A node that was announced, never removed and never Unhealthy or Terminated is available or about to be; after a removal nothing is assigned to a node; a terminated node that is discovered again is available again. A node that is there is used, and one that is gone is not.", "quantifier": "all orders of discovery messages, answers of other nodes, handshake ends, heartbeat findings, removals, starts and stops of the coordinator, and all coordinator work in between", "why_tests_cant": "what the coordinator believes depends on how its subscription, its question to the registry, delayed publications of removals, failed pings and status changes interleave; a connection made again before the heartbeat has noticed that it was lost shuts a healthy node out for good, which no test waits for", "anchors": ["coerce/src/sharding/coordinator/mod.rs: pre_recovery", "coerce/src/sharding/coordinator/discovery.rs: on_node_discovered, on_node_removed", "coerce/src/remote/cluster/discovery/mod.rs: Handler<Discover>, Handler<NodeDiscovered>, Handler<Forget>", "coerce/src/remote/actor/registry.rs: Handler<GetNodes>, Handler<UpdateNodes>", "coerce/src/remote/net/client/ping.rs: PingTick"]}
{"id": "C114", "title": "What is published to the cluster reaches the nodes of the cluster", "statement": "Any number of nodes, each with its discovery and its stream mediator: of a message published with Reach::Cluster there is exactly one copy for every other node whose last event handled by the publisher's mediator was NodeAdded, and none for any other node; it is handed to no node twice, never back to the publisher, passed on by nobody, and unchanged. When everything has been sent and nothing was lost, all these nodes have it exactly once, and their subscribers receive it. A node announced and never removed is addressed; a terminated node that is discovered again is addressed again. A node of the cluster receives what is published in the cluster, or the publisher is told.", "quantifier": "any number of nodes, all orders of discovery messages, announcements, removals, subscriptions, local and cluster-wide publications, sending, delivery and loss", "why_tests_cant": "the set of addressees depends on how discovery, removals published by tasks, reconnections and publications interleave on every node; a connection lost and made again before the next heartbeat makes publishing one-way for good, with every publisher told Ok", "anchors": ["coerce/src/remote/stream/mediator/mod.rs: Handler<Receive<SystemTopic>>, Handler<Publish<T>>, Handler<PublishRaw>", "coerce/src/remote/stream/pubsub.rs: PubSub::publish, emit_serialised", "coerce/src/remote/cluster/discovery/mod.rs: Handler<Discover>, Handler<NodeDiscovered>, Handler<Forget>", "coerce/src/remote/actor/clients.rs: Handler<ClientWrite>", "coerce/src/remote/net/server/session/mod.rs: session_stream_publish"]}
{"id": "C115", "title": "What the HTTP interface of a node shows is true", "statement": "The list of cluster nodes has exactly the nodes the directory knows, each once, in the order of ids, with all that is known of them, and the leader with its tag; the health report has the status, response time and path of every registered check, the nodes and the leader; the actor listing has one truthful entry for each actor, with its whole path whether it answered or not, within the limits of the query; the entity types are those attached; each request is answered, and each reply is true at some moment and shows the cause of ill health.", "quantifier": "every sequence of elections, changes of the directory, registrations of checks and steps of any number of requests; every hierarchy of actors, query and reaction of the actors", "why_tests_cant": "A reply is put together from several reads between which the cluster may change; which moments a reply may be about needs all interleavings, and the truth of a listing all hierarchies.", "anchors": ["coerce/src/remote/api/cluster/mod.rs: get_nodes, ClusterNode", "coerce/src/remote/api/system/mod.rs: health, SystemHealth", "coerce/src/remote/api/system/actors.rs: get_all, ActorDescription", "coerce/src/remote/api/sharding/mod.rs: ShardingApi::attach, GetShardTypes", "coerce/src/remote/api/sharding/node.rs: GetAllStats", "coerce/src/remote/heartbeat/health.rs: GetHealth", "coerce/src/remote/system/cluster.rs: current_leader, update_leader"]}
{"id": "C116", "title": "A Redis journal used by many at once is as if used by one after another", "statement": "Persistent actors of any number of nodes use one Redis at once, and the journal actor of each node has many requests in the air. Every request takes effect at one moment between its call and its answer, and none after it failed: all answers and the contents of Redis are those of the requests done one after another, in an order that respects what was answered before what was called. Each call ends once, none waits for the request of another, and an actor that has its journal to itself sees a Redis of its own.", "quantifier": "every number of nodes and callers, every sequence of calls, every interleaving of handling, execution, replies, errors, lost commands, stopping journal actors and crashing nodes, every initial content", "why_tests_cant": "The claim is about all interleavings of tasks that talk to Redis independently, with failures at any point; a test sees a few schedules and needs a real Redis whose connection breaks at the right moment.", "anchors": ["providers/persistence/coerce-redis/src/journal/actor.rs: Handler<Write>, Handler<WriteBatch>, Handler<DeleteRange>, Handler<ReadSnapshot>, Handler<ReadMessage>, Handler<ReadMessages>, Handler<Delete>", "providers/persistence/coerce-redis/src/journal/mod.rs: RedisJournalStorage", "coerce/src/persistent/journal/storage.rs: JournalStorage"]}
{"id": "C117", "title": "An event-sourced actor survives restarts and moves on a Redis shared with others", "statement": "An event-sourced actor over a Redis journal that is shared with any number of other actors and nodes is, whenever it runs, in the state its acknowledged events make of its initial state: restarts, moves to other nodes, failed readings, failed writings that are retried, and whatever commands arrive late or out of order for others and for itself make no difference. It sees what it would see with a Redis of its own.", "quantifier": "all applications, all histories of calls, tasks, commands, replies, errors, losses, stops and crashes of any number of nodes and callers, all lives of the actor (jobs, attempts, starts) that are part of such a history and wait for each call to end", "why_tests_cant": "The interleavings of an actor's attempts with late commands, other actors, crashes and restarts are unbounded; tests run one actor against a Redis that answers at once, and never see a command carried out after its failure was reported.", "anchors": ["coerce/src/persistent/journal/mod.rs: Journal::persist_message, persist_batch, persist_snapshot, recover_snapshot, recover_messages, clear_old_messages", "coerce/src/persistent/actor.rs: PersistentActor::persist, persist_batch, snapshot, check, started", "coerce/src/persistent/recovery.rs: recover_journal, load_journal", "providers/persistence/coerce-redis/src/journal/actor.rs: RedisJournal handlers", "providers/persistence/coerce-redis/src/journal/mod.rs: RedisJournalStorage"]}
{"id": "C118", "title": "A blocking call gives what the same call gives when awaited", "statement": "send_blocking, exec_blocking, stop_blocking and new_actor_blocking have the outcome that send, exec, stop and new_actor would have at the same moment, have the same effect on the actors and on the scheduler, and return: a result is the result of the handler for this very message, an error says what happened to the request, and nobody is left waiting for an actor that has gone.", "quantifier": "for every number of actors and callers, every behaviour of the actors, every thread a call is made from, and every interleaving of calls with the work of actors and scheduler", "why_tests_cant": "A test makes a call from one kind of thread and in one order; whether a call blocks, panics or leaves something behind depends on where it is made from and on how far actor and scheduler are. The only test of the blocking interface in the repository is commented out.", "anchors": ["coerce/src/actor/blocking.rs: new_actor_blocking, send_blocking, stop_blocking, exec_blocking", "coerce/src/actor/refs/mod.rs: LocalActorRef::send, LocalActorRef::stop, LocalActorRef::notify", "coerce/src/actor/system/mod.rs: ActorSystem::new_actor", "coerce/src/actor/scheduler/mod.rs: start_actor, RegisterActor", "coerce/src/actor/lifecycle.rs: ActorLoop::run"]}
{"id": "C119", "title": "A remote call is carried out at most once and told its own result, whatever the connections do", "statement": "Node A calls an actor of node B through a remote reference. Whatever the connections between the nodes do - break, lose what is on them, are made again, are given up - the message of every call is handled at most once, a caller is told at most one thing and it is what the actor gave for that very call, and the actor is where the handled messages alone would have brought it. While no connection breaks, no frame is too large and no client gives up, nothing is lost and every call can be answered.", "quantifier": "every interleaving of calls, writes, connects, failed and late sockets, reconnects, breaks, frames read on either side, tasks run in any order, and answers of both kinds; every actor; every request and answer; the frames of the code and any others that can be read again", "why_tests_cant": "The loss of a request or a reply depends on which bytes were on which connection when it broke, with buffering and reconnecting on two clients and tasks running in any order; tests see a few schedules over a loopback that does not break.", "anchors": ["coerce/src/remote/actor_ref.rs: RemoteActorRef::send, create_request", "coerce/src/remote/actor/clients.rs: Handler<ClientWrite>, Handler<ClientConnected>, Handler<RemoveClient>", "coerce/src/remote/net/client/send.rs: write, flush_buffered_writes", "coerce/src/remote/net/client/connect.rs: Handler<Connect>, Handler<Disconnected>", "coerce/src/remote/net/server/session/mod.rs: session_handle_message, send_result, RemoteSession::write", "coerce/src/remote/system/rpc.rs: notify_rpc_err, push_request, pop_request", "coerce/src/remote/net/client/receive.rs: on_receive", "coerce/src/remote/net/mod.rs: receive_loop"]}
{"id": "C120", "title": "Snapshots and trimmed journals are safe on a Redis that fails", "statement": "An event-sourced actor that saves snapshots and trims its journal on a shared Redis that fails, and makes its writings again until they are answered, is after any restarts and moves in the state its acknowledged events make: whether its trims are carried out, fail, or reach Redis much later, and even when late commands bring back what was trimmed. What it reads was written before, once and in order, and nothing is missing of which it did not itself ask the removal.", "quantifier": "every application, every history of calls, tasks, commands, replies, errors, losses, stops and crashes of any number of nodes and callers, every life of the actor that is part of it and waits for each call to end", "why_tests_cant": "What is lost depends on commands that were taken for failed and reach Redis after others, in any order, over any number of restarts; the in-memory storage and a healthy Redis do all at once.", "anchors": ["coerce/src/persistent/journal/mod.rs: persist_batch, persist_snapshot, clear_old_messages, recover_snapshot, recover_messages", "coerce/src/persistent/actor.rs: persist_batch, snapshot, clear_old_messages, started, check", "coerce/src/persistent/recovery.rs: load_journal", "providers/persistence/coerce-redis/src/journal/mod.rs: RedisJournalStorage, write_snapshot, write_message_batch, delete_messages_to, read_latest_messages"]}
{"id": "C121", "title": "A connection that is no longer read is known to have ended", "statement": "Whatever arrives on a connection, in whatever order: when the task that reads it at either end no longer reads, the actor the connection belongs to has been told so, once; a client that waits to be introduced waits no longer; and until then what arrives is passed on as the other node wrote it.", "quantifier": "every sequence of frames (any bytes whatever) and losses at either end, at any state of the session or client and of the table of requests, every set of ids", "why_tests_cant": "Whether the reading survives depends on every byte of every frame of any peer or version; tests send frames of this version to itself, where nothing fails, and a task that has panicked leaves nothing for a test to see but silence.", "anchors": ["coerce/src/remote/net/mod.rs: receive_loop", "coerce/src/remote/net/server/session/mod.rs: SessionMessageReceiver::on_receive, on_close, NewSession", "coerce/src/remote/net/client/receive.rs: ClientMessageReceiver::on_receive, on_close", "coerce/src/remote/net/client/connect.rs: connect", "coerce/src/remote/net/message.rs: read_from_bytes, timestamp_to_datetime, From<ActorRefErr>"]}
{"id": "C122", "title": "Copies of a persistent actor on one failing Redis lose no reported event", "statement": "Any number of copies of a persistent actor (coordinators of several leaders, shards on old and new nodes) write to one Redis through their nodes' journals, with calls lost, failing after taking effect, or taking effect after their caller has ended. A copy started at any time has every event reported as persisted to anyone before, none that nobody asked for, none more often than it was asked for; what was not reported is not there; and all copies apply the same events in the same order.", "quantifier": "every number of copies and nodes, every sequence of starts, writes (single and batches), answers heard, ends, crashes, failures, delays and calls of others; every actor whose events are read back as written", "why_tests_cant": "Two leaders, or an old and a new node of a shard, have to overlap, with a write in flight when a node dies, and taking effect at just the wrong time; the schedules are unbounded and a test has one process with a Redis that answers.", "anchors": ["coerce/src/persistent/actor.rs: persist, persist_batch, check, started", "coerce/src/persistent/journal/mod.rs: persist_message, persist_batch, recover_snapshot, recover_messages", "coerce/src/persistent/recovery.rs: load_journal", "providers/persistence/coerce-redis/src/journal/actor.rs: Handler<Write>, Handler<WriteBatch>, Handler<ReadMessages>", "coerce/src/sharding/coordinator/allocation.rs: Handler<AllocateShard>", "coerce/src/sharding/shard/mod.rs: start_entity"]}
{"id": "C123", "title": "The ids of requests travel as text and come back as themselves", "statement": "The id of every request that stops a shard or goes to an entity on another node is read there as the id that was sent; two ids never have the same text; a text is taken for an id exactly if it is 32 hexadecimal digits in one of the four forms of a UUID; and a message whose id is no UUID is refused with an error.", "quantifier": "all 2^128 ids, all texts, all messages whose encoding is below 4 GiB", "why_tests_cant": "There are 2^128 ids and no bound on texts; a test sees the ids its run happens to draw.", "anchors": ["coerce/src/sharding/host/request.rs: RemoteEntityRequest::as_bytes, from_bytes", "coerce/src/sharding/host/mod.rs: StopShard::as_bytes, from_bytes", "coerce/Cargo.toml: uuid"]}
{"id": "C124", "title": "Nodes that arrive together cause one full rebalance, after the last of them", "statement": "Whenever nodes become available the coordinator handles one full rebalance, 500 ms after the last of them: at most one is scheduled at any time; none comes within 500 ms of an arrival; arrivals within 500 ms of one another share one; and every arrival is followed by one.", "quantifier": "all runs of a coordinator with any messages, any passing of time and any order in which the tasks are polled", "why_tests_cant": "How messages, cancellations and timers interleave is up to the runtime and the clock, and there is no bound on the number of nodes that arrive.", "anchors": ["coerce/src/sharding/coordinator/mod.rs: schedule_full_rebalance", "coerce/src/sharding/coordinator/discovery.rs: on_node_discovered", "coerce/src/actor/mod.rs: scheduled_notify, ScheduledNotify::cancel"]}
{"id": "C125", "title": "The status of a singleton manager tells whether the singleton runs there", "statement": "Every node can ask a singleton manager for its status; a manager that answers Running has an instance of the singleton running, one that answers Joining or Idle has none running or being started, and one that answers Starting is about to have one.", "quantifier": "all runs of a manager with any messages, starts, failures and ends of instances, in any order", "why_tests_cant": "Whether the status is true depends on the order of acknowledgements, starts, ends and requests of other nodes, of which there are unboundedly many.", "anchors": ["coerce/src/singleton/manager/status.rs: Handler<GetStatus>, GetStatus, SingletonState", "coerce/src/singleton/manager/mod.rs: State, on_child_stopped", "coerce/src/singleton/mod.rs: singleton"]}
