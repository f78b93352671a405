# Formal model of Coerce-rs

Source read from `/repo` (LeonHartley/Coerce-rs). The code is never built or run here; every Lean definition cites the file and lines it models.

## Layout

- `lean/Verif/<Area>/…Model.lean`: definitions modelling the code, function by function.
- `lean/Verif/<Area>/…Spec.lean`: the notions in which properties are stated, where they need more than a line; they do not use the model's helpers.
- `lean/Verif/<Area>/…Lemmas.lean` and similar: helper lemmas and invariants.
- `lean/Verif/<Area>/…Props.lean`: property theorems, refutations, and non-vacuity examples.
- `lean/Verif/Proto`: the protobuf wire format and the generated message code, message by message (shared by all codecs).
- `lean/Verif/Assoc.lean`, `Sort.lean`, `Util.lean`: hash maps as association lists, stable sort, induction over the end of a list.
- `lean/Verif/Audit.lean`: `#print axioms` for every property theorem.
- `MANIFEST.json`: property → status and theorem names. `seeded/LOG.jsonl`: wrong-program experiments.

Areas: `Persist` (journal, snapshots, storages, recovery, retry, persistent actor start-up), `Actor` (mailbox, lifecycle, watching, supervision, registry, workers, shutdown, timers, describing the hierarchy), `Remote` (frames, sessions, clients, handshakes, rpc, heartbeat, node store, discovery, registry, pub/sub, health), `Sharding` (coordinator, hosts, shards, recovery, codecs, the whole system, and requests end to end), `Singleton` (lease managers, cluster of managers, proxy, codecs).

## Modelling conventions

- `&mut self` handlers are functions from state to state and output. A handler runs to completion (actors process one message at a time); `tokio::spawn`ed work is a separate later step or an output.
- A theorem about runs quantifies over every list of operations, so over every schedule: each operation is one handler run, one task step, or one external event.
- `HashMap` is an association list with unique keys or a function; where iteration order matters it is an explicit input and theorems quantify over it.
- Panics are explicit values. Storage, network, hashing, cryptography and clocks are inputs (oracles).
- `i64` counters are `Int`/`Nat` (no overflow) unless the property is about the width.
- Properties false of the code: `…_refuted` proves the negation on a concrete run (or for all states), `…_partial` proves what does hold. The statement in `properties.jsonl` is left as the intent of the code; status `partial` in the manifest then means: the statement as given is false of the code, and the listed theorems prove the negation and the strongest version found to hold. For C77, C79 and C80 the statement itself was narrowed to what holds once the wider one had been refuted (the refutations are kept and listed).

## Trusted base

- Lean 4.33.0 kernel. Axioms: at most `propext`, `Classical.choice`, `Quot.sound`; per theorem in the last section. No axioms of our own, no `sorry`, no `native_decide`, no `bv_decide`.
- The reading of the Rust code into the definitions. There is no mechanical link between the two; each definition cites the lines it models and states its simplifications.
- Behaviour assumed of externals, each stated where it is used: tokio `mpsc` unbounded channels are FIFO and lose nothing while the receiver lives; `oneshot` delivers at most one value; `broadcast` has a bounded ring of the stated capacity; `HashMap`/`DashMap` hold at most one value per key and iterate in an arbitrary order; the protobuf runtime reads and writes varints and length-delimited fields as specified; Redis sorted sets order by score, then bytes, and keep one copy of equal members; TCP delivers bytes in order; serde and serde_json write and read the modelled types as documented; jwt verification accepts what the same key signed (a hypothesis of the theorem); `Uuid::parse_str` reads what `to_string` writes (a hypothesis).
- Atomics, memory ordering, async cancellation inside a handler, and the tokio scheduler's fairness are not modelled. Liveness statements are about what remains possible or about states in which nothing more can happen, not about time.

## Properties: approach, status, disagreements

`proved`: the statement holds of the model as given. `partial`: see the note; refutations are theorems ending in `_refuted`.

- **C01 Replay fidelity without snapshots** (proved). Journal: executable `step` over singles/batches/snapshots/fail/restart on the in-memory store; ghost list of acknowledged payloads; invariant by induction gives `recovered = acknowledged`.
  Result: In-memory storage; all histories of any number of actors. Assumes no storage call fails after having stored; C01_replay_any_outcome drops that and gives what was kept.
- **C02 Recovery from a snapshot** (partial). Same model, with snapshots. Expected to be FALSE for the first single persist after a snapshot (it reuses the snapshot's number): negation by witness, plus an exact characterisation of what is lost, plus `_partial` where the first write is a batch.
  Result: False as stated: the first single persist after a snapshot reuses its number and is not recovered. mem_recovery_exact says exactly what is recovered.
  Refutations: `C02_refuted`, `C02_refuted_lost_ack`.
- **C03 Acknowledged writes are stored exactly once** (proved). Retry loop as a fold over an oracle list of storage outcomes; count of stored copies.
  Result: Any storage if failed attempts stored nothing; on Redis for every failure pattern. An appending storage that stores and then reports failure would keep a duplicate (C03_lost_ack_duplicates).
- **C04 Journal order numbers never go backwards** (proved). Invariant over the journal step function.
  Result: In-memory storage, no lost acknowledgements; with them numbers do repeat (C04_lost_ack_refuted).
  Refutations: `C04_lost_ack_refuted`.
- **C05 Trimming old messages is invisible to recovery** (partial). Commutation of trim with recovery for in-memory store; Redis: negation + `_partial` (trim before the next persist).
  Result: In-memory: proved for every history. Redis: false (trim removes the first single message after the snapshot); true when safe, see C08.
  Refutations: `C05_redis_refuted`.
- **C06 Range reads of the journal** (partial). Decision model of the range read with an explicit panic value; negation + `_partial` for the branch that is right.
  Result: False for the in-memory storage (panic, extra and missing messages); exact panic condition; Redis exact with both bounds included.
  Refutations: `C06_refuted_panic`, `C06_refuted_extra`, `C06_refuted_missing`.
- **C07 Journal entry encoding round-trips** (proved). Protobuf wire encoding of the generated code (tags, varints, length-delimited fields) written out byte by byte; decode∘encode = id.
  Result: Byte-level protobuf encoding.
- **C08 Replay fidelity on Redis storage** (partial). Redis sorted-set semantics (member set ordered by score then bytes). Negation + `_partial` for histories with distinct numbers.
  Result: False as stated: singles written after a restart or batch share a number; order and multiplicity are lost, never (without trims) the message itself.
  Refutations: `C08_refuted_order`, `C08_refuted_duplicate`.
- **C09 Persist failure policy bounds attempts** (proved). Retry loop model, all limits and outcome streams.
  Result: All limits and failure patterns.
- **C10 Journals of different actors are independent** (proved). Store as map from id; key functions on strings proved injective.
  Result: Both storages, both key layouts.
- **C11 Unknown payload types are skipped, known ones are not disturbed** (proved). Journal model with known-type predicate.
  Result: Any storage.
- **C12 Mailbox is processed in order, one message at a time, at most once** (proved). Actor loop as state machine (enqueue / dequeue+handle / stop) over arbitrary schedules; invariant handled ++ queue = accepted.
  Result: For every behaviour, number of senders and schedule. C12_before_stop/C12_progress are for actors that do not stop themselves or panic, as the property says.
- **C13 Every request is answered exactly once** (proved). Same state machine with reply slots; invariant each request id has at most one outcome, all resolved at termination.
  Result: Request identities are distinct (each send makes its own oneshot channel). Panicking handlers included.
- **C14 Lifecycle hooks run in order and once** (proved). Event trace of the loop; trace grammar proved for all schedules.
  Result: C14_complete excludes panics (the stopped hook is then skipped); C14_lifecycle includes them. User code calling ctx.set_status directly is not modelled.
- **C15 Watchers hear of termination exactly once** (partial). Watcher set model keyed by watcher id.
  Result: Holds for every orderly stop. Refuted in full: if the scheduler cannot answer DeregisterActor the expect() panics and watchers are not told; the same after any panic.
  Refutations: `C15_refuted`.
- **C16 Supervision keeps the children set exact** (proved). Supervised children map model with spawn/attach/terminated/stop_all.
  Result: By id for all operation sequences. The stronger reading about actor instances holds when no reference is attached by hand (C16_family_partial) and is refuted otherwise.
  Refutations: `C16_family_refuted`, `C16_stale_notice_refuted`.
- **C17 Looking up an actor by id finds the live one** (partial). Scheduler registry with asynchronous deregistration messages. FALSE with id reuse (deregistration by id removes the replacement): negation + `_partial` without id reuse.
  Result: Refuted in full: DeregisterActor removes by id, so an old actor de-registers its replacement; an actor stopping before its registration stays registered. Proved when ids are not shared by running actors and no actor stops before its registration is sent.
  Refutations: `C17_refuted`, `C17_dead_ref_refuted`.
- **C18 Worker pool distributes evenly** (proved). Round-robin index model; counting lemma.
- **C19 Remote replies reach the request they belong to** (partial). In-flight table model with arbitrary responses.
  Result: Correlation, at-most-once and ignoring of unknown replies hold for every interleaving. "Outstanding = issued and not answered" is refuted: send leaves the entry when building the request fails, and every reply sent through node_rpc_raw leaves an entry at the responder for ever.
  Refutations: `C19_failed_request_refuted`, `C19_reply_leak_refuted`.
- **C20 Network frames round-trip** (proved). Tag-byte codec with payload codecs as abstract inverse pairs; receive loop over frame list.
  Result: Byte-level protobuf, length-delimited framing under any chunking, and the receive loop.
- **C21 Errors survive the wire** (proved). Finite-variant codec with payloads.
- **C22 Unauthenticated connections can do nothing** (proved). Session state machine over arbitrary frames.
  Result: For every sequence of frames and socket errors. Signing and verification (jwt, HMAC) are parameters. "Stopped" is orderly unless the first frame makes the reader panic; then the session task dies (see C57 for the consequences).
- **C23 Tokens expire exactly after their lifetime** (partial). Validation function with verify as parameter.
  Result: Exact for every lifetime chrono can represent; above that validation panics instead of accepting (refuted). The law verify(sign p) = p is a hypothesis.
  Refutations: `C23_huge_ttl_refuted`.
- **C24 Outgoing messages survive reconnects in order** (partial). Client state machine; multiset conservation; FIFO. FALSE if a flush is interrupted and later writes succeed on the same connection: negation + `_partial`.
  Result: Exact for every history of frames within the 8 MiB limit; the byte counter is exact for every history. Refuted for larger frames: such a frame blocks the buffer for ever and later messages overtake those behind it.
  Refutations: `C24_oversize_refuted`.
- **C25 Reconnection gives up after ten failures and only then** (partial). Client state machine counting failures.
  Result: Exact count over orderly histories; a retry is always under way in every history. Refuted: ten failures are enough after a lost connection; a peer closing before it identifies itself hangs the client for ever; a loss noticed twice counts twice or tears down the next connection.
  Refutations: `C25_off_by_one_refuted`, `C25_closed_early_refuted`, `C25_late_report_refuted`.
- **C26 The leader is the oldest healthy node** (partial). Heartbeat tick leader selection; permutation invariance via sorting lemma.
  Result: Oldest healthy node is elected, independent of iteration order, for ids below 2^63. Ids from 2^63 (half of the default random ids) are stored as negative i64 and read back as no leader; the leader is announced again on each tick.
  Refutations: `C26_big_ids_refuted`.
- **C27 Node health is classified by ping results** (partial). node_status. FALSE (comparison inverted in the timeout branch): negation + `_partial`.
  Result: Status after an answered, unsent or disconnected ping is as documented. For missed pings the comparison is the wrong way round: a long silent node is unhealthy and a recently silent one terminated.
  Refutations: `C27_missed_refuted`, `C27_error_twice_refuted`, `C27_clock_back_refuted`.
- **C28 Cluster-up waits for the minimum size** (partial). Tick model. FALSE (comparison inverted): negation + at-most-once `_partial`.
  Result: MemberUp is published at most once. The minimum-size test is inverted: a cluster larger than the minimum is never announced, a smaller one is; single_node_cluster never announces.
  Refutations: `C28_refuted`, `C28_large_cluster_refuted`, `C28_single_node_refuted`.
- **C29 Placement of actors on nodes is consistent hashing** (partial). Hash ring as sorted list with abstract hash; consistent hashing lemmas.
  Result: Consistent hashing holds in histories in which no known id is added again and updates do not change node details. Otherwise stale ring entries are left behind and chosen after removal.
  Refutations: `C29_refuted`, `C29_added_twice_refuted`, `C29_updated_refuted`.
- **C30 Node directory reflects membership changes** (partial). Node store over op sequences.
  Result: The directory follows the last operation on each id. A terminated node is still chosen for placement, and a heartbeat writing back what it read brings removed nodes back.
  Refutations: `C30_terminated_still_chosen_refuted`, `C30_terminated_refuted`, `C30_stale_update_refuted`.
- **C31 Remote actor location** (partial). Registry on several nodes sharing the ring. Stale entries: negation + `_partial`.
  Result: With a stable membership all nodes agree, answers are nodes the actor was started on, and an actor with one home is found there once its registration has arrived. Entries of stopped actors are never removed, are lost when membership changes, and a late registration overwrites a newer one.
  Refutations: `C31_stale_refuted`, `C31_stale_instance_refuted`, `C31_view_refuted`, `C31_order_refuted`.
- **C32 Node discovery announces each node once and can retry** (partial). Discovery state machine. FALSE for failed handshake: negation + `_partial`.
  Result: At most one announcement per life of a node. After a failed handshake a node is never announced again; a node forgotten but not terminated, found under an alias, or unreachable at its own address cannot be rediscovered.
  Refutations: `C32_failed_refuted`, `C32_failed_instance_refuted`, `C32_no_client_refuted`, `C32_forgotten_refuted`, `C32_alias_refuted`.
- **C33 Publish/subscribe delivers everything in order** (partial). Broadcast channel with capacity and cursor; FALSE under lag: negation + `_partial` while lag ≤ capacity.
  Result: Always a prefix in order; complete for subscribers that never fall more than 1024 behind. A subscriber further behind is silently cut off for ever; messages not yet passed on are lost on unsubscribing; across nodes the order may change.
  Refutations: `C33_lag_refuted`, `C33_refuted`, `C33_unsubscribe_refuted`, `C33_name_clash_refuted`, `C33_cluster_order_refuted`.
- **C34 Health report combines checks** (partial). Fold over check outcomes.
  Result: Exactly as documented if every check answers; a check that does not answer blocks the report for ever (no timeout). Removing by id removes checks on other paths too.
  Refutations: `C34_hangs_refuted`, `C34_same_id_refuted`.
- **C35 Remote message handling always reports one outcome** (partial). Lookup retry model.
  Result: One outcome and at most nine lookups, for every registry behaviour. Refuted: a malformed message id gets no reply; the actor's own error is replaced by a closed channel; two actor systems in one process share the reference cache.
  Refutations: `C35_malformed_id_refuted`, `C35_actor_error_lost_refuted`, `C35_shared_cache_refuted`.
- **C36 Cluster events round-trip** (proved). Codec model.
- **C37 Each shard is assigned to exactly one known host** (proved). Coordinator step function with tie-break order as input; invariant.
  Result: For every run of the coordinator from start or recovery, with every iteration order of its tables.
- **C38 New shards go to the least loaded available node** (proved). Least-load theorem for `allocate`.
  Result: Ties are broken by the iteration order of the host table, which is arbitrary.
- **C39 Allocation is stable** (partial). Stability over op sequences that do not move the shard.
  Result: Holds while the coordinator lives; a restarted coordinator may place the shard elsewhere, because the node is not persisted.
  Refutations: `C39_restart_refuted`.
- **C40 Losing a node moves its shards** (proved). Theorem on node removal.
  Result: A shard already being moved when its node is lost stays unassigned until it is next requested.
- **C41 Full rebalance evens out load** (partial). Counting theorem on the full rebalance; the final bound after reallocation.
  Result: The fair share of the code counts unavailable hosts, so more than the surplus is taken when some host is unavailable; the final distribution is even over the available nodes in every case.
  Refutations: `C41_unavailable_refuted`.
- **C42 Coordinator recovery knows the same shards** (proved). Recovery as replay of persisted allocations.
  Result: Given an available node at the time of every request; otherwise also refused requests are recovered as allocated shards.
  Refutations: `C42_refused_recovered_refuted`.
- **C43 Entity placement is a function of its id** (proved). Modulo lemma with abstract hash.
  Result: The hash is an arbitrary function; with zero shards configured the code divides by zero and panics.
- **C44 Requests to a shard being located or started are kept and forwarded in order** (partial). Shard host state machine with ghost request log. FALSE when a stop meets a starting shard: negation + `_partial`.
  Result: Holds while the shard is neither asked to stop nor announced elsewhere on this node; a shard asked to stop or announced elsewhere while starting loses the requests it kept, and a late ready report reorders them. At most once holds always. Each delivery is its own spawned task, so the order of arrival at the shard actor is outside the model.
  Refutations: `C44_stop_while_starting_refuted`, `C44_moved_while_starting_refuted`, `C44_order_refuted`.
- **C45 A request to stop a shard is always honoured and acknowledged** (partial). FALSE in two states: negation + `_partial`.
  Result: Only shards that are ready are stopped and acknowledged; in every other state the request is never answered and a starting shard keeps running.
  Refutations: `C45_unanswered_refuted`, `C45_keeps_running_refuted`.
- **C46 Routing goes to the current owner** (partial). Shard host invariant.
  Result: Routing holds for every history; a shard can be both hosted and routed elsewhere after a late ready report.
  Refutations: `C46_both_refuted`.
- **C47 An entity is started once and sees its requests in order** (partial). Shard entity table with ghost log; failing start leaves requests waiting: negation + `_partial`.
  Result: Holds when every start succeeds and no explicit StartEntity arrives for the entity; after a failed start the waiting requests are never answered, and an explicit StartEntity starts a second instance.
  Refutations: `C47_failed_start_refuted`, `C47_second_start_refuted`.
- **C48 Idle and passivated entities come back on demand** (partial). FALSE: negation; `_partial` for unknown and active entities.
  Result: Holds for entities new to the shard and for those restarted by recovery; idle and passivated entities are always refused, and a stopped entity stays marked active.
  Refutations: `C48_refused_refuted`, `C48_stopped_refuted`.
- **C49 A recovered shard restarts the entities it had** (partial). Replay model. Snapshot path loses passivated/active distinction: negation + `_partial` for journals without snapshots.
  Result: The known entities and recipes are exact for every history; a snapshot forgets which entities were active, so those are restarted only if started since the snapshot; entities whose start could not be persisted are lost.
  Refutations: `C49_snapshot_refuted`, `C49_unpersisted_refuted`.
- **C50 Sharding messages round-trip** (proved). Codec models.
  Result: For encodings below 4 GiB; the text form of UUIDs (external crate) is a parameter that reads back, and C123 gives the one the crate documents. Results and errors of entity requests travel as ordinary results (C21, C23). A snapshot keeps of an entity state only whether it was passivated.
- **C51 A shard never runs on two nodes during a rebalance** (partial). Distributed model: coordinator + hosts + message bag.
  Result: At most one instance of a shard runs anywhere, on the node it is assigned to, for every interleaving of coordinator, any number of hosts, requests and messages, provided no allocation request for the shard is handled during its move and no rebalance takes it while an announcement is under way. The code ensures neither: two concrete runs with the shard live on two nodes.
  Refutations: `C51_request_during_move_refuted`, `C51_late_announcement_refuted`.
- **C52 At most one instance of a cluster singleton** (partial). Distributed model of managers + message bag. FALSE: negation + `_partial`.
  Result: Proved for any number of nodes when no manager that is still stopping its instance for one node is asked by another one, and for at most two nodes without that condition. Refuted for three nodes: a manager in state Stopping grants a second request at once although its instance still runs.
  Refutations: `C52_at_most_one_instance_refuted`, `C52_up_twice_refuted`.
- **C53 A node starts its singleton at most once per leadership** (partial). FALSE (late/repeated acks): negation + `_partial`.
  Result: Refuted for repeated and unknown acknowledgements and for nodes joining or leaving between start and start result. Proved: at most one start for distinct known acknowledgements and fixed members; every start comes after acknowledgements of all known managers when acknowledgements come from known managers.
  Refutations: `C53_repeated_ack_refuted`, `C53_unknown_ack_refuted`, `C53_node_leaves_refuted`, `C53_node_joins_refuted`.
- **C54 Leases are handed over** (partial). FALSE: the manager never hears of the stop; negation + `_partial`.
  Result: The local rules are proved. The last part is refuted in every run: the singleton is not a child of its manager, so the manager is never told of its end, and the node that asked never starts an instance.
  Refutations: `C54_joining_refuted`, `C54_starting_refuted`, `C54_new_leader_starts_refuted`.
- **C55 The singleton proxy loses nothing and keeps order** (partial). Proxy state machine with ghost log.
  Result: Proved for messages that wait for a result: kept, handed to a task exactly once, in order, for the right instance. Refuted: order of arrival (one task per message), and loss behind a notification.
  Refutations: `C55_order_refuted`, `C55_lost_refuted`.
- **C56 Fire-and-forget through the proxy is safe** (partial). FALSE: panic; negation + `_partial` for buffered state.
  Result: Refuted: a notification kills the proxy when it is delivered (unwrap of a missing result channel). Proved: exactly when the proxy dies and what is delivered before.
  Refutations: `C56_notify_refuted`.
- **C57 A bad connection does not affect the others** (partial). Session store and sessions as one state machine with blocking sends.
  Result: Refuted: one refused connection deadlocks the session store with the session for ever, a malformed first frame kills it, a silent peer blocks it. Holds while all peers are good.
  Refutations: `C57_refuted`.
- **C58 Writing to a node survives the loss of other nodes' clients** (partial). Client registry with dying client actors.
  Result: Holds while no client actor dies. Refuted: a write to a node whose client actor died panics the registry, after which nothing is written to any node; removing one of two clients of a node makes the node unreachable.
  Refutations: `C58_refuted`, `C58_alias_refuted`.
- **C59 Deploying an actor id is exclusive** (partial). Deployment and registration of ids on several nodes.
  Result: Refused once the registration has arrived at the assigned node. Concurrent deployments both succeed; a stopped id stays refused for ever.
  Refutations: `C59_race_refuted`, `C59_unanswered_refuted`, `C59_redeploy_refuted`.
- **C60 Discovery reaches the whole cluster** (partial). Discovery over a network graph.
  Result: The seed is found; nodes more than two hops away are not.
  Refutations: `C60_chain_refuted`.
- **C61 Undecodable sharding messages are refused, not fatal** (partial). Decoding functions with explicit panics.
  Result: Bytes that are not protobuf are always refused; a well-formed message with a missing or unknown field panics the reading task for ShardAllocated, StopShard, RemoteEntityRequest and allocation results.
  Refutations: `C61_panics_refuted`, `C61_unknown_type_refuted`.
- **C62 Singleton manager messages round-trip** (proved). Byte-level protobuf codec.
  Result: Round trip for every node id and every state, without size assumption. A state number unknown to the receiver panics.
  Refutations: `C62_unknown_status_refuted`.
- **C63 An event-sourced actor survives restarts** (partial). Actor over the storage as a state machine of commands and crashes; the storage view of C01 holds the live state.
  Result: Proved for actors that never save a snapshot. With snapshots false: an event persisted singly right after a snapshot is lost at the next crash; proved when the first events after each snapshot are a batch. Assumes no write fails after having been stored (refuted otherwise).
  Refutations: `C63_refuted`, `C63_lost_ack_refuted`.
- **C64 A persistent actor runs only when fully recovered** (proved). Start-up as a function with a trace of hook calls.
  Result: Actor hooks are arbitrary functions of the actor state; what is read once a read succeeds is a parameter (C01 to C05 say what it is).
- **C65 A persisted message is read back by the handler of its type** (partial). Type table as two maps.
  Result: False as stated: identifiers are not checked for collisions. Proved when no two types share one. Message table; the snapshot table is built by the same code.
  Refutations: `C65_collision_refuted`.
- **C66 After start-up a persistent actor can persist** (partial). Journal option after start-up.
  Result: False for actors that override recover to return Disabled: the journal is never initialised and persist panics.
  Refutations: `C66_disabled_refuted`.
- **C67 The Redis journal is a set ordered by sequence number** (partial). Sorted sets as strictly sorted lists; order and keys against separate specifications.
  Result: Everything proved except that journals under different prefixes have different keys: false when one prefix continues the other; proved for equal prefixes (any ids) and for equal ids (any prefixes).
  Refutations: `C67_prefix_collision_refuted`.
- **C68 Shutdown ends every tracked actor and returns** (partial). Scheduler and actors as one state machine; moves of a task, awaited set, exact condition for returning.
  Result: The first half is proved for actors registered when the scheduler takes Stop. That shutdown returns is false: it deadlocks exactly when an awaited actor needs the scheduler (C68_returns_iff), which happens when a handler calls it or an actor is just deregistering. The remote part of shutdown stops its five actors one after the other: after the scheduler has ended there is nothing left to wait for (C68_remote_returns), and called alone, by RemoteActorSystem::shutdown, it can always return (C68_remote_alone). Not modelled here: handlers waiting for each other (C100).
  Refutations: `C68_refuted_handler`, `C68_refuted_race`.
- **C69 Timers tick one at a time, no faster than their period, until stopped** (partial). Timer loop with micro-steps and a clock; log of ticks.
  Result: Proved except that dropping a Timer does not stop it (refuted: any number of ticks can follow). The tick already past the check for the stop signal can still be sent after stop: at most one.
  Refutations: `C69_drop_refuted`.
- **C70 A scheduled notification is delivered at most once, not early, and not if cancelled in time** (partial). Task with explicit polls.
  Result: At most once, never early, sent if not cancelled. A cancel in time is only certain to prevent the message if the task is polled before the delay is over.
  Refutations: `C70_cancel_refuted`.
- **C71 A description of the system is truthful and complete** (proved). Rose tree of actors with reactions; timed replies; inductive specification Faithful; induction over the tree.
  Result: Faithful is an inductive specification independent of time; the order of children is that of the map.
- **C72 An unresponsive actor delays a description for a bounded time and hides only itself** (partial). The same model; times of join_all and timeout.
  Result: Bounded and confined at the first two levels. Below, a stuck actor hides its parent and siblings (refuted for every such tree); the timeout option has no effect (proved for every input).
  Refutations: `C72_hidden_parent_refuted`, `C72_timeout_option_refuted`.
- **C73 Identification and handshake callbacks end once and truthfully** (partial). Client as handlers over callbacks and connection numbers; accounting invariants.
  Result: Callbacks end at most once and one frame goes out per connection. False: a late acknowledgement from an earlier connection completes handshakes on the new one; a peer closing early blocks the client for ever; a failed write of the frame panics. Completion implies acknowledgement if acknowledgements come from the current connection.
  Refutations: `C73_stale_ack_refuted`, `C73_stuck_refuted`, `C73_crash_refuted`.
- **C74 A client has at most one ping timer** (partial). Running timers as a list; the one held.
  Result: A reconnect before a ping tick was handled leaves the old timer running until the client ends, without limit. With a tick handled in between there is never more than one.
  Refutations: `C74_refuted`.
- **C75 A sharded request has one place, one execution and one truthful answer** (proved). Hosts and shards of C44-C48 composed with tasks, frames and replies; token-counting invariant over all places.
  Result: End-to-end model of hosts, shards, tasks, frames and replies on any number of nodes, for every allocator. A token invariant: for every request made, its occurrences on the way and its uses of the result channel add up to one. Assumes distinct request ids and no duplicated frames.
- **C76 Every sharded request is eventually answered** (partial). The same; a step nearer to the answer from every place.
  Result: Proved for runs in which no start of an entity fails, for requests not lost: never stuck, and answered whenever nothing is left to do. False in general: a frame that finds no shard actor is answered with an error for an id nobody waits for, a lost frame or reply is never noticed (no timeout), and a failed start leaves the requests buffered for ever.
  Refutations: `C76_lost_refuted`, `C76_failed_start_refuted`.
- **C77 Names of registered types lead back to them** (proved). Registrations as a list; specification: the last one under a name; configurations for every iteration order.
  Result: For every sequence of registrations and every iteration order of the maps on either node. The statement was first wider; it was narrowed after these parts were refuted: a name used twice silently takes the message type registered first out of service; actor_name never finds anything, because the table holds the ids of handler types and is searched with the ids of markers.
  Refutations: `C77_shared_name_refuted`, `C77_actor_name_refuted`.
- **C78 Sharded entity types keep to themselves** (partial). Ids as strings; injectivity from the last dash; registrations of a node as a run, lookups compared with what was started.
  Result: Hosts, shards and journals of different entity types are separate. Refuted: the ids of coordinator, lease manager and proxy are made from the type ShardCoordinator alone, so with two sharded entity types every remote request reaches the coordinator (and manager) of the type started last. With one entity type all is well. Odd entity names can also make a host and a shard collide.
  Refutations: `C78_last_coordinator_refuted`, `C78_last_manager_refuted`, `C78_odd_names_refuted`.
- **C79 A worker joins through its seed** (proved). Start-up as a list of events for any resolution function.
  Result: Exact course of start-up for every behaviour of name resolution. The statement was first wider; it was narrowed after these parts were refuted: the guard against discovering oneself never works (the seed is taken out before it is compared); the caller cannot tell success from failure. Eleven attempts are made although the limit is called twelve and the message says ten.
  Refutations: `C79_self_seed_refuted`, `C79_silent_refuted`.
- **C80 Discovery requests are answered once, after their handshakes, and truthfully** (proved). The discovery model with senders; token counting, log splitting, draining.
  Result: Answered at most once, never lost, never before its handshakes have ended, for every history (identify is assumed to return). The statement was first wider (true only if a node was found); it was narrowed after that was refuted: true does not mean that anybody was found, nor that the seed has been contacted: a second request for the same address is answered while the first handshake is under way.
  Refutations: `C80_true_refuted`, `C80_second_request_refuted`.
- **C81 A remote reference behaves like a local one** (proved). Local and remote sending as functions on the same actor; the remote one composed of request table, frames, registry, handler and reply.
  Result: The whole way is composed from the models of the request table, the frames, the registry and the handler. Differences found and proved: an actor that has stopped but is still registered gives ResultChannelClosed instead of InvalidRef; notify to a missing remote actor succeeds; a notification whose type has no conversion of the answer makes the other node send an error for an id nobody waits for.
  Refutations: `C81_closed_refuted`, `C81_notify_missing_refuted`, `C81_notify_reply_refuted`.
- **C82 Messages to an actor of another node: none lost or duplicated by the way, ordered for a sender that waits** (proved). A line of wire, tasks and mailbox; permutation invariant; order of a waiting sender by induction with at most one message under way.
  Result: Connections that fail are in C24. The order is not kept for messages that are not waited for: every permutation of the messages sent can arrive (C82_any_order), because each message is handled by its own task.
  Refutations: `C82_order_refuted`.
- **C83 Deploying starts exactly the actor asked for, and the caller learns the outcome** (partial). Deployment composed of the type table, the recipe encodings, the frames and the request table; one function for each way.
  Result: What is started is exact on both ways, and on the own node the outcome is always reported. On another node a success is reported and gives a reference that works. Refuted: a remote deployment that fails, for any reason, is never answered; without a client for the node the caller waits for ever although there is an error NodeUnreachable for it; the reference got from a deployment on the own node is remote and points to the node itself, so sending through it waits for ever; an empty id is replaced by a fresh one on another node.
  Refutations: `C83_silent_refuted`, `C83_unreachable_refuted`, `C83_own_node_refuted`, `C83_empty_id_refuted`.
- **C84 Every ping is reported once and truthfully, and the newest one counts** (partial). Ticks, answers, time and task runs as a history; reports compared with what is in the history; table as an exact set.
  Result: Reports are true, none is made twice and none is lost (bytes that are no pong make the task panic). Refuted: the heartbeat goes by the report that came last, so a ping lost fifteen seconds ago makes it take a node for terminated that has just answered, and a late answer makes it take a disconnected node for healthy; the request of a ping that timed out or could not be written is never forgotten. In order is proved for pings that do not overlap.
  Refutations: `C84_leak_refuted`, `C84_overtaken_refuted`, `C84_revived_refuted`.
- **C85 Statistics of sharded entities tell the truth** (partial). The account as functions of the states of coordinator, shards and hosts; compared with the specification relations of C37 and the entities in the shards.
  Result: The account of the coordinator, the account of the cluster when it is given, and the counts of a host are exact. Refuted: one assigned shard of another node that is not running makes the whole request fail with a panic; a missing shard of the own node is left out but counted; the statistics of a node never list a shard and count a shard twice that is both hosted and referred to.
  Refutations: `C85_one_missing_refuted`, `C85_left_out_refuted`, `C85_empty_lists_refuted`, `C85_counted_twice_refuted`.
- **C86 A node that leaves in good order is out at once and stays out** (partial). The parting ping composed with the frames of the connection, the session and the heartbeat; health as a function of the last thing heard, by induction over histories.
  Result: Exactly when another node counts as healthy is determined in terms of what was last heard of it; a node that shuts down tells the other end of every established connection, in the frames of that connection, and is then neither healthy nor leader as long as no answered ping of it is reported. Refuted: the report of an answered ping that was already on its way makes it healthy, and leader, again.
  Refutations: `C86_revived_refuted`.
- **C87 A member of a chat sees every message once and in order** (partial). One stream and one peer as a transition system over journal, history, messages under way, mailbox and output; an account of what is shown, waiting and under way, by induction over histories.
  Result: Exact: what the history has and what a peer is shown. Proved for a peer that joins while nothing is under way and nothing is said until it has subscribed: every message exactly once (and in order on the node of the stream). Refuted: what is said between the answer and the subscription is never shown; what is under way when a peer joins is shown twice; the order on other nodes; a message whose first storing was not acknowledged is repeated after a restart; messages are shown after leaving; joining twice shows the history again; a request that fails ends the peer.
  Refutations: `C87_gap_refuted`, `C87_twice_refuted`, `C87_order_refuted`, `C87_repeated_refuted`, `C87_after_leaving_refuted`, `C87_joined_twice_refuted`, `C87_failed_send_refuted`.
- **C88 A stream attached to an actor is heard in order and ends it** (partial). The reading task and the mailbox as a transition system for any conversion; what was heard as a function of the history, by induction; the frames by the round trips of the generated messages.
  Result: Order, the end with the stream, and the frames of the chat client are proved. Refuted: if the conversion of an item panics the actor hears nothing more and lives on for ever; in the chat example one broken frame does that to a peer (which frames do is exact); the task goes on reading a stream whose actor has ended.
  Refutations: `C88_panic_refuted`, `C88_deaf_peer_refuted`, `C88_left_open_refuted`.
- **C89 The path of an actor tells where it stands, and references are equal for one actor only** (partial). All actors of a system as a list of nodes with parent, path and children; what is known of a path by induction over histories; equality by induction on the parents with the children map as an invariant.
  Result: Exact: which path an actor is given after any history. Proved where actors are only started at the top and by spawn: the full path is the name of the system and the ids of all it stands under; and, with slash-free ids, distinct ids at the top and living ancestors, references are equal exactly for the same actor. Refuted: an actor that has ended equals its successor; two actors at the top with one id; ids with a slash; children of new_supervised_actor (entities of shards), whose path is the name of the system; children spawned after attach_child_ref, whose path lacks the id of the parent; orphans.
  Refutations: `C89_successor_refuted`, `C89_top_refuted`, `C89_slash_refuted`, `C89_supervised_refuted`, `C89_attach_refuted`, `C89_orphan_refuted`.
- **C90 Copies of a persistent actor over one journal lose no acknowledged event** (partial). Several journals over one storage; without snapshots a refinement of a shared list of events, by induction over histories; in turn a simulation by the one actor of C63.
  Result: Exact for actors without snapshots over the in-memory storage, for any overlap and any failures of writes: each copy has what was stored before it started and its own acknowledged events; a copy started next has everything. Proved with snapshots where copies take turns: they are as one actor. Refuted where copies overlap: running copies disagree and use the same numbers; a snapshot of one loses the events of the other or counts its own twice; trimming removes events no snapshot holds; over Redis equal events are stored once.
  Refutations: `C90_disagree_refuted`, `C90_numbers_refuted`, `C90_snapshot_refuted`, `C90_twice_refuted`, `C90_trim_refuted`, `C90_redis_once_refuted`.
- **C91 The entities of a shard end with it, and an entity runs in one place while its shard moves** (partial). The shard of C26 with the tasks, mailbox, children and live entities around it, an invariant by induction over histories; the system of C51 with one such life for every instance of one shard, and a joint invariant that at most one instance is not wholly ended.
  Result: Within one instance of a shard an entity runs at most once, also after the shard has stopped, and who outlives the shard is said exactly; across the system an entity runs at most once, and where its shard runs, in runs where a shard is started only after everything of its earlier instances has ended. Refuted: the host acknowledges the stop of a shard before the entities of the shard are told to stop, so that in an orderly move the entity runs on both nodes; an entity whose creation the shard has not heard of when it stops is never told to stop; a second StartEntity leaves the first instance without a parent that knows it.
  Refutations: `C91_stray_refuted`, `C91_started_twice_refuted`, `C91_move_refuted`.
- **C92 Messages follow their .proto files, and messages of a newer version are understood** (partial). A schema and a list of field values per message, made from the .proto files; the code of C20 and others equals the schema-driven encoding; skipped fields by induction over a relation between old and new field lists, nested in sub-messages.
  Result: Every message of the five .proto files used is written as the file says, field by field, and is read whatever fields of a newer version stand between its own and in whatever order the fields of different numbers come, also in sub-messages and map entries. Refuted for values of enums: a number this version does not know is read but panics where it is used, in five places.
  Refutations: `C92_new_values_refuted`.
- **C93 A persistent entity keeps what was acknowledged, wherever its shard runs** (partial). The joint system of C91 with the copies of C90: instances of the entity are copies, a joint invariant says that only the instance that is running or being created holds the journal, so that copies are in turn and C90 applies.
  Result: In runs where a shard is started only after everything of its earlier instances has ended (as for C91), the running instance of a persistent entity has exactly the events acknowledged to any of its instances on any node; with snapshots under the condition of C63, over Redis under that of C94. Refuted for moves that are orderly in the sense of C51 only: the entity still runs on the old node while it runs on the new one, events acknowledged by the one are unknown to the other, and a snapshot of the old instance loses those of the new one for good.
  Refutations: `C93_move_refuted`, `C93_lost_refuted`.
- **C94 An event-sourced actor over Redis survives restarts and handovers** (partial). The actor of C63 with the storage as a parameter, simulated by the Redis flags of C08; copies in turn by induction over histories for every storage; for commuting events the stored messages as a permutation of the acknowledged ones.
  Result: Proved for histories in which no single event is written right after a batch or a start that found events, and no trimming follows a single event right after a snapshot; in particular for all actors that write batches only. Proved for all histories without trims for actors whose events commute and are all different. Copies in turn are as one actor over every storage. Refuted otherwise: after a restart a single event is given the number of the last one; it is lost when it equals it and may come back before it when it does not; trimming removes an event no snapshot holds.
  Refutations: `C94_equal_refuted`, `C94_order_refuted`, `C94_trim_refuted`.
- **C95 The journals of coordinator and shard keep what was answered** (partial). A contract for storages (everything acknowledged comes back, as a set or in order, whatever the outcomes of the attempts), proved of both storages; coordinator and shard of C37 and C26 as users of it, with an existential trace of the storage carried through every operation by induction.
  Result: Coordinator and shard with their journals in a storage (Redis or the in-memory one), their events as bytes, their writes retried under the default policy, any of them stored several times, the node possibly lost in the middle. A new coordinator knows every shard ever reported as allocated, and only those when no node was lost during a write; a new shard knows the same entities with the same recipes as the one before it and starts each once, if nobody sends `StartEntity` or the storage keeps the order. Refuted for `StartEntity` with another recipe over Redis: the old recipe comes back, since the new event shares a number with the newest old one. Also found: the default policy retries without end and the actor waits meanwhile, so `AllocateShardErr::Persistence` is never the answer to a storage that fails, and nothing else is answered until the storage works again.
  Refutations: `C95_start_refuted`, `C95_lost_node_refuted`.
- **C96 All nodes have the same account of a node** (partial). A cluster of nodes with accounts of nodes in directories, in caches and in flight as bytes; invariant: every account agrees with the own account of a running node up to the host; with restarts the same with the history of starts. Placement by a version of the ring of C29 that allows nodes to be added again.
  Result: Proved for every run without overriding nodes and without a process coming back under the id of one that still counts as running; with overriding nodes all but the host of the address agrees (port, tag, start time, attributes, hence leader and selection); with restarts every account is still one that some process with that id gave of itself. Refuted with `COERCE_OVERRIDE_INCOMING_NODE_ADDR` on one node: two nodes have different addresses for the same node, and since the address is hashed, look for the same actor on different nodes. Refuted for a restart under the same id before the old process is taken for terminated: a known node is never registered again, so the old start time stays and the nodes elect different leaders, all of them healthy.
  Refutations: `C96_override_refuted`, `C96_override_placement_refuted`, `C96_reboot_refuted`.
- **C97 Shards survive a change of the coordinator** (partial). The system of C51 with numbered coordinators, restarts from the journal and crashes; the phases of C51 where new coordinators agree or nothing runs, and an invariant of healing (everything elsewhere is stopping or has an announcement under way) that ends in a phase of C51; draining as a finite run.
  Result: Coordinators that end and are started anywhere, with any knowledge of the nodes, and nodes that crash. Every shard that ever ran is placed by every later coordinator, and everybody it knows to be healthy is told. At most one instance runs, where the coordinator says, if new coordinators place the shard where it was or it runs nowhere. Refuted in general: the journal has the shards but not their places, so a new coordinator places a running shard elsewhere, and it runs on two nodes until the first is told; a node that is not healthy at that time is never told, not even when it is healthy again, and both run for good; a request to stop that the old coordinator sent takes effect after the new one has placed the shard there, and then the shard runs nowhere although everybody has its place. When the nodes are known and nothing is under way, everything that runs elsewhere is told, at most one instance runs once what is under way has been handled, and this can always come about.
  Refutations: `C97_restart_refuted`, `C97_left_behind_refuted`, `C97_stopped_refuted`.
- **C98 Persistent actors of different kinds do not share a journal** (partial). Worlds of actors with roles over one storage; two worlds agree about a key (isolation of the storages); for shared keys a relation up to the events one actor knows.
  Result: Any number of persistent actors of any kinds over one storage, in memory or Redis. What happens to an actor depends only on what those do that have its key. Coordinators and shards have keys of their own; an entity has its id as key, without its type. Refuted: entities of two types with the same id share a journal; with the same event names each recovers the events of the other; with different names a snapshot of one makes the other lose its events (the number of an unknown snapshot counts) or count them twice; an entity whose id is the key of a shard makes the shard forget its entities. Without snapshots and with different names sharing goes unnoticed in memory.
  Refutations: `C98_entities_refuted`, `C98_snapshot_refuted`, `C98_twice_refuted`, `C98_shard_refuted`.
- **C99 Kubernetes discovery finds the nodes** (partial). The two loops as total functions with an explicit panic; membership in the result against a relational specification, panic as an equivalence.
  Result: What discovery finds, exactly, when every pod and container has what the code unwraps, and exactly when it panics. Refuted in general: one container without declared ports in any selected pod (a sidecar), or a pod without host name and subdomain where these are used, makes discovery panic; pods are used whatever their phase; an error of the API is given as an empty cluster.
  Refutations: `C99_sidecar_refuted`, `C99_hostname_refuted`, `C99_ended_refuted`, `C99_error_refuted`.
- **C100 Nobody waits for ever** (partial). One-at-a-time actors with requests as trees of waits; rank argument for progress, weight for the end, closed sets of jobs (knots) for deadlock; the table of all waits of the framework, checked against a rank.
  Result: For actors in general: if the waits go down everything is answered, exactly once; a knot is for ever, grows with whoever asks, and is the only way to wait for ever. For the framework: proved for all histories without four hooks (shutdown of the scheduler, stop of the client registry, a refused session, a connection that ends before the identity) and for applications whose actors wait downwards. Refuted for each of the four hooks by itself. Not modelled: panicking handlers, sockets that never take a write.
  Refutations: `C100_refused_refuted`, `C100_clients_refuted`, `C100_early_refuted`, `C100_shutdown_refuted`.
- **C101 Messages derived as JSON are read back as what was sent** (partial). A printer and a recursive-descent parser with fuel and the depth counter of serde_json, round trip by mutual structural induction; types as a universe with a denotation, so values are typed by construction; exactness by constructing a bad value for every type that is not clear; the codec plugged into C81.
  Result: Text (printer, escapes, UTF-8, parser with the nesting limit) and types (integers, strings, options, lists, tuples, structs, enums) are modelled; a value is read back exactly if it is nested no deeper than 127 and its type has no Option over a type with a null value; for types of bounded height this is an equivalence. Refuted: Option<()> and Option<Option<_>> (Some is read as None, and a remote caller gets another answer than a local one), nesting deeper than 127. Not modelled: floats, maps, serde attributes.
  Refutations: `C101_null_refuted`, `C101_deep_refuted`, `C101_remote_refuted`.
- **C102 A derived message has the result type its attribute names** (partial). The attribute trees of syn as data, the type parser as a parameter; case analysis.
  Result: Refuted: an attribute with one item that is not understood (a path of several segments, a string that is no type) compiles with the result type ().
  Refutations: `C102_unit_refuted`.
- **C103 A task given to a worker pool is done once and its caller gets the result** (partial). The pool as one transition system; tasks conserved as multisets, worker j mod n by an invariant relating ring and history, a weight for termination, exact outcome of a waiting caller by snoc induction.
  Result: The pool's actor, the spawned sends and the workers as one system in any interleaving. Refuted: a worker that has stopped keeps its turn, so every n-th task is refused for ever although other workers are idle; tasks given without waiting can be done in the wrong order even by one worker; after a panic the caller of a task that was begun is told of a closed channel; Worker::new that fails part-way leaves the workers started so far running.
  Refutations: `C103_waiting_refuted`, `C103_order_refuted`, `C103_panic_refuted`, `C103_new_refuted`.
- **C104 All nodes of a cluster come to know each other** (partial). The whole cluster as one transition system; the invariant that each node has been told, or is being told, the prefix of the registry up to itself; from it symmetry and transitivity in quiet states; tokens with increasing ids against rings of waits; a weight over unknown pairs for termination.
  Result: All nodes of a cluster as one system in any interleaving: registries, handshakes, the tasks that wait for them. Refuted: a handshake that is lost is not repeated, so one node knows the other for ever and not the other way round, and the caller is told that all is done; a caller may be told before its node knows the nodes behind the one it joined, if that one was given it at the same time; a node that cannot be reached at that moment is dropped. This is the system-level side of C60, where a single look at a seed is only two hops deep.
  Refutations: `C104_lost_refuted`, `C104_early_refuted`, `C104_unreachable_refuted`.
- **C105 The search for an actor ends, is answered once, and finds the actor** (partial). Questions as chains of nodes in one transition system with a directory and ring per node; the owner on a ring a node is on itself is never farther from the key than the node, so each hop strictly decreases a cyclic distance; from it duplicate-free paths and a weight; token counting of callers; owner uniqueness over equal views for the positive part.
  Result: Every node with its own directory and ring, questions passed from node to node in any interleaving with nodes becoming known, actors starting, questions and answers being lost and nodes giving up. No circle and an end are proved for nodes known under the same details everywhere, with no two hashes alike and each node registering itself first. Refuted: with differing details (override_incoming_node_addr, or an entry of a node that came back under another address) two nodes can pass one question back and forth for ever after its caller has been answered; an actor started before its node joined is never handed to the node responsible and is not found; a caller that waits longer than five seconds is told None for an actor that runs. Found is proved under the conditions in C105_found_partial.
  Refutations: `C105_circle_refuted`, `C105_before_join_refuted`, `C105_giveup_refuted`.
- **C106 The nodes of a cluster agree on one leader** (partial). All heartbeats in one transition system with true time; an invariant that every held answer was given by a node that ran then; the choice of a tick characterised by running nodes only; agreement as self-stabilisation from every reachable state; stability by induction over the rest of the history.
  Result: All heartbeats of a cluster with a true clock, clocks that are off by a constant, processes that end, and answers that only running nodes can have sent. After any history whatever, once the running nodes know the same nodes, have their pings answered and the ended ones have been gone for twice the unhealthy time, one tick each makes them agree on the oldest running node; it stays so while pings are answered; a node that ended leads nowhere after that time. Limited to ids below 2^63 (C26). Refuted: one result of a ping that is not an answer, even that of an old ping given up after thirty later ones were answered, makes the next tick take another leader while the old one runs and leads itself, so two nodes lead and announce it; nodes that cannot reach each other all lead (no quorum).
  Refutations: `C106_missed_ping_refuted`, `C106_split_refuted`, `C106_two_leaders_refuted`.
- **C107 The leader of a new cluster comes to run its singleton** (partial). The managers of a cluster with one leader: an invariant with an exact token per other node (asked, remembered, answered or counted) and an exact count of the steps left, which every step that does anything lowers by one; quiescence equals none left. Refutation: an invariant of the failed manager together with the lease invariant of C52.
  Result: All managers of a new cluster with one leader, messages in any order, any number of repeated leader announcements and node announcements, instances that end. If the start does not fail: at most 4n-1 steps do anything, nothing is left to do exactly after 4n-1 of them, and then the leader has the singleton running, and no other node has or ever had; no instance runs before every node is up; from every moment the end can be reached. Refuted: after one failed start (an error of `into_actor`, only logged in start.rs 65-67) no instance is ever started again on any node of the cluster, whoever becomes the leader afterwards, because the manager stays in `Starting`, neither tries again nor gives its lease to others.
  Refutations: `C107_failed_start_refuted`.
- **C108 A message to the singleton of a new cluster is received once, by its one instance** (partial). The managers of C107 composed with a proxy, a mailbox and sending tasks per node: a conservation law over all places a message may be in (permutation, any history), an invariant that ties what every proxy has been told to the notices of the start still under way, and possibility of quiescence by draining mailbox after mailbox. Refutation: instance numbers only grow, so an ended instance is gone for good.
  Result: The managers of a whole cluster together with the proxy and its mailbox on every node and the tasks that send. For messages sent with `send`: in every history whatsoever each message is in exactly one place; in a new cluster with one leader everything received is received by the first instance of the leader, no sender gets an error as long as that instance does not end, when nothing is left to do every message of every node has been received exactly once and every proxy is active, and such a moment can be reached from every other. Refuted: messages of one node may overtake each other; once the instance has ended it is never replaced while the leader stays, and everything sent later comes back with an error. A message sent with `notify` ends the proxy (C56).
  Refutations: `C108_order_refuted`, `C108_ended_refuted`.
- **C109 When the node of the leader fails, the next leader takes over the singleton** (partial). The managers of a cluster with crashed nodes: an invariant for the time after a crash, relative to the nodes left, with a token per other node and an exact count of the steps left; at rest it yields the state in which the next crash may come, so the theorem iterates over any sequence of failures. Refutation: an invariant of the waiting node, and two traces.
  Result: The managers of a whole cluster whose nodes crash; messages to a crashed node are never handled, those it has sent still are. For a cluster at rest in which any node crashes and which is then left in peace (any number of times): in every order of events at most 4 (leader crashed) or 1 (another node crashed) steps per node left, nothing left to do exactly when as many have been taken, whatever runs is the one instance of the leader, at the end the leader runs it and the nodes left know exactly each other, such an end can be reached from every moment, and this down to the last node. Refuted: a node told of the crash before it is told that it is up waits for the crashed node for ever, because the news of being up lists it still; a second crash during the start makes a second instance on the same node; a leader only lost from sight keeps its instance while another starts one.
  Refutations: `C109_early_removal_refuted`, `C109_second_crash_refuted`, `C109_lost_refuted`.
- **C110 A running singleton goes on undisturbed while nodes join the cluster** (partial). The heartbeats of C106 and the managers of C52 composed: what a heartbeat publishes is what the manager of its node hears. Invariants over all histories: each node is told once that it is up; all nodes but L stay at rest as long as they choose no leader unsheltered; L stays running; what is under way to a proxy comes from L. Refutations in general: the books of the managers (who can still be acknowledged by whom) give two forms of waiting that no step ends.
  Result: Heartbeats, registries, managers and proxies of all nodes as one system, nodes joining at any time. Proved for histories in which no node but L chooses a leader while no older node answers it: nobody but L ever starts or runs an instance; an instance of L goes on, with no stop signal and no other start, for as long as it and its node last; a node whose manager exists when L hears of it is told of L and of nobody else. The code does not ensure the condition: a node that joins and has no answer of an older node at its second tick makes L stop the instance, after which neither it nor any node that knows it ever starts one (C110_hasty_joiner_refuted); a node that has not found the others yet starts an instance of its own and both go on for ever (C110_alone_refuted). Further: a manager built after MemberUp was published is joining for ever and blocks everybody who knows it (C110_late_manager_refuted); a request to a manager not built yet is lost and the leader waits for ever (C110_early_request_refuted); the word where the singleton runs is sent once, so a manager built later never hears it (C110_untold_refuted).
  Refutations: `C110_refuted`, `C110_hasty_joiner_refuted`, `C110_alone_refuted`, `C110_late_manager_refuted`, `C110_early_request_refuted`, `C110_untold_refuted`.
- **C111 Bytes are understood as a JSON message exactly if they are one** (proved). Soundness of the reader by induction on its recursion bound, completeness by recursion on the value, both against a grammar written as a relation; the same for types against a relation of shapes; together an equivalence for all bytes.
  Result: The grammar of JSON is written down as a relation between values and texts (white space, every escape, surrogate pairs, integers without leading zeros), and the JSON of a type as a relation between types, values and JSON; the reader accepts exactly what is in both and gives the value that they give. Serde and serde_json are external and modelled: numbers are integers, no maps and attributes, and members of an object that are not fields are read like all others (serde_json skips them and is more lenient there).
- **C112 When the leader's process ends, the next oldest node takes over the singleton** (partial). The system of C110, with ending processes: a description of a takeover half done (who has answered, who was forgotten, who is still to be dealt with) that every deal step carries on, for any order of the nodes asked; instances elsewhere excluded by the invariant of C110 over two leaders, one of which has ended; refutations by an invariant of the node that waits for one that has ended, and by two nodes serving at once.
  Result: The same system as C110. Proved: after any history in which the older nodes B knows have ended twice the unhealthy time ago, B takes over, with the answers and removals in any order; nothing runs anywhere else afterwards, and the new instance goes on as the old one did. What the code does not ensure is that L is taken for removed exactly when it has ended: NodeRemoved is published only when a ping tick finds the client not connected, while the leader changes by missed heartbeats. Without the removal (power loss or partition with the TCP connection still open) B waits for L's answer for ever and nobody ever starts the singleton again (C112_silent_end_refuted); with a removal of a node that runs, both instances run for ever, even after the nodes have found each other again and agree on a leader (C112_out_of_sight_refuted).
  Refutations: `C112_silent_end_refuted`, `C112_out_of_sight_refuted`.
- **C113 A shard coordinator knows the nodes of its cluster** (partial). Discovery (C32), registry and coordinator (C37, C40) of one node composed. One lemma on what a discovery message does to registry, handshakes and announcements; status of a host under each coordinator operation; one invariant for all histories. Refutations by invariants of the node shut out and of the node that is gone, with the continuation arbitrary.
  Result: Discovery (the model of C32), the registry and the coordinator (the model of C37 and C40) of one node in one system. Proved for every execution: no announcement is lost between the subscription and the question to the registry; availability is decided by the last event handled, else by the answer of the registry; steady nodes are available; removed nodes have no shards; terminated nodes can come back. Refuted, both in general: a node that is in the registry and not available to the coordinator stays without shards for ever unless a discovery message finds it Terminated (a connection lost and made again before the heartbeat notices, a slow answer when the coordinator starts, a failed handshake, a removal overtaken by the announcement of the node that came back); a node that died just before the coordinator started and was still Healthy in the registry is given shards for ever, even after the heartbeat has it as Terminated. Partial because of these refutations.
  Refutations: `C113_shut_out_refuted`, `C113_alive_unused_refuted`, `C113_gone_refuted`.
- **C114 What is published to the cluster reaches the nodes of the cluster** (partial). The discovery of C32 and the mediator of C33 on every node. A conservation law (a permutation of all copies there have been, with numbered publications) gives exact counts for every continuation; what the mediator knows is the last event it handled, by induction; subscribers through C33 on the recorded operations of each mediator. Refutation of reachability by an invariant of the node shut out, with the continuation arbitrary.
  Result: The discoveries (C32) and mediators (C33) of any number of nodes in one system. Proved for every execution: the addressees of a publication are exactly the nodes last announced to the mediator, one copy each, at most one of them handed over, unchanged; everything comes to rest, and then all addressees have it unless their copy was lost; subscribers receive a gapless beginning of what arrives; steady nodes are addressed, terminated nodes can come back. Refuted: a node whose connection was lost and made again before the heartbeat noticed is never addressed again, in general (publishing is then one-way); a message that cannot be serialised reaches local subscribers only, and the error depends on whether other nodes are known (PubSub::publish drops it anyway); what is sent while there is no connection is lost and the publisher told Ok. Partial because of these refutations.
  Refutations: `C114_shut_out_refuted`, `C114_one_way_refuted`, `C114_half_refuted`, `C114_lost_refuted`.
- **C115 What the HTTP interface of a node shows is true** (partial). Requests as steps among the changes of the node; which prefix of the history each part of a reply comes from, by invariants over the tables of requests (an equivalence for the requests for nodes); truth of the actor listing from C71 by an independent inductive specification over the query; maps collected from lists; refutations by concrete histories checked at every prefix.
  Result: Requests are sequences of steps among which the rest of the node acts. Proved for every execution: from which moments the parts of each reply are (leader at the start of a request for the nodes, directory at its answer; for the health checks first, directory second, leader last), that the listing is exact, sorted and complete in every field, when the tag of the leader is missing, that replies are consistent if the leader does not change meanwhile, when requests fail; that every actor described is shown with its own whole path, outcome and children within the limits of the query; that types and their statistics are those of the hosts attached last. Refuted: a reply may combine a leader and nodes that never were at the same time; a leader with an id of 2^63 or more is shown as none; a check registered again under the same path hides the failed one, so that an unhealthy node shows no cause; a shard is listed twice; the waiting time of the query has no effect. Partial because of these refutations. HTTP, JSON text and version fields are not modelled.
  Refutations: `C115_big_leader_refuted`, `C115_torn_refuted`, `C115_no_cause_refuted`, `C115_health_torn_refuted`, `C115_twice_refuted`, `C115_timeout_refuted`.
- **C116 A Redis journal used by many at once is as if used by one after another** (partial). All nodes, their journal actors, tasks, commands and replies and one Redis in one system. The order of execution at Redis, recorded beside the run, explains the history: one invariant with conservation of calls (a permutation), commands without repetition, and the real-time order kept by a case split on the last event. Own keys by restriction of the order and uniqueness of a sorted permutation. Holding up by an invariant with the continuation arbitrary; refutations by concrete histories.
  Result: Linearizability of the shared journal, for any number of nodes and callers, any interleaving of requests, commands, replies, errors, losses, stops and crashes: one order of the requests that took effect explains every answer and the contents of Redis and respects real time (C116_explained); calls end once (C116_once) and do end (C116_ends); one who has keys to themselves and waits for answers, as a persistent actor does, sees exactly a Redis of their own (C116_own), which carries the sequential results C08, C67 and C94 over to concurrent use through C116_methods. Partial because a request that failed can take effect later than requests called after its failure (C116_late_refuted), also one of a node that has crashed, behind the back of its successor (C116_dead_writer_refuted); requests do not take effect in the order of the mailbox (C116_sent_order_refuted); and a pending delete_all stops the whole node (C116_stall_refuted).
  Refutations: `C116_late_refuted`, `C116_dead_writer_refuted`, `C116_sent_order_refuted`, `C116_stall_refuted`.
- **C117 An event-sourced actor survives restarts and moves on a Redis shared with others** (partial). The journal and the actor of C94 as programs of calls and answers, run as one caller among all of the system of C116. Repeated attempts are taken out of the linearization of C116: going along the order of execution, the sets are those of the answered calls alone or are ahead by the one attempt that came early, and late ones find everything there. Then a simulation from lives among others to lives alone, and C94.
  Result: An event-sourced actor as a caller of the Redis it shares with any number of others on any number of nodes (the system of C116), its journal functions, retry loop and recovery being programs that make calls and go on with the answers. One who waits for each call to end and makes changes again until they are answered has the answers, and leaves the sets, of a Redis of its own in which the unanswered calls were never made, even if failed writings are carried out at once or much later (C117_own, which strengthens C116_own; two forms: changes all answered, readings may fail; or nothing removed and changes repeated until answered). So the actor is in the state it would be in alone (C117_alone), which with C94 is the one its acknowledged events make, on whichever nodes it was started and however often a start failed (C117_survives_partial, C117_batches). C117_keys: what is asked about keys of others always holds among persistent actors; C117_persists: exactly which calls an actor makes. Partial: without care it is false. A command of a crashed node reaches Redis after the actor was recovered elsewhere, and a second recovery finds an event the first did not (C117_dead_writer_refuted); an actor that gives up after an error and goes on finds both events later (C117_gave_up_refuted); with removals, making changes again is not enough (C117_removed_refuted).
  Refutations: `C117_dead_writer_refuted`, `C117_gave_up_refuted`, `C117_removed_refuted`.
- **C118 A blocking call gives what the same call gives when awaited** (partial). Blocking and awaited calls as separate functions over actors that are the loops of C12. Equality of the two histories step by step; a relation between them (same actors, callers equal or panicked) for calls from anywhere; each actor of the system is an execution of the loop on its own, whose requests are the calls made to it, so that C13 and C14 apply to every caller; what the scheduler owes is in its mailbox, by an invariant.
  Result: The blocking interface beside the functions it mirrors, with any number of callers and actors; every actor is the actor loop of C12-C14. Two rules of tokio are trusted: spawn panics on a thread that has entered no runtime, blocking_recv panics on a thread that runs tasks. Where tokio lets the calls wait, everything is as if they were awaited, throughout (C118_as_awaited_partial); wherever they are made from, the actors and the scheduler do what they would do with the calls awaited unless an actor is created from outside, and callers are where they would be or have panicked (C118_actors); exactly when a blocking call panics (C118_panics) and that awaited ones never do; what is returned is true, results are the handler's results for this very message, and nobody waits longer than the actor lives or than the scheduler needs for its mailbox. Refuted: from a task of the runtime new_actor_blocking leaves an actor behind, registered and running, to which nobody has a reference, and send_blocking panics with the message delivered and handled; from a thread outside, new_actor_blocking can never succeed (the one test of it in the repository is commented out).
  Refutations: `C118_inside_refuted`, `C118_outside_refuted`, `C118_silent_refuted`.
- **C119 A remote call is carried out at most once and told its own result, whatever the connections do** (partial). Two nodes with the clients of C24, numbered connections, session tasks and the request table of C19 in one system. Conservation by counting: every id is in exactly one place on the way there, and if handled in exactly one on the way back; contents by an invariant on frames. Loss only from breaks by an invariant over calm histories; answerability by a weight that some step always lowers. Lost ids stay lost, so their callers wait for ever. The frames of the code meet the assumption by C20 and C21.
  Result: Two nodes with the clients of C24 and C25 as they are, connections that may break with frames on them, tasks of the sessions in any order, good answers on the connection the request came on and errors over the other node's own client. At most once, told the truth, the actor as if alone, no loss and full answerability while nothing breaks: all proved, for the code's frames by C119_code. Exactly once is refuted: a request or a reply on a connection that breaks is lost and the caller waits for ever, there being no time limit in send (C119_lost_refuted, C119_lost_waits for every continuation); a call made while the client registry has no client for the node is dropped with a log line, and its caller waits for ever (C119_unconnected_refuted; the TODO in clients.rs 112 names it); an answer above 8 MiB is dropped by the session although the message was handled, and the caller waits for ever (C119_large_refuted); the caller cannot tell whether its message was handled (C119_cannot_tell_refuted). A caller that waits is served in the order of its calls (C119_waiting_order); one that does not is not, even on one connection, since each request is handled by a task of its own (C119_order_refuted). A frame that cannot be read holds up nothing (C119_reads_on). A client that gave up may be replaced by a new one for the same address: that works, but what the old one had buffered, and what was asked meanwhile, is lost (C119_renewed, C119_renewed_back, C119_one_client).
  Refutations: `C119_lost_refuted`, `C119_unconnected_refuted`, `C119_large_refuted`, `C119_cannot_tell_refuted`, `C119_order_refuted`.
- **C120 Snapshots and trimmed journals are safe on a Redis that fails** (partial). From the invariant of C116: at each reading of one who waits, the set holds only what answered calls wrote before and all of it but what was asked to be removed, since a repeated attempt adds nothing that its answered one has not. Then an invariant over the life of the actor: the acknowledged events after the newest snapshot have higher numbers, all others lower, and removals reach no further than the snapshot; recovery reads from its number on.
  Result: The actors of C117 on the Redis of C116, now with trims (clear_old_messages) together with writings that are made again, which C117 leaves out since then no Redis of its own explains what the actor sees (C117_removed_refuted). Instead: what one who waits and repeats its writings can read, whatever becomes of its removals (C120_range, C120_latest, C120_one); an actor that gives up nothing is such a one (C120_again); and an actor that writes batches is in the state its acknowledged events make, whatever becomes of its trims (C120_survives_partial). Partial: with single events (persist) it is false. A single event has the number of the snapshot before it, and a trim that was taken for failed reaches Redis after the event was acknowledged and removes it (C120_single_refuted), although the order of the actor's own calls is one C94 finds safe. And trimming is not for good: a late repeated writing brings a trimmed event back into the journal, below the snapshot, where it stays until the next trim (C120_back_refuted).
  Refutations: `C120_back_refuted`, `C120_single_refuted`.
- **C121 A connection that is no longer read is known to have ended** (partial). The exact frames that panic are written out field by field from network.proto and shown equivalent to the model by cases over the eleven and six kinds of messages; invariants over runs give who is told; the round trips of C20 and C21 give that no frame of this version is among them.
  Result: The two reading tasks from the bytes of each frame to what their actors are told. Exactly which frames end a task by a panic is stated field by field (C121_session_fatal, C121_client_fatal); who is told of which end (C121_session_told, C121_client_told), that nothing has any effect afterwards (C121_session_over, C121_client_over), that no frame written by this version is fatal (C121_own_session, C121_own_client), so that among nodes of this version the property holds (the partial theorems; for a session, or the session is gone; for a client, once it has been introduced), and that identities and handshakes are given as they were written (C121_introduced, C121_shaken). Partial: it is false for frames of others. receive_loop runs in a spawned task whose handle is used only to abort it, so its panic is noticed by nobody: the session runs on, unread and untold (C121_session_refuted), the client stays connected as far as it knows and callers whose answers come on the connection wait for ever (C121_client_refuted, C121_waits_refuted). The frame need not be garbled: an error of a kind added by a newer version is enough (C121_newer_refuted). And without any foreign frame: a client that connects handles nothing until it is introduced, while its task waits for it to handle Disconnected or a handshake, so that a connection that ends before the introduction leaves both waiting for each other for ever (C121_early_refuted; C25_closed_early_refuted has the client's side), where a garbled frame would have freed the client. Not modelled: that a heartbeat may find the node silent later, when its pings time out.
  Refutations: `C121_session_refuted`, `C121_client_refuted`, `C121_early_refuted`, `C121_waits_refuted`, `C121_newer_refuted`.
- **C122 Copies of a persistent actor on one failing Redis lose no reported event** (partial). An invariant over all steps of the copies together with the Redis of C116: every request ever called is harmless to the two keys, every reported event belongs to an answered write, and every copy that reads has the answers it must see before its call, so that C116_read_back applies; the count goes by the entries copies set out to write, of which a retry makes no new one.
  Result: C90 and C95 had copies whose operations are done at once, C116 a Redis with calls in flight; this has any number of copies as callers of that Redis. C122_known and C122_starts: a copy started at any time has every event reported before to any copy, all its own later ones, none that was not asked for and none more often than asked for, however often the write was retried; C122_starts also gives that such a copy can always come up on a node that works. C122_coordinators and C122_shards apply it: with several leaders at once no allocated shard is forgotten, and no started entity is. Partial: the rest of the statement is false. A write of a dead node takes effect when copies already run, so that two copies started after each other differ though nothing was asked for (C122_late_refuted); running copies do not hear of each other (C122_disagree_refuted); the same event reported to two copies is stored once (C122_once_refuted); and numbers given by copies that do not know of each other make later events come before earlier ones (C122_order_refuted). Left out: snapshots and trimming by several copies, which lose events even without failures (C90).
  Refutations: `C122_late_refuted`, `C122_disagree_refuted`, `C122_once_refuted`, `C122_order_refuted`.
- **C123 The ids of requests travel as text and come back as themselves** (partial). The digits of a text are found by its length and the places of the hyphens; both directions of the equivalence with the specification (Form, Spells) by splitting the list at those places; the round trip follows from the equivalence.
  Result: The assumption of C50 about the text of UUIDs is proved here for the text form that the uuid crate documents (to_string, and the four forms parse_str takes); the crate itself is not in /repo, so that what is trusted is that it does what is modelled. Partial: a message whose id is no UUID is not refused, the reading panics (unwrap), and exactly then (C123_panics, C123_refused_refuted).
  Refutations: `C123_refused_refuted`.
- **C124 Nodes that arrive together cause one full rebalance, after the last of them** (partial). Two invariants over the steps, one for any runtime and one for a prompt one (what each waiting task says about the arrivals so far); the refutations by a run for every number of nodes and by a concrete run.
  Result: One coordinator from its start to its end, with the real time of its timer. At most one rebalance is scheduled and not cancelled, and no more are sent than nodes arrived, whatever the runtime does. With a prompt runtime rebalances are sent exactly 500 ms after the arrivals that no other followed in between. Partial: nodes that keep coming less than 500 ms apart put the rebalance off for as long as they do (C124_put_off_refuted), and a cancelled task that is polled late may still send, so that two are handled (C124_twice_refuted).
  Refutations: `C124_put_off_refuted`, `C124_twice_refuted`.
- **C125 The status of a singleton manager tells whether the singleton runs there** (partial). An invariant of orderly runs that counts what there is of the singleton on the node, in every state of the manager; another one, for all runs, on the instances started and ended; concrete runs for the refutations.
  Result: Running and Stopping are reported only of an instance that was started and runs or has ended since (all runs); Joining and Idle mean that there is nothing of the singleton on the node, if the manager starts it only when there is nothing of an earlier one. Partial: a manager whose instance has ended by itself goes on reporting Running though it was told; after a repeated acknowledgement it can report Idle while an instance runs; after a failed start it reports Starting with nothing under way; and no other node can ask, GetStatus cannot be read from bytes.
  Refutations: `C125_dead_refuted`, `C125_idle_refuted`, `C125_starting_refuted`, `C125_remote_refuted`.

## Defects found

Every theorem below is the negation of an expectation, proved on a concrete run or for all states; the text is the comment at the theorem.

- `C02_refuted`: C02 as stated (for histories without lost acknowledgements) is false: the first single message after a snapshot is not recovered.
- `C02_refuted_lost_ack`: … and it stays lost whatever follows; while messages from before a snapshot come back when an acknowledgement of a batch was lost.
- `C04_lost_ack_refuted`: With lost acknowledgements the numbers can go backwards: the second batch reuses the numbers of the first.
- `C05_redis_refuted`: C05 fails on Redis: the trim removes the first single message after the snapshot, which shares its number.
- `C06_refuted_panic`: C06 is false for the in-memory storage: it can panic…
- `C06_refuted_extra`: …can return messages beyond the range…
- `C06_refuted_missing`: …and can miss messages in it.
- `C08_refuted_order`: C08 is false on Redis: messages can come back in another order…
- `C08_refuted_duplicate`: …and a message persisted twice can come back once.
- `C15_refuted`: It is false: a tracked actor stops in an orderly way, but the scheduler is gone when it de-registers, `expect` panics, and its watcher never hears of it.
- `C16_family_refuted`: It is false: attaching a reference under the id of a running child replaces that child, which is then neither found nor stopped with its parent; when it dies, the attached one is removed.
- `C16_stale_notice_refuted`: 
- `C17_refuted`: It is false: two actors under one id; when the first stops, `DeregisterActor(id)` removes the second one, which runs on and cannot be found.
- `C17_dead_ref_refuted`: ... and an actor that stops before its creator got to register it stays registered for ever.
- `C19_failed_request_refuted`: C19 refuted for failed sends. `RemoteActorRef::send` stores the request before it builds it; when building fails the caller gets the error but the entry stays, for ever: no operation but a reply with that id removes it, and no such request was ever written.
- `C19_reply_leak_refuted`: C19 refuted for replies sent as requests. One request, answered and delivered: nothing is in flight and nobody waits, yet the responder has a request outstanding (and a task waiting on it).
- `C23_huge_ttl_refuted`: C23 refuted for very long lifetimes. A lifetime above what `chrono` can hold (for instance `Duration::MAX`, the natural way to say "never expires") does not accept the token: it panics.
- `C24_oversize_refuted`: C24 refuted. For every frame limit: a message above it, then a small one, both written before the connection; then a third once connected. The third is sent, the second is not.
- `C25_off_by_one_refuted`: C25 refuted (off by one). After a lost connection ten failed attempts are enough.
- `C25_closed_early_refuted`: 
- `C25_late_report_refuted`: C25 refuted (a loss noticed twice). When a write notices the lost connection before the receive loop does, the late report of the loop is taken for another failed attempt - or, if the client has reconnected meanwhile, for the loss of the new, working connection.
- `C26_big_ids_refuted`: C26 refuted (large ids). A leader whose id is 2^63 or more - half of the ids drawn by default - is stored as a negative number, and read back as "no leader".
- `C27_missed_refuted`: C27 refuted. With the default timeouts, a node heard of one second ago is terminated by one missed ping.
- `C27_error_twice_refuted`: C27 refuted (one failed ping, looked at twice). The result of a ping is kept until the next result comes; one failed ping makes the node unhealthy at one tick and terminated at the next, however recent its last heartbeat.
- `C27_clock_back_refuted`: C27 refuted (clock going back). If the clock is set back behind the last answer of any node, the heartbeat actor panics at the next tick and works no more.
- `C28_refuted`: C28 refuted. A node that is to wait for three members announces the cluster up at its second heartbeat, all alone: the comparison is the wrong way round.
- `C28_large_cluster_refuted`: C28 refuted (a cluster larger than its minimum). Four nodes, minimum two: the leader is chosen without the cluster being announced, and no later heartbeat announces it.
- `C28_single_node_refuted`: C28 refuted (`single_node_cluster`). A single-node cluster starts with itself as leader, so its leader never changes, and the cluster is never announced.
- `C29_refuted`: 
- `C29_added_twice_refuted`: C29/C30 refuted (added twice). A node that comes back with a new address is on the ring twice; after its removal the old entry is still chosen.
- `C29_updated_refuted`: C29/C30 refuted (details updated). A removed node whose details were updated stays on the ring.
- `C30_terminated_still_chosen_refuted`: C30 refuted (terminated nodes). Marking a node terminated never changes what is chosen.
- `C30_terminated_refuted`: C30 refuted (terminated nodes, instance). The terminated node is chosen although another node is there.
- `C30_stale_update_refuted`: C30 refuted (stale heartbeat). A heartbeat reads the nodes, a node is removed (or comes back with a new address), and the heartbeat writes back what it read: the removed node is in the directory again, respectively the old address replaces the new one.
- `C31_stale_refuted`: C31 refuted (gone). Stopping an actor changes no lookup: the stale node is answered until something is registered over it.
- `C31_stale_instance_refuted`: C31 refuted (gone, instance). Nothing runs, and node 2 is answered.
- `C31_view_refuted`: C31 refuted (membership changes). When another node becomes responsible for the id, a running actor is no longer found: nothing is registered again.
- `C31_order_refuted`: C31 refuted (moved). An actor stopped on node 2 and started on node 3 may be found on node 2 for ever, as the registrations are sent by tasks of their own and may arrive in the wrong order.
- `C32_failed_refuted`: C32 refuted (failed handshake). A node whose handshake failed is never announced afterwards, whatever else happens: not when it is discovered again, nor when it was forgotten or terminated before.
- `C32_failed_instance_refuted`: C32 refuted (failed handshake, instance).
- `C32_no_client_refuted`: C32 refuted (no client). A node that identified itself but whose own address could not be connected to is neither known nor tried again by address: the address counts as discovered.
- `C32_forgotten_refuted`: C32 refuted (forgotten, still known). A node that was forgotten but not marked terminated is not discovered again.
- `C32_alias_refuted`: C32 refuted (alias). A node found at an address other than its own is not forgotten under that address: discovering it there again does nothing, even after it was forgotten and has terminated.
- `C33_lag_refuted`: C33 refuted (slow subscribers). A subscriber that falls more than `cap` behind receives nothing of it, and nothing ever again: its task has ended without notice.
- `C33_refuted`: 
- `C33_unsubscribe_refuted`: C33 refuted (unsubscribing). What was published before unsubscribing is lost if the task has not passed it on yet.
- `C33_name_clash_refuted`: C33 refuted (same name). Publishing to a topic whose name is also used by a topic with another message type ends the mediator; nothing is delivered to anyone from then on.
- `C33_cluster_order_refuted`: C33 refuted (cluster order). Each publication is sent by its own task: a subscriber on another node may receive two messages of one publisher in the wrong order.
- `C34_hangs_refuted`: C34 refuted (no answer in time). If a registered actor does not answer, there is no report at all, instead of an unhealthy one: exactly then.
- `C34_same_id_refuted`: C34 refuted (same id). Removing the check of one actor removes that of another with the same id on another path.
- `C35_malformed_id_refuted`: C35 refuted for malformed ids. The task panics before anything is sent.
- `C35_actor_error_lost_refuted`: C35 (causes), refuted for the actor's own error. Through `handle_attempt` the error of the actor is lost: the caller sees only a closed channel, whatever the actor reported.
- `C35_shared_cache_refuted`: C35 refuted for two systems in one process. The table of references is shared by all actor systems of the process: a message for actor "a" of node 2 is given to actor "a" of node 1, although node 2 has a running actor of that id.
- `C39_restart_refuted`: C39 does not hold across a restart of the coordinator (leader change): the node is not persisted. Here shards 10 and 11 are on node 1, node 2 joins, and after the restart shard 10 or 11 is on node 2, without a rebalance and with node 1 available throughout.
- `C41_unavailable_refuted`: C41 fails if a known node is not available: such nodes count when the share is worked out, so more is taken than what is above the fair share. Here nodes 1 and 2 carry one shard each, which is their fair share, node 3 is lost, and both shards are taken.
- `C42_refused_recovered_refuted`: C42 without the condition: a request refused because no node is available is persisted all the same, so after a restart the shard is known although it was never allocated.
- `C44_stop_while_starting_refuted`: C44 fails when the shard is asked to stop while it starts: the requests waiting for it are dropped, and whatever happens afterwards they are never passed on, although the shard comes up.
- `C44_moved_while_starting_refuted`: C44 fails when the shard is announced to be on another node while it starts here: the requests waiting are dropped instead of being sent to the new owner.
- `C44_order_refuted`: C44 fails in order after a move back and forth: an instance reported late makes the shard ready while an earlier request still waits to have it located, and a later request overtakes it.
- `C45_unanswered_refuted`: C45 fails in every other state. If the shard is not ready when it is asked to stop (it is starting, stopping or not there), the request is never answered, whatever happens afterwards.
- `C45_keeps_running_refuted`: C45 fails: a shard asked to stop while it starts is not stopped. It comes up and keeps running.
- `C46_both_refuted`: C46 fails otherwise: an instance that reports after its shard was announced elsewhere makes the shard hosted here and routed to another node at once. Requests are then given to that instance, even after it has stopped, and not to the owner.
- `C47_failed_start_refuted`: C47 fails if the entity cannot be started: its requests are neither answered nor delivered, in no continuation, and neither are later ones; the entity is never tried again.
- `C47_second_start_refuted`: C47 fails if `StartEntity` is sent for an entity that is starting: a second instance is created and the requests waiting are dropped.
- `C48_refused_refuted`: C48 fails for every entity the shard knows that is idle or passivated: every request is refused, nothing is started, and the state of the shard does not change, so it stays so.
- `C48_stopped_refuted`: C48 fails for an entity that has stopped: the shard keeps it as active, and requests are given to the instance that has ended.
- `C49_snapshot_refuted`: C49 fails with snapshots: an entity that was active when the snapshot was taken is not restarted, and a passivated one is no longer known to be passivated.
- `C49_unpersisted_refuted`: C49 fails if a write to the journal fails: the error is ignored, the entity runs, and after a restart the shard does not know it.
- `C51_request_during_move_refuted`: C51 does not hold of the code: a host that has a request for the shard during the move asks the coordinator, which places the shard at once, while the old node has not even received the request to stop.
- `C51_late_announcement_refuted`: C51 does not hold of the code: the node that asked for the shard tells itself where it is, a second time; if that message is handled after the shard has moved away, the node starts the shard again.
- `C52_at_most_one_instance_refuted`: C52 fails with three nodes: two nodes run an instance, though every node was told once that it is up. Both if the singleton is a child of its manager and if, as in the code, it is not.
- `C52_up_twice_refuted`: C52 fails for one node that is told twice that it is up: it starts a second instance.
- `C53_repeated_ack_refuted`: C53 fails for a repeated acknowledgement: the singleton is started twice.
- `C53_unknown_ack_refuted`: C53 fails for an acknowledgement of an unknown node: node 2 has not acknowledged.
- `C53_node_leaves_refuted`: C53 fails when a node leaves after the start but before its result: the singleton is started twice.
- `C53_node_joins_refuted`: C53 fails when a node joins after the start but before its result: it is asked for the lease, and its acknowledgement starts the singleton again.
- `C54_joining_refuted`: C54 fails for two requests while joining: only the last one is answered.
- `C54_starting_refuted`: C54 fails for a manager that is starting: it is not running the singleton, and does not give the lease, then or later.
- `C54_new_leader_starts_refuted`: C54 fails: there is a run of two nodes after which node 1 never starts the singleton, though it is the leader and knows it.
- `C55_order_refuted`: C55 fails: a queued message and one sent later arrive in the wrong order.
- `C55_lost_refuted`: C55 fails: a message queued behind a notification is lost.
- `C56_notify_refuted`: C56 fails at once if an instance is known: the proxy dies and the message is lost.
- `C57_refuted`: C57 refuted.
- `C58_refuted`: C58 refuted.
- `C58_alias_refuted`: C58 refuted (aliases). Two clients of one node, under two addresses. When one of them gives up, the node can no longer be written to, although the other client is connected.
- `C59_race_refuted`: C59 refuted (race). Deployments of one id on two nodes both succeed while the registration is under way: the id runs twice.
- `C59_unanswered_refuted`: C59 refuted (unanswered). A lookup that is not answered in time counts as not found.
- `C59_redeploy_refuted`: C59 refuted (redeploying). An actor that has stopped cannot be deployed again, on any node: its id stays refused as long as nobody registers it some other way.
- `C60_chain_refuted`: C60 refuted. Discovery looks at the seed, its peers and their peers; in a chain of nodes each knowing the next only, the fourth is not found.
- `C61_panics_refuted`: C61 (refuted). The empty payload makes the node that reads it as an announcement panic; so it does for a stop request or an entity request, the empty text being no UUID.
- `C61_unknown_type_refuted`: C61 (refuted). An answer with a result type this version does not know panics the reader.
- `C62_unknown_status_refuted`: C62, unknown states: a status this version does not know panics.
- `C63_refuted`: C63 as stated is false: an event persisted singly right after a snapshot is acknowledged and applied, and gone after the next crash.
- `C63_lost_ack_refuted`: a write that failed after it was stored: the event was never applied, yet it is after the crash.
- `C65_collision_refuted`: C65 without that condition is false: nothing keeps two types from sharing an identifier, and then the messages of one are given to the handler of the other.
- `C66_disabled_refuted`: C66 as stated is false: an actor that turns recovery off cannot persist anything, the first attempt panics, on any storage.
- `C67_prefix_collision_refuted`: two deployments sharing one Redis can collide if one prefix continues the other.
- `C68_refuted_handler`: C68 as stated is false: an actor asks the scheduler for another actor after the scheduler took `Stop`; the scheduler waits for the actor and the actor for the scheduler, in every continuation.
- `C68_refuted_race`: C68 as stated is false without any actor calling the scheduler: an actor stopping by itself finds the system not terminated, then the system is terminated, then the actor deregisters.
- `C69_drop_refuted`: C69: dropping a `Timer` does not stop it: any number of ticks can follow.
- `C70_cancel_refuted`: C70 as stated is false: cancelled in time, but the task is not polled until the delay is over; `select!` then has two ready branches and may take the timer's.
- `C72_hidden_parent_refuted`: Below that, one stuck actor hides its parent: an actor at level 2 or deeper with a stuck child among the children to be shown is itself reported as timed out, however fast it is, because both waits are five seconds and its own began later. (`d = 0` is the race of two simultaneous events.)
- `C72_timeout_option_refuted`: The option for the timeout has no effect.
- `C73_stale_ack_refuted`: An acknowledgement still on its way from an earlier connection completes handshakes on the new one, on which no handshake frame was ever written.
- `C73_stuck_refuted`: With a peer that closes early nobody is ever told anything again.
- `C73_crash_refuted`: If the frame cannot be written the client panics and never does anything again.
- `C74_refuted`: Reconnecting before a ping tick was handled leaves two timers running, three after the next time, and so on without limit.
- `C76_lost_refuted`: C76 (refuted in general): a request whose frame found no shard actor, or whose frame or reply was lost with the connection, is never answered, whatever happens.
- `C76_failed_start_refuted`: C76 (refuted in general): a request waiting for an entity whose start failed is not lost, but waits in the shard although nothing is left to do.
- `C77_shared_name_refuted`: Refuted: a registered type can be sent. A later registration under the same name takes it over silently: messages of the first type can no longer be sent, and messages already on the way under this name are decoded as the second type.
- `C77_actor_name_refuted`: Refuted: `actor_name` gives the name of a registered actor type. The table is filled with the ids of the handler types and searched with the ids of the markers, so nothing is ever found.
- `C78_last_coordinator_refuted`: Refuted: requests of one entity type reach the coordinator of this type. The id is the same for all; every request, of any type, reaches the coordinator that was started last.
- `C78_last_manager_refuted`: Refuted: lease requests reach the manager of their entity type. They reach that of the type started last.
- `C78_odd_names_refuted`: Refuted for odd names: the host of entity type `Shard` on node 1 and shard 1 of entity type `shard-host` have the same id, so starting the shard makes the host unreachable.
- `C79_self_seed_refuted`: Refuted: a worker whose seed is its own address does not look for itself. It asks discovery for its own address just as for any other.
- `C79_silent_refuted`: Refuted: the caller of `start` learns whether the cluster was joined. It gets the server in all three cases: found, not found, given up.
- `C80_true_refuted`: Refuted: `true` means that a node was found. The only handshake fails, nobody is added, and the answer is `true`.
- `C80_second_request_refuted`: Refuted: an answer `true` comes after the handshake with the seed. A second request for the same address is answered while the handshake of the first is under way.
- `C81_closed_refuted`: C81 refuted (closed mailbox). An actor that is found but stops before the message arrives: locally the caller is told that the reference is no longer valid and may send again; remotely it is told that the result channel was closed, as if the actor had begun to handle the message. Neither puts anything into the mailbox.
- `C81_notify_missing_refuted`: C81 refuted (notifications to nobody). Notifying an actor of another node succeeds although the actor does not exist; locally a reference to an actor that is gone is an error.
- `C81_notify_reply_refuted`: C81 refuted (notifications want no answer). A message type that leaves `write_remote_result` at its default can be sent as a notification; the actor handles it, and then an error is sent back for an id nobody waits for (which leaves an entry in the request table of the node with the actor, `C19_responder_keeps_entries`).
- `C82_order_refuted`: C82 refuted. The order is not kept for notifications (or sends that are not awaited) to an actor of another node: every message is handled by its own task.
- `C83_silent_refuted`: C83 refuted (silence), for every failure. Whenever a deployment fails on the other node, for any reason, no answer is sent: the caller waits for ever and its entry stays in the request table.
- `C83_unreachable_refuted`: C83 refuted (no client). Deploying on a node this one has no client for is not answered either: `NodeUnreachable` exists but is never returned.
- `C83_own_node_refuted`: C83 refuted (own node). The reference returned by a deployment on the own node cannot be used: it is a remote reference to this node, for which there is no client, so a message sent through it is written nowhere and its sender waits for ever.
- `C83_empty_id_refuted`: C83 refuted (empty id). An empty id is kept by a deployment on the own node but silently replaced by a new one on another node, without asking whether it is taken.
- `C84_leak_refuted`: Refuted: a request is forgotten when it is over. A ping that times out leaves its entry in the table for good, so a node that does not answer makes the table grow without bound.
- `C84_overtaken_refuted`: Refuted: the heartbeat goes by the newest ping. The result of an older ping replaces it, so one lost ping makes the heartbeat take a node for terminated that has just answered.
- `C84_revived_refuted`: Refuted: a node found disconnected stays so until it has been reached again. The task of an earlier ping may report its answer afterwards, and no more pings follow, because the timer has been stopped.
- `C85_one_missing_refuted`: Refuted: the statistics are given whenever the coordinator can be asked. One assigned shard that does not run on its (other) node — it has not been started yet, or has just been stopped — makes the request fail.
- `C85_left_out_refuted`: Refuted: the statistics have an entry for every shard in the total. A shard of the own node that is not running is left out without a word.
- `C85_empty_lists_refuted`: Refuted: the node's statistics list the shards it counts. The lists are always empty.
- `C85_counted_twice_refuted`: Refuted: the node's statistics count each shard once. A shard that is both hosted and referred to (`C46_both_refuted`) is counted twice.
- `C86_revived_refuted`: Refuted: a node that has left stays out. The report of an answered ping that was on its way arrives after the notice; the node that has left is healthy again, and even the leader again.
- `C87_gap_refuted`: Refuted: a member is shown every message. What is said between the answer of the stream and the subscription is neither in the history nor received.
- `C87_twice_refuted`: Refuted: a member is shown each message once. A message that is in the history and still under way to the node of the peer is shown twice.
- `C87_order_refuted`: Refuted: members on another node are shown the messages in the order in which they were said.
- `C87_repeated_refuted`: Refuted: the history has each message once. A message stored by an attempt that seemed to fail is repeated after the stream has been started again.
- `C87_after_leaving_refuted`: Refuted: who has left is shown nothing more.
- `C87_joined_twice_refuted`: Refuted: joining twice does no harm. The whole history is shown again.
- `C87_failed_send_refuted`: Refuted: a request that fails is reported to the user. It ends the peer, whatever it does afterwards.
- `C88_panic_refuted`: Refuted: an actor ends with its stream. If the conversion of an item panics, the actor hears nothing more and lives on for ever, whatever becomes of the stream.
- `C88_deaf_peer_refuted`: Refuted: a client that misbehaves is disconnected. One frame of a known kind with a broken body, and its peer stays for ever, deaf, also after the client has gone.
- `C88_left_open_refuted`: Refuted: the stream is let go when its actor has ended. The task goes on reading, for no one.
- `C89_successor_refuted`: A reference held to an actor that has ended compares equal to that of the actor started in its place.
- `C89_top_refuted`: Two living actors at the top with the same id compare equal: nothing keeps an id from being used twice for actors that are not registered, and a tracked actor's successor replaces the entry while the first still runs.
- `C89_slash_refuted`: An id may contain a slash: an actor `a/b` at the top and the child `b` of the actor `a` have the same full path, and their children of the same id compare equal.
- `C89_supervised_refuted`: A child started by `new_supervised_actor`, as the entities of a shard are, has the name of the system for its path: the path does not tell where it stands, and the entities of the same id under two shards compare equal.
- `C89_attach_refuted`: An actor given its first child by `attach_child_ref` hands its own path, without its id, to the children it spawns after: the child's path is that of its parent, and it compares equal to an actor of the same id beside its parent.
- `C89_orphan_refuted`: An actor whose parent has ended may still be alive (where a handler of the parent panicked, its children are not stopped): the child of the actor started in the parent's place under the same id compares equal to it.
- `C90_disagree_refuted`: Two running copies do not agree: each has its own events only.
- `C90_numbers_refuted`: Two copies give their events the same numbers; reading the message of a number finds only the first.
- `C90_snapshot_refuted`: A snapshot loses what another copy wrote: it was taken without knowing of it, and what it stands for is counted by the number its own copy has reached.
- `C90_twice_refuted`: A snapshot makes events count twice: those its copy wrote are behind some of higher numbers of another copy, and are read again.
- `C90_trim_refuted`: Trimming removes what another copy wrote and no snapshot holds: it goes by the number of the trimming copy's own last snapshot.
- `C90_redis_once_refuted`: Over Redis two copies that write the same event store it once: both writes are acknowledged, one is lost, with no snapshot taken.
- `C91_stray_refuted`: Refuted: the entities of a shard end with it. One whose creation the shard has not heard of when it stops is never told to stop: once running, it runs until it ends by itself, whatever else happens.
- `C91_started_twice_refuted`: Refuted: with `StartEntity` messages, too, the entities of a shard end with it. Started a second time, an entity is running twice, and the first instance is not told to stop; if it ends before, the notice makes the shard forget the second instead.
- `C91_move_refuted`: Refuted: in an orderly run in the sense of C51, with no `StartEntity`, an entity is running twice. Node 1 has acknowledged the stop of the shard, node 2 has started it, and with it the entity, which on node 1 is running still, and has not even been told to stop.
- `C92_new_values_refuted`: Refuted for values of enums: a kind of error, a result of an allocation, a state of a singleton or a state of an entity with a number this version does not know is read, but using it panics, in the connection, in the request for the shard, in the manager and in the recovery of the shard.
- `C93_move_refuted`: Refuted: in an orderly run in the sense of C51 an event is acknowledged that the instance of the entity where its shard runs does not have.
- `C93_lost_refuted`: Refuted: and events can be lost for good. The instance on node 1, which nothing has told to stop, saves its state, which lacks what node 2 has acknowledged; whoever reads the journal afterwards does not find it.
- `C94_equal_refuted`: Refuted: an event written singly after a restart is acknowledged and applied, and gone after the next restart, when it equals the last one before.
- `C94_order_refuted`: Refuted: when it does not equal it, it may come back before it.
- `C94_trim_refuted`: Refuted: trimming removes the first event since the snapshot when it was a single one.
- `C95_start_refuted`: C95 fails on Redis when somebody sends `StartEntity` for an entity that has another recipe: after the first start finds events, the new event is given the number of the newest one, and sorts before it when its bytes do. The shard knows recipe 1; started again it knows recipe 2, the old one.
- `C95_lost_node_refuted`: a coordinator whose node is lost after the write and before the answer leaves a shard nobody was told about: it is known after the next start. The condition `completes` of `C95_coordinator_exact` is necessary.
- `C96_override_refuted`: Node 2 overrides addresses: it and node 3 have different addresses for node 1, and would connect to different places.
- `C96_override_placement_refuted`: Nodes 2 and 3 then know the same nodes, and look for the same actor on different nodes.
- `C96_reboot_refuted`: A node restarted with its id before it was taken for terminated: the other node keeps the account of the old process, although it was told of the new one, and the two nodes elect different leaders, both taking both for healthy.
- `C97_restart_refuted`: C97 does not hold of the code: no node is lost and nothing is under way; the coordinator is started again on the same node, with the same nodes. It does not know where the shard runs and places it on the other node, which starts it while the first goes on.
- `C97_left_behind_refuted`: C97 does not hold of the code: node 1 runs the shard and is taken to be unhealthy when the new coordinator starts on node 2. It is told nothing, neither then nor when it is found to be healthy. Both nodes serve the shard, and nothing is under way that would change it.
- `C97_stopped_refuted`: C97 does not hold of the code: the coordinator takes shard 0 from node 1 and ends; the new one places it on node 1; then the old request to stop takes effect. The coordinator has the shard on node 1, node 2 forwards requests to it there, it runs nowhere, and nothing is under way that would change it.
- `C98_entities_refuted`: Entities of two types with the same id and the same event names: a new order has what happened to the user of that number. No snapshot is taken and no write fails. In memory and over Redis.
- `C98_snapshot_refuted`: With different names, a snapshot of one entity makes the other lose its events: the number of the snapshot counts, although its type is not known. In memory and over Redis.
- `C98_twice_refuted`: With different names, an entity that takes snapshots has events counted twice, for the other's events have higher numbers.
- `C98_shard_refuted`: An entity whose id is the key of a shard makes the shard forget.
- `C99_sidecar_refuted`: A pod with a second container that declares no ports, as a sidecar does, makes discovery panic.
- `C99_hostname_refuted`: With host names, a pod without one (which is the rule outside of stateful sets) makes discovery panic, although the configuration says the names are used `if set`.
- `C99_ended_refuted`: A pod that has ended is given as a node.
- `C99_error_refuted`: An error of the API is given as a cluster without nodes.
- `C100_refused_refuted`: C100 as stated is false: a peer with a wrong token connects. The session store waits for the session to start; the session, which stops itself, waits for the session store. The peer with the right token that connects next never gets an answer.
- `C100_clients_refuted`: C100 as stated is false: the system shuts down while a client reconnects. The client registry waits for the client to stop; the client has just connected and waits for the client registry. The shutdown never returns.
- `C100_early_refuted`: C100 as stated is false: the peer closes the connection before it has identified itself. The client waits for the identity; the task that should hand it over waits for the client to take note of the end of the connection.
- `C100_shutdown_refuted`: C100 as stated is false: the scheduler stops while the handler of an actor looks up another one (cf. C68).
- `C101_null_refuted`: C101 refuted (null). The value `Some(v)` of an `Option` over a type with a value `v` written as `null` is read as `None`.
- `C101_deep_refuted`: C101 refuted (nesting). A value nested deeper than 127 is written without complaint and then not read.
- `C101_remote_refuted`: C101: with a remote actor the caller of a message with such a result gets another answer than with a local one: it answered `Some(v)`, and the caller is told `None`.
- `C102_unit_refuted`: C102 refuted. A path of several segments, a string that is not a type, or something else altogether is compiled with the result type `()`.
- `C103_waiting_refuted`: A pool with idle workers refuses tasks: once a worker has stopped it keeps its place, and every `n`-th task given to the pool, for ever, is answered with a closed channel.
- `C103_order_refuted`: Two tasks given one after the other, the second without waiting for the first, can be done in the wrong order, even by a single worker: the pool's actor spawns a send for each.
- `C103_panic_refuted`: A task can be begun and its caller told of a closed channel: the handler panicked.
- `C103_new_refuted`: If it fails at worker `f`, or at the pool's actor, the workers started before go on running: nothing stops them, and nobody has a reference to them any more.
- `C104_lost_refuted`: C104 (refuted: a lost handshake is not repeated): after one lost handshake all is quiet, the caller has been told that the discovery is done, node 1 has node 2 in its registry, and node 2 does not know node 1; and node 1 may be given node 2 again any number of times: no handshake is sent.
- `C104_early_refuted`: C104 (refuted: a caller may be told too early): no connection fails; the caller of 1, which was given 2 after 2 and 3 had come to know each other, has been told that the discovery is done, and 1 does not know 3 yet: the handshake of 2 to 1 is under way, and 1 does not wait for it.
- `C104_unreachable_refuted`: C104 (refuted: a node that cannot be reached is dropped): a node to which no connection can be made at that moment is not kept for later, and the caller is told that the discovery is done.
- `C105_circle_refuted`: C105 refuted if details differ: a session registers a connecting node under the address it sees if `override_incoming_node_addr` is set (`/repo/coerce/src/remote/net/server/session/mod.rs` 480-486), and the place on the ring comes from all details (`/repo/coerce/src/remote/cluster/node.rs` 82-89). Two nodes that know each other under other addresses than they know themselves can each hold the other responsible: one question after an actor that is not there goes back and forth for ever, long after the caller has been told `None`; every round leaves another request waiting on both nodes.
- `C105_before_join_refuted`: C105 refuted for actors started before their node joined: with details the same everywhere, nothing lost and nobody giving up, an actor started on a node before it knows the others stays in that node's own registry; nothing hands it over when nodes become known (`/repo/coerce/src/remote/actor/registry.rs` 73-84 only registers them), and any other node is told that there is no such actor.
- `C105_giveup_refuted`: C105 refuted for those who give up: an actor that runs and is registered is not found if an answer takes more than five seconds: the caller is told `None`, the same as for an actor that does not exist (`/repo/coerce/src/remote/system/actor.rs` 87-106).
- `C106_missed_ping_refuted`: C106 refuted (one ping). Whoever the leader is and however often it has just answered: if one result of a ping to it is not an answer — say an old ping is given up at last after `ping_timeout`, while thirty later ones have been answered — and the next tick comes before the next result, that tick takes another leader, and the leader itself knows nothing of it.
- `C106_split_refuted`: C106 refuted (cut off). A node that gets no answer from any other leads, whatever the others do: the parts of a cluster that cannot reach each other each have their leader; there is no quorum.
- `C106_two_leaders_refuted`: C106 refuted (two leaders). Two nodes know each other, answer each other and have agreed on the older one. One ping of the younger is given up after answers to later ones, and at the next tick there are two nodes each taking itself for the leader, both running, and both have announced it (as well as `MemberUp` with themselves or each other as leader).
- `C107_failed_start_refuted`: C107 refuted (a failed start). After the start of the singleton has failed, no instance is ever started again on any node of the cluster, whatever happens next and whoever becomes the leader: the manager that failed stays as it is, does not try again, and gives its lease to no other.
- `C108_order_refuted`: C108 refuted (order). Two messages sent on one node before the start are received the other way round.
- `C108_ended_refuted`: C108 refuted (after its end). Once the instance of the leader has ended (for whatever reason, even if its manager were told), it is never replaced: no instance runs again on any node and nothing more is received, on whichever node it is sent, as long as the leader stays.
- `C109_early_removal_refuted`: C109 refuted (told too early). Node 0 leads and crashes; node 1 is told of the crash, and only then that it is up, with itself for the leader. The list of nodes that comes with that news still has node 0, since nodes are never taken out of the store; so node 1 asks node 0 for its consent, and whatever happens then, unless it is told of a removal once more, it never starts the singleton.
- `C109_second_crash_refuted`: C109 refuted (a second crash). Node 0 leads and crashes. Node 1 has the consent of node 2 and is starting the singleton when node 2 crashes too; the news of that makes it count the consents again, find that none is missing and start a second instance.
- `C109_lost_refuted`: C109 refuted (lost from sight). Node 0 leads and runs the singleton. Node 1 no longer hears of it, forgets it and becomes the leader: with no other node to ask, it starts the singleton too, and both run.
- `C110_refuted`: C110 refuted. The instance is stopped because a node joins: node 2 joins, knows node 1, and has no answer of it by its second tick.
- `C110_hasty_joiner_refuted`: C110 refuted (hasty). A node that joins and knows `L`, but has no answer of an older node at its second tick, takes itself for the leader and asks `L`, which gives up: it stops the instance, and since the end of the instance is not told to the manager, nobody is ever given the lease. Neither the node that joined nor any node that knows it (and has not begun to start) ever starts the singleton again.
- `C110_alone_refuted`: C110 refuted (alone). A node that has registered itself and not found any other yet (a worker registers itself first and then looks for its seed) is told by its second tick that it leads, and starts an instance of its own. From then on there are two, and they both go on for as long as their nodes do, however well the nodes get to know each other.
- `C110_late_manager_refuted`: C110 refuted (late manager). A node whose manager is built after its heartbeat has announced `MemberUp` stays "joining" for ever: it never starts the singleton, whatever leader is elected. It answers no request either, so no node that knows it and has not begun to start ever starts the singleton.
- `C110_early_request_refuted`: C110 refuted (early request). A request that reaches a node whose manager has not been built yet is dropped. It is not repeated: the leader waits for the answer for ever, and never starts the singleton.
- `C110_untold_refuted`: C110 refuted (untold). The word that the singleton runs on `L` is sent to a node once, when `L` hears of it. If the node has not built its manager by then, its proxy holds back everything sent to the singleton for ever, while the singleton runs.
- `C112_silent_end_refuted`: C112 refuted (silent end). The process of `L` ends without its connections being found closed, so nobody takes it for removed. The heartbeat of `B` finds that no older node answers and makes `B` the leader; the manager of `B` asks all it knows, `L` among them, and waits for `L` for ever. Neither `B` nor any other node that knows `L` (and has no acknowledgement of it) ever starts the singleton again.
- `C112_out_of_sight_refuted`: C112 refuted (out of sight). `L` runs its instance, but `B` has taken it for removed and has no answer of an older node: it takes over although nobody has ended. From then on both run, for as long as they last, even if all nodes find each other again and agree on a leader.
- `C113_shut_out_refuted`: C113 (refuted: nodes that are there are used). A node that is in the registry, whose handshake is over and whose announcement is not waiting, and which the coordinator does not take for available, stays so: whatever happens, as long as no discovery message finds the node `Terminated` in the registry and the coordinator lives, no shard is assigned to the node. Discovery passes over nodes that are in the registry, `Forget` does not take them out, and the coordinator hears of nodes from discovery only. It is enough that the node was slow to answer a ping when the coordinator started, that the handshake failed once, or that a lost connection was made again before the heartbeat that would have noticed: what the client sends to discovery when it has connected again is then passed over.
- `C113_alive_unused_refuted`: C113 (refuted: nodes that are there are used). In particular as long as the registry never has the node as `Terminated`.
- `C113_gone_refuted`: C113 (refuted: nodes that are gone are not used). A node that has been forgotten, whose removal was published before the coordinator subscribed, and which the registry still had as `Healthy` when the coordinator asked, is taken for available as long as the coordinator lives and the node does not answer again: whatever the heartbeat finds out about it, even that it has terminated.
- `C114_shut_out_refuted`: C114 (refuted: everybody in the cluster). A node that is in the registry of node `i`, alive and connected or not, that is not addressed and whose announcement is not under way, never receives anything published on `i` again, whatever happens, unless the registry of `i` has it as `Terminated` at some time: discovery passes over the nodes of the registry. It is enough that the connection to it was lost and made again before the heartbeat's next turn.
- `C114_one_way_refuted`: C114 (refuted: both ways). Two nodes of which each can write to the other: what is published on node 2 reaches the subscriber on node 1, what is published on node 1 does not reach the subscriber on node 2. Nothing was lost, the publisher was told `Ok`, and everything is quiet.
- `C114_half_refuted`: C114 (refuted: all or none). A message that cannot be written as bytes is received by the subscribers of its own node and by no others, and the publisher is told that it failed; alone in the cluster it would be told `Ok`.
- `C114_lost_refuted`: C114 (refuted: everybody in the cluster). A message published while a node has no connection is lost for that node, although it is in the cluster before and after; the publisher is told `Ok`.
- `C115_big_leader_refuted`: Refuted: that the leader is shown whoever it is: a node whose id is 2^63 or more is shown as no leader.
- `C115_torn_refuted`: Refuted: that a reply is true at some moment. The leader is read before the directory is asked: here node 2 was leader only while it alone was known, and node 3 known only when it had become leader, but the reply shows both nodes and node 2 as the leader.
- `C115_no_cause_refuted`: Refuted: that an unhealthy node shows what is wrong. An actor that has ended and was started again, and registered again, leaves its old entry among the checks: the node stays unhealthy, but only the response of the new actor is shown.
- `C115_health_torn_refuted`: Refuted: that the health reply is true at some moment. Here the directory is read first: node 2 was known as joining only before it was elected, but the reply shows it joining and leading.
- `C115_twice_refuted`: Refuted: that an actor is listed once. A shard is known to the scheduler and is a child of its host, which is known to the scheduler too: by default it is shown twice.
- `C115_timeout_refuted`: Refuted: that the waiting time of the query counts: it changes nothing.
- `C116_late_refuted`: C116 refuted (late effects): a request that failed may take effect later than requests called after its failure: the writing of an entry fails, then the journal is deleted, which is acknowledged, a reading is told that there is nothing, and then the entry appears.
- `C116_dead_writer_refuted`: C116 refuted (a dead node writes): the node of an actor crashes while its event is on the way; its successor on another node recovers an empty journal and writes an event of its own, under the same number; then the event of the dead node arrives. Whoever reads the journal next has both, the unacknowledged one first, although the successor never saw it.
- `C116_sent_order_refuted`: C116 refuted (order of sending): requests do not take effect in the order in which they were put into the mailbox of the journal actor: a removal sent first and a writing sent next, both acknowledged, leave nothing.
- `C116_stall_refuted`: C116 refuted (one deletion stops all): while `delete_all` of one actor waits for Redis, whatever happens short of its end, no other actor of that node has its request served, for any other journal; had it been a removal of a range, the other request could be answered at once.
- `C117_dead_writer_refuted`: Refuted: without being careful. A node crashes while an event is being written, which nobody is told has been done. On another node the actor is started and is as it was before. It is started once more, nothing having been written by anybody meanwhile, and now the event is there: the command of the dead node has reached Redis.
- `C117_gave_up_refuted`: Refuted: without a crash. An actor gives up writing an event after one attempt, which it is told has failed, and goes on with another, which has the same number. When it is started again both are there.
- `C117_removed_refuted`: Refuted: with removals, making changes again is not enough. A writing fails, is made again and answered, what was written is removed, and then the first command reaches Redis: the entry is back, which no order of the answered calls explains.
- `C118_inside_refuted`: An actor created by a task of the runtime with `new_actor_blocking` is there and will run, and is registered if it is tracked; but the call panics, so that nobody has a reference to it.
- `C118_outside_refuted`: On a thread that knows of no runtime `new_actor_blocking` always panics, and there is no actor.
- `C118_silent_refuted`: A handler that calls `send_blocking` panics, with the message on its way: the actor asked handles it, counts it and answers into nothing.
- `C119_lost_refuted`: C119 refuted (lost). A connection that breaks with a request on it leaves the caller waiting for ever.
- `C119_unconnected_refuted`: C119 refuted (no client). A call made while A has no client registered for B - before the first connection has been made, or after the client has given up - or while the client hangs, is dropped with a warning in the log: the caller waits for ever, whatever happens afterwards.
- `C119_large_refuted`: C119 refuted (large answer). With every connection sound, an answer whose frame is above the limit is dropped by the session with an error in the log: the message has been handled and the caller waits for ever.
- `C119_cannot_tell_refuted`: C119 refuted (cannot tell). There are two histories that node A cannot tell apart, ending with the same call waiting for ever: in one the message has been handled, in the other it never will be. So a caller who repeats the call has it carried out twice in the one and once in the other.
- `C119_order_refuted`: C119 refuted (order). Two requests written one after the other to one connection that never breaks are handled in the other order: each is handled by a task of its own.
- `C120_back_refuted`: Refuted: what was trimmed is gone. The trim of this day was answered, and it was carried out twice, but in the end the event it removed is in the journal again, below the snapshot.
- `C120_single_refuted`: Refuted: that single events are safe. An actor saves its state and trims its journal; the trim fails. It writes a single event, which is acknowledged, and which has the number of the snapshot. Now the command of the trim reaches Redis and removes it: when the actor is started again the event is lost. (Nothing of this is at odds with `SafeOnRedis`, under which C94 finds single events to be safe on a Redis that does all at once.)
- `C121_session_refuted`: C121 refuted, sessions. One fatal frame, from whatever peer, and a running session is never told: whatever arrives later, it stays up, is not asked to stop, and nothing that arrives has any effect any more.
- `C121_client_refuted`: C121 refuted, clients. One fatal frame to a client that has been introduced, and it is never told: it stays connected as far as it knows, and whoever waits for a reply that comes on this connection, pings included, waits for ever.
- `C121_early_refuted`: C121 refuted, early. If the connection ends before the client has been introduced, or a handshake of this version comes first, the client and the task wait for each other: whatever arrives later, the client is neither introduced nor told, and does not learn that it waits in vain. (Had the frame been garbled, it would have.)
- `C121_waits_refuted`: C121 refuted, waiting. A caller who waits when such a frame has come waits for ever, whatever arrives on the connection, its own answer included, and whatever else is asked.
- `C121_newer_refuted`: C121 refuted, versions. The frame need not be garbled. An error of a kind that a newer version may have added, well formed and for a request that was made, ends the reading at either end.
- `C122_late_refuted`: A write of a node that crashed can take effect when copies on other nodes already run: of two copies started after the crash, one after the other, with nothing asked for and nothing reported in between, the first does not know the event and the second does.
- `C122_disagree_refuted`: Copies that run do not hear of each other's events, though all is reported and nothing fails.
- `C122_once_refuted`: The same event reported to two copies is stored once.
- `C122_order_refuted`: Events are not applied in the order in which they were reported: the last one reported, asked for when all others had been, comes before another for every copy started later.
- `C123_refused_refuted`: C123 as stated is false: a request whose id is no UUID is not refused, the reading of it panics.
- `C124_put_off_refuted`: That an arrival is always followed by a rebalance is not so: nodes that come less than 500 ms after one another put it off as long as they keep coming, with a prompt runtime too.
- `C124_twice_refuted`: That a burst of arrivals is followed by one rebalance needs the promptness: the task that is cancelled in time but polled late may still send (`select!` takes either of two branches that are ready). Here two nodes come 400 ms apart, and two rebalances are handled.
- `C125_dead_refuted`: That `Running` means that the singleton runs is not so: when the instance ends by itself and the manager is told, it goes on reporting `Running`.
- `C125_idle_refuted`: That `Idle` means that it does not run is not so: after a repeated acknowledgement two were started, the manager stops the second for another node, and reports `Idle` while the first runs.
- `C125_starting_refuted`: That `Starting` means that it will run is not so: after a failed start nothing is under way.
- `C125_remote_refuted`: Another node cannot ask: whatever bytes it sends, they are not read as `GetStatus`.

## What is modelled

Lines cited by definitions (ranges merged), file by file.

- `coerce/Cargo.toml`: 83
- `coerce/macros/src/lib.rs`: 28-92
- `coerce/macros/src/message/json.rs`: 9-27, 32-57
- `coerce/macros/src/snapshot/json.rs`: 10-18
- `coerce/src/actor/blocking.rs`: 12-98
- `coerce/src/actor/context.rs`: 24-46, 61-62, 89-91, 106-112, 162-262, 347-455
- `coerce/src/actor/describe/mod.rs`: 25-30, 43-137, 154-213, 225-253
- `coerce/src/actor/lifecycle.rs`: 18-24, 35-37, 41-45, 49-175
- `coerce/src/actor/message/mod.rs`: 61-104, 114-191, 205-209, 251-255
- `coerce/src/actor/mod.rs`: 206-256, 291-313, 465-512, 521-525, 552
- `coerce/src/actor/refs/mod.rs`: 42-44, 135-138, 150-153, 182-197, 242-246, 284-303, 382-506, 517-519
- `coerce/src/actor/scheduler/mod.rs`: 23-48, 57-86, 111-176, 188-291
- `coerce/src/actor/scheduler/timer.rs`: 19-21, 59-125
- `coerce/src/actor/supervised.rs`: 13-40, 48-177, 184-186
- `coerce/src/actor/system/mod.rs`: 22-246
- `coerce/src/actor/watch/watchers.rs`: 15-21
- `coerce/src/actor/worker.rs`: 13-142
- `coerce/src/persistent/actor.rs`: 18-140, 154-296
- `coerce/src/persistent/batch.rs`: 15-19
- `coerce/src/persistent/context.rs`: 6-47
- `coerce/src/persistent/failure.rs`: 8-56, 117-123
- `coerce/src/persistent/journal/mod.rs`: 1-464
- `coerce/src/persistent/journal/proto/journal.rs`: 87-138
- `coerce/src/persistent/journal/provider.rs`: 19-299
- `coerce/src/persistent/journal/storage.rs`: 7-54, 59-70, 76-91
- `coerce/src/persistent/journal/types.rs`: 17-102
- `coerce/src/persistent/recovery.rs`: 15-19, 23-101
- `coerce/src/protocol/network.proto`: 8-185, 194-269
- `coerce/src/protocol/persistent/journal.proto`: 5-11
- `coerce/src/protocol/sharding.proto`: 5-154
- `coerce/src/protocol/singleton.proto`: 5-43
- `coerce/src/remote/actor/clients.rs`: 13-16, 20-24, 42-116
- `coerce/src/remote/actor/mod.rs`: 16-32, 38-41, 67-72
- `coerce/src/remote/actor/registry.rs`: 21-26, 52-56, 64-233
- `coerce/src/remote/actor_ref.rs`: 52-131
- `coerce/src/remote/api/cluster/mod.rs`: 29-66, 76-123
- `coerce/src/remote/api/sharding/cluster.rs`: 66-82, 86-229, 242
- `coerce/src/remote/api/sharding/mod.rs`: 15-29, 45-51
- `coerce/src/remote/api/sharding/node.rs`: 22-27, 44-109
- `coerce/src/remote/api/system/actors.rs`: 10-22, 29-58, 86-167
- `coerce/src/remote/api/system/mod.rs`: 76-87, 96-114
- `coerce/src/remote/cluster/builder/worker.rs`: 12-17, 49-151
- `coerce/src/remote/cluster/discovery/mod.rs`: 18-24, 55-335
- `coerce/src/remote/cluster/node.rs`: 16-27, 41-65, 72-77, 82-187, 202-217, 236-251, 270-289
- `coerce/src/remote/config/mod.rs`: 17-27, 40-103
- `coerce/src/remote/handler.rs`: 78-94, 134-168, 177-179, 186-214, 220-240, 247-371, 380-382
- `coerce/src/remote/heartbeat/health.rs`: 40-44, 50-134
- `coerce/src/remote/heartbeat/mod.rs`: 31-49, 83, 88-133, 144-150, 176-479
- `coerce/src/remote/net/client/connect.rs`: 34-114, 122-343
- `coerce/src/remote/net/client/mod.rs`: 35-46, 58-86, 105-190, 200-249, 270-274
- `coerce/src/remote/net/client/ping.rs`: 29-110
- `coerce/src/remote/net/client/receive.rs`: 22-27, 44-49, 59-161
- `coerce/src/remote/net/client/send.rs`: 20-133
- `coerce/src/remote/net/message.rs`: 15-38, 54-290
- `coerce/src/remote/net/mod.rs`: 82-112
- `coerce/src/remote/net/proto/network.rs`: 101-137, 167-191, 296-314, 334-346, 496-544, 588-624, 726-741, 758-767, 887-911, 939-957, 1069-1087, 1107-1119, 1227-1245, 1266-1278, 1393-1414, 1437-1452, 1555-1570, 1587-1596, 1716-1740, 1766-1784, 1896-1914, 1934-1946, 2054-2072, 2093-2105, 2241-2271, 2303-2327, 2464-2491, 2521-2542, 2663-2684, 2707-2722, 2825-2840, 2858-2867, 2966-2981, 2999-3008, 3107-3122, 3139-3148, 3254-3272, 3293-3305, 3413-3431, 3451-3463, 3599-3629, 3661-3685
- `coerce/src/remote/net/security/auth/jwt.rs`: 10-19, 31-65
- `coerce/src/remote/net/security/auth/mod.rs`: 4-9, 27-34
- `coerce/src/remote/net/server/mod.rs`: 58-85, 96-149
- `coerce/src/remote/net/server/session/mod.rs`: 41-48, 58-59, 73-412, 437-647
- `coerce/src/remote/net/server/session/store.rs`: 9-73
- `coerce/src/remote/stream/mediator/mod.rs`: 21-26, 62-64, 95-277
- `coerce/src/remote/stream/pubsub.rs`: 19-27, 58-95, 119-122, 131-182, 197-230
- `coerce/src/remote/stream/system.rs`: 16-32, 43-155
- `coerce/src/remote/system/actor.rs`: 16-25, 35-276
- `coerce/src/remote/system/builder.rs`: 51-54, 140-142, 199-203, 232-238, 253-334
- `coerce/src/remote/system/cluster.rs`: 22, 33-60
- `coerce/src/remote/system/mod.rs`: 47, 56-69
- `coerce/src/remote/system/rpc.rs`: 14-207
- `coerce/src/sharding/coordinator/allocation.rs`: 17-34, 43-200, 218-310, 323-333
- `coerce/src/sharding/coordinator/balancing.rs`: 22-175
- `coerce/src/sharding/coordinator/discovery.rs`: 14-71
- `coerce/src/sharding/coordinator/factory.rs`: 20-26
- `coerce/src/sharding/coordinator/mod.rs`: 30-44, 52-125, 145-154, 161-168
- `coerce/src/sharding/coordinator/stats.rs`: 11-49, 69-148
- `coerce/src/sharding/host/mod.rs`: 26-68, 82-106, 129-148, 157-163, 178-376, 381-402, 416-429, 443-462, 476-493
- `coerce/src/sharding/host/request.rs`: 18-181, 202-242
- `coerce/src/sharding/host/stats.rs`: 22-28, 34-82
- `coerce/src/sharding/mod.rs`: 70-107, 165-214
- `coerce/src/sharding/proto/sharding.rs`: 80-95, 112-121, 220-235, 252-261, 353-365, 380-386, 476-488, 502-508, 612-630, 650-662, 770-788, 808-820, 928-946, 966-980, 1227-1254, 1284-1305, 1407-1419, 1433-1439, 1537-1552, 1569-1578, 1670-1682, 1696-1702, 1792-1804, 1818-1824, 1928-1946, 1967-1979, 2089-2107, 2127-2139, 2226-2235, 2246-2249, 2351-2369, 2389-2401, 2516-2537, 2562-2577, 2665-2674, 2685-2688, 2790-2808, 2828-2840
- `coerce/src/sharding/shard/message.rs`: 8-25, 34-51, 65-80, 94-109
- `coerce/src/sharding/shard/mod.rs`: 36-44, 77-88, 107-179, 208-503
- `coerce/src/sharding/shard/recovery.rs`: 36-47, 51-154
- `coerce/src/sharding/shard/stats.rs`: 16-34, 50-71
- `coerce/src/singleton/manager/lease.rs`: 11-185
- `coerce/src/singleton/manager/mod.rs`: 25-63, 74-89, 120-135, 139-228, 232-430, 435-447, 461-473
- `coerce/src/singleton/manager/start.rs`: 18-69
- `coerce/src/singleton/manager/status.rs`: 19-25, 29-95
- `coerce/src/singleton/mod.rs`: 39-43, 53-126
- `coerce/src/singleton/proto/singleton.rs`: 73-85, 99-105, 195-207, 221-227, 317-329, 343-349, 439-451, 465-471, 561-573, 587-593, 683-695, 709-715, 805-817, 831-837, 927-939, 953-959
- `coerce/src/singleton/proxy/mod.rs`: 9-30, 62-103
- `coerce/src/singleton/proxy/send.rs`: 8-77
- `examples/coerce-sharded-chat-example/src/actor/peer/message.rs`: 8-13, 28-54, 60-87, 92-110, 118-152
- `examples/coerce-sharded-chat-example/src/actor/peer/mod.rs`: 26-33, 55-65, 69-210
- `examples/coerce-sharded-chat-example/src/actor/stream/mod.rs`: 9-15, 64-69, 77-141
- `examples/coerce-sharded-chat-example/src/protocol/chat.proto`: 7-33
- `examples/coerce-sharded-chat-example/src/protocol/chat.rs`: 73-85, 99-105, 202-217, 235-244, 336-348, 362-368, 458-470, 485-491, 602-623, 648-663
- `examples/coerce-sharded-chat-example/src/websocket/client/mod.rs`: 100-108
- `providers/discovery/coerce-k8s/src/config.rs`: 1-40
- `providers/discovery/coerce-k8s/src/lib.rs`: 16-76
- `providers/persistence/coerce-redis/src/journal/actor.rs`: 9-73, 82-274
- `providers/persistence/coerce-redis/src/journal/mod.rs`: 31-38, 86-119, 127-291

## What is not modelled

Source files of the `coerce` crate with no definition in the model:

`actor/event/dispatcher.rs`, `actor/event/mod.rs`, `actor/metrics/mod.rs`, `actor/system/builder.rs`, `actor/watch/mod.rs`, `lib.rs`, `persistent/inspect/mod.rs`, `persistent/journal/proto/mod.rs`, `persistent/journal/snapshot.rs`, `persistent/mod.rs`, `remote/actor/message.rs`, `remote/api/builder.rs`, `remote/api/metrics/mod.rs`, `remote/api/mod.rs`, `remote/api/openapi.rs`, `remote/api/sharding/routes.rs`, `remote/cluster/builder/client.rs`, `remote/cluster/builder/mod.rs`, `remote/cluster/client/mod.rs`, `remote/cluster/discovery/dns.rs`, `remote/cluster/mod.rs`, `remote/mod.rs`, `remote/net/metrics.rs`, `remote/net/proto/mod.rs`, `remote/net/security/mod.rs`, `remote/stream/alerts.rs`, `remote/stream/mod.rs`, `remote/tracing/mod.rs`, `sharding/builder.rs`, `sharding/coordinator/stream.rs`, `sharding/proto/mod.rs`, `sharding/shard/passivation/mod.rs`, `singleton/factory.rs`, `singleton/proto/mod.rs`.

These are the HTTP and metrics interfaces, most builders, logging and tracing, test helpers, module declarations, and thin wrappers. Also not modelled: the `coerce_test` macro and the example crates beyond the lines cited above; the generated protobuf files beyond reading and writing of the cited messages; `Drop` of references; log output.

## Axioms per theorem

- C01 [propext, Classical.choice, Quot.sound]: `Persist.C01_replay_without_snapshots`, `Persist.C01_replay_any_outcome`, `Persist.mem_recovery_exact`
- C01 [propext, Quot.sound]: `Persist.persist_call_is_history`
- C02 [propext, Classical.choice, Quot.sound]: `Persist.C02_snapshot_recovery_partial`, `Persist.mem_recovery_exact`
- C02 [propext]: `Persist.C02_sound_partial`, `Persist.C02_refuted_lost_ack`
- C02 [propext, Quot.sound]: `Persist.C02_refuted`
- C03 [propext, Quot.sound]: `Persist.C03_ok_stored_once`, `Persist.C03_ok_stored_once_mem`, `Persist.C03_ok_batch_stored_once`, `Persist.C03_ok_snapshot_stored_once`, `Persist.C03_err_unchanged`, `Persist.C03_redis_once`
- C03 [none]: `Persist.C03_lost_ack_duplicates`
- C04 [propext, Classical.choice, Quot.sound]: `Persist.C04_sequence_monotone`
- C04 [none]: `Persist.C04_lost_ack_refuted`
- C05 [propext, Classical.choice, Quot.sound]: `Persist.C05_trim_invisible_mem`, `Persist.C08_redis_replay_partial`, `Persist.C08_redis_batches_only_partial`
- C05 [propext, Quot.sound]: `Persist.C05_redis_refuted`
- C05 [propext]: `Persist.C05_trim_call`
- C06 [propext, Classical.choice, Quot.sound]: `Persist.C06_range_read_partial`, `Persist.C06_panic_iff`, `Persist.C06_exact`
- C06 [propext, Quot.sound]: `Persist.C06_read_message`
- C06 [propext]: `Persist.C06_redis_range`, `Persist.C06_refuted_panic`, `Persist.C06_refuted_extra`, `Persist.C06_refuted_missing`
- C07 [propext, Classical.choice, Quot.sound]: `Persist.C07_entry_roundtrip`, `Persist.C07_entry_injective`
- C08 [propext, Classical.choice, Quot.sound]: `Persist.C08_redis_replay_partial`, `Persist.C08_redis_batches_only_partial`, `Persist.C08_redis_nothing_lost_partial`
- C08 [propext, Quot.sound]: `Persist.C08_refuted_order`, `Persist.C08_refuted_duplicate`
- C09 [propext, Quot.sound]: `Persist.C09_max_attempts_ok`, `Persist.C09_max_attempts_err`, `Persist.C09_max_attempts_bound`, `Persist.C09_until_success`, `Persist.C09_batch_snapshot_bound`, `Persist.C09_recovery`, `Persist.C09_recovery_waiting`, `Persist.C09_pending_attempts`
- C09 [propext]: `Persist.C09_stop_policy`, `Persist.C09_stop_exact`, `Persist.C09_empty_batch`
- C10 [propext, Quot.sound]: `Persist.C10_mem_independent`
- C10 [propext, Classical.choice, Quot.sound]: `Persist.C10_redis_independent`, `Persist.C10_redis_keys_injective`, `Persist.C10_delete_all`
- C11 [propext, Classical.choice, Quot.sound]: `Persist.C11_unknown_skipped`, `Persist.C04_sequence_monotone`
- C11 [propext]: `Persist.C11_counters_unaffected`
- C12 [propext, Quot.sound]: `Actor.C12_fifo`, `Actor.C12_nothing_lost`, `Actor.C12_one_at_a_time`, `Actor.C12_at_most_once`, `Actor.C12_before_stop`, `Actor.C12_progress`
- C13 [propext, Quot.sound]: `Actor.C13_own_result`, `Actor.C13_handled_is_answered`
- C13 [propext, Classical.choice, Quot.sound]: `Actor.C13_at_most_one`, `Actor.C13_exactly_one`, `Actor.C13_stop_exactly_one`
- C14 [propext, Quot.sound]: `Actor.C14_lifecycle`, `Actor.C14_complete`, `Actor.C14_status_forward`, `Actor.C14_status_seen`, `Actor.C14_starter`, `Actor.C14_starter_answered`
- C15 [propext, Classical.choice, Quot.sound]: `Actor.C15_watchers_partial`, `Actor.C15_not_early`, `Actor.C15_panic_silent`
- C15 [propext]: `Actor.C15_refuted`
- C16 [propext, Quot.sound]: `Actor.C16_children`, `Actor.C16_reuse`, `Actor.C16_stop_all`, `Actor.C16_stop_all_only`, `Actor.C16_family_refuted`, `Actor.C16_stale_notice_refuted`, `Actor.C16_stop_all_rest`
- C16 [propext]: `Actor.C16_spawn_refused`, `Actor.C16_stop_all_count`
- C16 [propext, Classical.choice, Quot.sound]: `Actor.C16_family_partial`
- C17 [propext, Quot.sound]: `Actor.C17_refuted`, `Actor.C17_dead_ref_refuted`, `Actor.C17_lookup_partial`, `Actor.C17_quiet_partial`
- C18 [propext, Quot.sound]: `Actor.C18_round_robin`, `Actor.C18_fair`, `Actor.C18_all_served`
- C18 [propext]: `Actor.C18_empty_pool`
- C19 [propext, Quot.sound]: `Remote.C19_outstanding`, `Remote.C19_answered`, `Remote.C19_at_most_once`, `Remote.C19_reply_completes_one`, `Remote.C19_unknown_reply_ignored`, `Remote.C19_duplicate_reply_ignored`, `Remote.C19_outstanding_partial`, `Remote.C19_failed_request_refuted`, `Remote.C19_responder_keeps_entries`, `Remote.C19_session_reply_clean_partial`
- C19 [propext]: `Remote.C19_reply_leak_refuted`
- C19 [propext, Classical.choice, Quot.sound]: `Remote.C19_pair_conserved`
- C20 [propext, Classical.choice, Quot.sound]: `Remote.C20_session_event_roundtrip`, `Remote.C20_client_event_roundtrip`, `Remote.C20_session_rejects`, `Remote.C20_client_rejects`, `Remote.C20_session_injective`, `Remote.C20_session_connection`, `Remote.C20_client_connection`, `Remote.C20_malformed_body_panics`
- C20 [propext, Quot.sound]: `Remote.C20_unwritable`, `Remote.C20_client_always_writable`, `Remote.C20_framing`
- C21 [none]: `Remote.C21_error_roundtrip`, `Remote.C21_injective`
- C21 [propext, Classical.choice, Quot.sound]: `Remote.C21_error_arrives`
- C22 [propext, Classical.choice, Quot.sound]: `Remote.C22_gate`, `Remote.C22_stopped`, `Remote.C22_accepts`, `Remote.C22_effect_needs_token`, `Remote.C22_identify_first`, `Remote.C22_effects_asked`
- C22 [propext, Quot.sound]: `Remote.C22_effect_asked`
- C23 [propext, Quot.sound]: `Remote.C23_lifetime_partial`, `Remote.C23_monotone`, `Remote.C23_huge_ttl_refuted`
- C23 [propext]: `Remote.C23_forged`
- C23 [none]: `Remote.C23_accepted_only`
- C24 [propext, Quot.sound]: `Remote.C24_byte_counter`, `Remote.C24_order_partial`, `Remote.C24_flushed_partial`, `Remote.C24_oversize_refuted`, `Remote.C24_oversize_blocks`, `Remote.C24_flush_breaks`
- C25 [propext, Quot.sound]: `Remote.C25_retries`, `Remote.C25_orderly_partial`, `Remote.C25_eleven_failures`, `Remote.C25_off_by_one_refuted`, `Remote.C25_late_report_refuted`
- C25 [propext]: `Remote.C25_success_resets`, `Remote.C25_closed_early_hangs`, `Remote.C25_closed_early_refuted`
- C26 [propext, Classical.choice, Quot.sound]: `Remote.C26_leader_partial`, `Remote.C26_order_irrelevant`, `Remote.C26_never_unhealthy`, `Remote.C26_big_ids_reannounced`
- C26 [propext, Quot.sound]: `Remote.C26_agree`, `Remote.C26_waiters`, `Remote.C26_big_ids_refuted`
- C27 [propext, Classical.choice, Quot.sound]: `Remote.C27_answered`, `Remote.C27_notice`
- C27 [none]: `Remote.C27_unpinged`, `Remote.C27_disconnected`
- C27 [propext, Quot.sound]: `Remote.C27_self`, `Remote.C27_missed_inverted`, `Remote.C27_error_twice_refuted`, `Remote.C27_clock_back_refuted`, `Remote.C27_last_heartbeat`, `Remote.C27_missed_after_answer`, `Remote.C27_self_seen`
- C27 [propext]: `Remote.C27_missed_refuted`
- C28 [propext, Quot.sound]: `Remote.C28_at_most_once`, `Remote.C28_large_cluster_refuted`, `Remote.C28_single_node_refuted`, `Remote.C28_announced_iff`
- C28 [propext, Classical.choice, Quot.sound]: `Remote.C28_members_partial`
- C28 [propext]: `Remote.C28_refuted`, `Remote.C28_published_only`
- C29 [propext, Classical.choice, Quot.sound]: `Remote.C29_owner_partial`, `Remote.C29_order_partial`, `Remote.C29_add_partial`, `Remote.C29_remove_partial`
- C29 [propext]: `Remote.C29_refuted`
- C29 [none]: `Remote.C29_added_twice_refuted`, `Remote.C29_updated_refuted`
- C30 [propext, Quot.sound]: `Remote.C30_added`, `Remote.C30_updated`, `Remote.C30_removed`, `Remote.C30_unknown`, `Remote.C30_terminated`, `Remote.C30_terminated_still_chosen_refuted`
- C30 [none]: `Remote.C30_terminated_refuted`, `Remote.C30_stale_update_refuted`
- C31 [propext, Quot.sound]: `Remote.C31_agree`, `Remote.C31_sound`, `Remote.C31_stale_refuted`
- C31 [propext, Classical.choice, Quot.sound]: `Remote.C31_found_partial`
- C31 [propext]: `Remote.C31_stale_instance_refuted`, `Remote.C31_view_refuted`, `Remote.C31_order_refuted`
- C32 [propext, Classical.choice, Quot.sound]: `Remote.C32_once`, `Remote.C32_failed_refuted`, `Remote.C32_removed_once`
- C32 [propext, Quot.sound]: `Remote.C32_known_address`, `Remote.C32_known_nodes`, `Remote.C32_announced_partial`, `Remote.C32_rediscover_partial`, `Remote.C32_failed_instance_refuted`, `Remote.C32_no_client_refuted`, `Remote.C32_forgotten_refuted`, `Remote.C32_alias_refuted`, `Remote.C32_forget`
- C33 [propext, Quot.sound]: `Remote.C33_prefix`, `Remote.C33_accepted`, `Remote.C33_complete_partial`, `Remote.C33_alive`, `Remote.C33_unsubscribed`, `Remote.C33_lag_refuted`, `Remote.C33_cluster_there`
- C33 [propext, Classical.choice, Quot.sound]: `Remote.C33_refuted`
- C33 [propext]: `Remote.C33_unsubscribe_refuted`, `Remote.C33_name_clash_refuted`, `Remote.C33_cluster_once_partial`, `Remote.C33_cluster_order_refuted`, `Remote.C33_cluster_here`
- C34 [propext, Quot.sound]: `Remote.C34_registered`, `Remote.C34_hangs_refuted`
- C34 [propext, Classical.choice, Quot.sound]: `Remote.C34_report_partial`, `Remote.C34_order`
- C34 [none]: `Remote.C34_same_id_refuted`
- C35 [propext, Quot.sound]: `Remote.C35_found`, `Remote.C35_missing`, `Remote.C35_no_handler`, `Remote.C35_direct`, `Remote.C35_one_reply`, `Remote.C35_at_most_one_reply`, `Remote.C35_malformed_id_refuted`, `Remote.C35_lookup_sound`, `Remote.C35_lookup_complete`, `Remote.C35_lookup_exact_partial`, `Remote.C35_shared_cache_refuted`
- C35 [propext, Classical.choice, Quot.sound]: `Remote.C35_bounded_lookups`, `Remote.C35_error_says_why`, `Remote.C35_success`, `Remote.C35_actor_error_lost_refuted`
- C35 [propext]: `Remote.C35_direct_result`
- C36 [propext, Classical.choice, Quot.sound]: `Remote.C36_cluster_event_roundtrip`, `Remote.C36_rejects`
- C36 [propext, Quot.sound]: `Remote.C36_always_writable`
- C37 [propext, Classical.choice, Quot.sound]: `Sharding.C37_consistent`, `Sharding.C37_one_host`, `Sharding.C37_available`
- C38 [propext, Classical.choice, Quot.sound]: `Sharding.C38_least_loaded`, `Sharding.C38_refused_iff`
- C39 [propext, Classical.choice, Quot.sound]: `Sharding.C39_stable_partial`, `Sharding.C39_from_answer_partial`
- C39 [propext, Quot.sound]: `Sharding.C39_restart_refuted`
- C40 [propext, Classical.choice, Quot.sound]: `Sharding.C40_lost`, `Sharding.C40_no_new_shards`
- C40 [propext, Quot.sound]: `Sharding.C40_in_flight`, `Sharding.C40_node_added`
- C41 [propext, Classical.choice, Quot.sound]: `Sharding.C41_takes`, `Sharding.C41_even`, `Sharding.C41_same_share_partial`
- C41 [propext, Quot.sound]: `Sharding.C41_unavailable_refuted`
- C42 [propext, Classical.choice, Quot.sound]: `Sharding.C42_no_loss`, `Sharding.C42_exact`, `Sharding.C42_exact_own_node`
- C42 [propext, Quot.sound]: `Sharding.C42_refused_recovered_refuted`
- C43 [propext, Quot.sound]: `Sharding.C43_placement`
- C43 [none]: `Sharding.C43_same`, `Sharding.C43_zero_shards`
- C44 [propext, Quot.sound]: `Sharding.C44_kept_in_order_partial`, `Sharding.C44_at_most_once`, `Sharding.C44_stop_while_starting_refuted`, `Sharding.C44_moved_while_starting_refuted`, `Sharding.C44_order_refuted`
- C45 [propext, Classical.choice, Quot.sound]: `Sharding.C45_ready_partial`
- C45 [propext, Quot.sound]: `Sharding.C45_completed`, `Sharding.C45_unanswered_refuted`, `Sharding.C45_keeps_running_refuted`
- C46 [propext, Quot.sound]: `Sharding.C46_routing`, `Sharding.C46_exclusive_partial`, `Sharding.C46_both_refuted`, `Sharding.C46_ended_for_good`
- C47 [propext, Classical.choice, Quot.sound]: `Sharding.C47_once_in_order_partial`, `Sharding.C47_one_instance_partial`, `Sharding.C47_failed_start_refuted`
- C47 [propext, Quot.sound]: `Sharding.C47_up`, `Sharding.C47_second_start_refuted`
- C48 [propext, Quot.sound]: `Sharding.C48_new_partial`, `Sharding.C48_restarted_partial`, `Sharding.C48_refused_refuted`, `Sharding.C48_stopped_refuted`
- C49 [propext, Quot.sound]: `Sharding.C49_known`, `Sharding.C49_restarts_since_snapshot`, `Sharding.C49_restarts_partial`, `Sharding.C49_restarted_once`, `Sharding.C49_running`, `Sharding.C49_unpersisted_refuted`
- C49 [propext]: `Sharding.C49_snapshot_refuted`
- C50 [propext, Quot.sound]: `Sharding.C50_allocate`, `Sharding.C50_stopped`
- C50 [propext, Classical.choice, Quot.sound]: `Sharding.C50_allocate_result`, `Sharding.C50_allocated`, `Sharding.C50_reallocating`, `Sharding.C50_stop`, `Sharding.C50_entity_request`, `Sharding.C50_start_entity`, `Sharding.C50_remove_entity`, `Sharding.C50_passivate_entity`, `Sharding.C50_snapshot`, `Sharding.C50_sharding_stats`, `Sharding.C50_shard_stats`
- C51 [propext, Classical.choice, Quot.sound]: `Sharding.C51_at_most_one_instance_partial`, `Sharding.C51_runs_where_assigned_partial`
- C51 [propext, Quot.sound]: `Sharding.C51_request_during_move_refuted`, `Sharding.C51_late_announcement_refuted`
- C52 [propext, Classical.choice, Quot.sound]: `Singleton.C52_at_most_one_instance_partial`, `Singleton.C52_two_nodes`
- C52 [propext, Quot.sound]: `Singleton.C52_at_most_one_instance_refuted`, `Singleton.C52_up_twice_refuted`
- C53 [propext, Classical.choice, Quot.sound]: `Singleton.C53_starts_once_partial`, `Singleton.C53_only_after_all_partial`
- C53 [propext, Quot.sound]: `Singleton.C53_repeated_ack_refuted`, `Singleton.C53_unknown_ack_refuted`, `Singleton.C53_node_leaves_refuted`, `Singleton.C53_node_joins_refuted`, `Singleton.C53_node_removed`
- C54 [propext, Quot.sound]: `Singleton.C54_running_stops`, `Singleton.C54_ended_grants`, `Singleton.C54_not_running_grants`, `Singleton.C54_joining_grants`, `Singleton.C54_joining_refuted`, `Singleton.C54_starting_refuted`
- C54 [propext, Classical.choice, Quot.sound]: `Singleton.C54_never_handed_over`, `Singleton.C54_new_leader_starts_refuted`
- C55 [propext, Quot.sound]: `Singleton.C55_nothing_lost_partial`, `Singleton.C55_own_proxy_not_told`
- C55 [propext]: `Singleton.C55_order_refuted`, `Singleton.C55_lost_refuted`
- C56 [propext, Classical.choice, Quot.sound]: `Singleton.C56_crash_exactly_partial`
- C56 [propext]: `Singleton.C56_notify_refuted`
- C57 [propext, Classical.choice, Quot.sound]: `Remote.C57_refuted`, `Remote.C57_refusal_blocks_everything`, `Remote.C57_malformed_frame_kills_store`, `Remote.C57_silence_blocks_everything`, `Remote.C57_good_peers_partial`
- C58 [propext, Quot.sound]: `Remote.C58_delivered_partial`, `Remote.C58_unknown_dropped`, `Remote.C58_one_client_per_address`, `Remote.C58_dead_client_kills_all`, `Remote.C58_refuted`, `Remote.C58_alias_refuted`, `Remote.C58_removed`, `Remote.C58_clients_distinct`
- C59 [propext]: `Remote.C59_refused`, `Remote.C59_race_refuted`, `Remote.C59_unanswered_refuted`, `Remote.C59_answer`
- C59 [propext, Classical.choice, Quot.sound]: `Remote.C59_refused_everywhere_partial`
- C59 [propext, Quot.sound]: `Remote.C59_redeploy_refuted`
- C60 [propext, Quot.sound]: `Remote.C60_seed`, `Remote.C60_chain_refuted`, `Remote.C60_two_hops_partial`
- C61 [propext, Classical.choice, Quot.sound]: `Sharding.C61_refused_partial`, `Sharding.C61_not_protobuf`, `Sharding.C61_panics_refuted`
- C61 [propext]: `Sharding.C61_unknown_type_refuted`
- C62 [propext, Classical.choice, Quot.sound]: `Singleton.C62_request`, `Singleton.C62_ack`, `Singleton.C62_started`, `Singleton.C62_stopped`, `Singleton.C62_status`
- C62 [propext]: `Singleton.C62_unknown_status_refuted`
- C63 [propext, Classical.choice, Quot.sound]: `Persist.C63_state_survives`, `Persist.C63_snapshots_partial`
- C63 [propext, Quot.sound]: `Persist.C63_refuted`, `Persist.C63_lost_ack_refuted`
- C64 [propext]: `Persist.C64_runs_only_recovered`, `Persist.C64_undecodable_stops`
- C64 [propext, Classical.choice, Quot.sound]: `Persist.C64_comes_up`, `Persist.C64_unreadable_stops`
- C65 [propext, Quot.sound]: `Persist.C65_types_roundtrip_partial`, `Persist.C65_still_readable`
- C65 [none]: `Persist.C65_collision_refuted`
- C66 [propext]: `Persist.C66_default_partial`
- C66 [none]: `Persist.C66_disabled_refuted`
- C67 [propext, Classical.choice, Quot.sound]: `Persist.C67_redis_set`, `Persist.C67_redis_ordered`, `Persist.C67_one_slot`, `Persist.C67_prefix_separates`, `Persist.redisKey_ok`
- C67 [propext]: `Persist.C67_prefix_collision_refuted`
- C68 [propext, Quot.sound]: `Actor.Shutdown.C68_returned_all_ended`, `Actor.Shutdown.C68_returns_iff`, `Actor.Shutdown.C68_stuck_forever`, `Actor.Shutdown.C68_refuted_handler`, `Actor.Shutdown.C68_refuted_race`, `Actor.Shutdown.C68_survivors`, `Actor.Shutdown.C68_nobody_waits`, `Actor.Shutdown.C68_remote_returns`, `Actor.Shutdown.C68_remote_alone`
- C69 [propext, Quot.sound]: `Actor.Timer.C69_one_at_a_time`, `Actor.Timer.C69_rate`, `Actor.Timer.C69_stop`, `Actor.Timer.C69_drop_refuted`
- C69 [propext]: `Actor.Timer.C69_gone`, `Actor.Timer.C69_ends_only`, `Actor.Timer.C69_gone_ends`, `Actor.Timer.C69_stop_ends`
- C69 [none]: `Actor.Timer.C69_zero`
- C70 [propext, Quot.sound]: `Actor.Timer.C70_once`
- C70 [propext]: `Actor.Timer.C70_sent`, `Actor.Timer.C70_cancelled_partial`
- C70 [none]: `Actor.Timer.C70_cancel_refuted`
- C71 [propext, Quot.sound]: `Actor.Describe.C71_one_each`, `Actor.Describe.C71_faithful`, `Actor.Describe.C71_depth`, `Actor.Describe.C71_complete`
- C72 [propext, Quot.sound]: `Actor.Describe.C72_bounded`, `Actor.Describe.C72_independent`, `Actor.Describe.C72_two_levels`, `Actor.Describe.C72_hidden_parent_refuted`, `Actor.Describe.C72_timeout_option_refuted`
- C73 [propext, Classical.choice, Quot.sound]: `Remote.Handshake.C73_identify_at_most_once`, `Remote.Handshake.C73_handshake_at_most_once`, `Remote.Handshake.C73_completed_partial`, `Remote.Handshake.C73_accounted`
- C73 [propext, Quot.sound]: `Remote.Handshake.C73_identify_answered`, `Remote.Handshake.C73_one_frame`, `Remote.Handshake.C73_attempts`, `Remote.Handshake.C73_stuck_refuted`, `Remote.Handshake.C73_crash_refuted`, `Remote.Handshake.C73_acknowledged`, `Remote.Handshake.C73_gives_up`
- C73 [propext]: `Remote.Handshake.C73_not_connected`, `Remote.Handshake.C73_stale_ack_refuted`, `Remote.Handshake.C73_identify_now`
- C74 [propext, Quot.sound]: `Remote.Handshake.C74_bound`, `Remote.Handshake.C74_one_timer_partial`, `Remote.Handshake.C74_refuted`, `Remote.Handshake.C74_reports`
- C74 [propext, Classical.choice, Quot.sound]: `Remote.Handshake.C74_leak`
- C75 [propext, Classical.choice, Quot.sound]: `Sharding.C75_one_place`, `Sharding.C75_one_answer`, `Sharding.C75_executed_once`, `Sharding.C75_truthful`, `Sharding.C75_refused`, `Sharding.C75_in_shard`
- C75 [propext, Quot.sound]: `Sharding.C75_made`, `Sharding.C75_shard_ends`
- C76 [propext, Classical.choice, Quot.sound]: `Sharding.C76_never_stuck_partial`, `Sharding.C76_quiet_partial`, `Sharding.C76_lost_refuted`
- C76 [propext, Quot.sound]: `Sharding.C76_failed_start_refuted`
- C77 [propext, Quot.sound]: `Remote.C77_handler_exact`, `Remote.C77_factory_exact`, `Remote.C77_name_leads_back`, `Remote.C77_named_iff`, `Remote.C77_all_sendable`, `Remote.C77_builtin`
- C77 [propext, Classical.choice, Quot.sound]: `Remote.C77_capabilities`, `Remote.C77_actor_name_refuted`, `Remote.C77_singletons`
- C77 [propext]: `Remote.C77_shared_name_refuted`
- C78 [propext, Classical.choice, Quot.sound]: `Sharding.Ids.C78_host_ids`, `Sharding.Ids.C78_shard_ids`, `Sharding.Ids.C78_journal_keys`, `Sharding.Ids.C78_reach_host`, `Sharding.Ids.C78_reach_shard`, `Sharding.Ids.C78_one_entity_partial`, `Sharding.Ids.C78_last_coordinator_refuted`, `Sharding.Ids.C78_last_manager_refuted`
- C78 [propext]: `Sharding.Ids.C78_odd_names_refuted`
- C79 [propext, Quot.sound]: `Remote.C79_no_seed`, `Remote.C79_joins`, `Remote.C79_gives_up`, `Remote.C79_asks_iff`, `Remote.C79_address`, `Remote.C79_no_answer_panics`, `Remote.C79_self_seed_refuted`, `Remote.C79_silent_refuted`
- C80 [propext, Classical.choice, Quot.sound]: `Remote.C80_at_most_once`, `Remote.C80_all_answered`, `Remote.C80_not_early`, `Remote.C80_false_only_unidentified`, `Remote.C80_discovery_undisturbed`
- C80 [propext, Quot.sound]: `Remote.C80_at_once`, `Remote.C80_true_refuted`, `Remote.C80_second_request_refuted`
- C81 [propext, Classical.choice, Quot.sound]: `Remote.C81_send`, `Remote.C81_missing`, `Remote.C81_unsendable`, `Remote.C81_result_lost`, `Remote.C81_notify`, `Remote.C81_closed_refuted`, `Remote.C81_notify_missing_refuted`, `Remote.C81_notify_reply_refuted`
- C82 [propext, Quot.sound]: `Remote.C82_conserved`, `Remote.C82_any_order`, `Remote.C82_order_refuted`
- C82 [propext, Classical.choice, Quot.sound]: `Remote.C82_waiting_sender`
- C83 [propext, Classical.choice, Quot.sound]: `Remote.C83_local`, `Remote.C83_local_reason`, `Remote.C83_remote`, `Remote.C83_silent_refuted`, `Remote.C83_unreachable_refuted`, `Remote.C83_own_node_refuted`, `Remote.C83_empty_id_refuted`
- C84 [propext, Classical.choice, Quot.sound]: `Remote.C84_truth`, `Remote.C84_once`, `Remote.C84_none_lost`, `Remote.C84_ends`, `Remote.C84_table`, `Remote.C84_in_order_partial`, `Remote.C84_leak_refuted`, `Remote.C84_overtaken_refuted`, `Remote.C84_revived_refuted`
- C85 [propext, Classical.choice, Quot.sound]: `Sharding.C85_coordinator`, `Sharding.C85_cluster`, `Sharding.C85_given_iff`, `Sharding.C85_node_total_partial`, `Sharding.C85_one_missing_refuted`
- C85 [propext, Quot.sound]: `Sharding.C85_host`, `Sharding.C85_left_out_refuted`, `Sharding.C85_counted_twice_refuted`
- C85 [none]: `Sharding.C85_empty_lists_refuted`
- C86 [propext, Classical.choice, Quot.sound]: `Remote.C86_healthy_iff`, `Remote.C86_told`, `Remote.C86_out_partial`
- C86 [propext, Quot.sound]: `Remote.C86_parting_iff`
- C86 [propext]: `Remote.C86_revived_refuted`
- C87 [propext, Quot.sound]: `Chat.C87_history`, `Chat.C87_shown`, `Chat.C87_once_partial`, `Chat.C87_failed_send_refuted`, `Chat.C87_rejoin_keeps`
- C87 [propext]: `Chat.C87_gap_refuted`, `Chat.C87_twice_refuted`, `Chat.C87_order_refuted`, `Chat.C87_repeated_refuted`, `Chat.C87_after_leaving_refuted`, `Chat.C87_joined_twice_refuted`
- C88 [propext, Classical.choice, Quot.sound]: `Chat.C88_in_order`, `Chat.C88_ends`, `Chat.C88_only_then`, `Chat.C88_client_frames`, `Chat.C88_conversation`, `Chat.C88_panic_iff`, `Chat.C88_panic_refuted`, `Chat.C88_deaf_peer_refuted`, `Chat.C88_close_stops`, `Chat.C88_stays`
- C88 [propext, Quot.sound]: `Chat.C88_ends_soon`, `Chat.C88_left_open_refuted`
- C89 [propext, Classical.choice, Quot.sound]: `Actor.Path.C89_path`, `Actor.Path.C89_path_partial`, `Actor.Path.C89_equal_partial`, `Actor.Path.C89_successor`
- C89 [propext]: `Actor.Path.C89_successor_refuted`, `Actor.Path.C89_top_refuted`, `Actor.Path.C89_slash_refuted`, `Actor.Path.C89_supervised_refuted`, `Actor.Path.C89_attach_refuted`, `Actor.Path.C89_orphan_refuted`
- C90 [propext, Classical.choice, Quot.sound]: `Persist.Copies.C90_copies`, `Persist.Copies.C90_next`, `Persist.Copies.C90_blind`, `Persist.Copies.C90_handover_partial`
- C90 [propext, Quot.sound]: `Persist.Copies.C90_disagree_refuted`, `Persist.Copies.C90_redis_once_refuted`
- C90 [propext]: `Persist.Copies.C90_numbers_refuted`, `Persist.Copies.C90_snapshot_refuted`, `Persist.Copies.C90_twice_refuted`, `Persist.Copies.C90_trim_refuted`
- C91 [propext, Classical.choice, Quot.sound]: `Sharding.C91_one_each`, `Sharding.C91_survivors`, `Sharding.C91_all_end_partial`, `Sharding.C91_once_partial`, `Sharding.C91_stray_refuted`
- C91 [propext, Quot.sound]: `Sharding.C91_started_twice_refuted`, `Sharding.C91_move_refuted`
- C92 [propext, Classical.choice, Quot.sound]: `Proto.C92_varint`, `Proto.C92_network`, `Proto.C92_sharding`, `Proto.C92_singleton`, `Proto.C92_chat`, `Proto.C92_journal`, `Proto.C92_rearranged`, `Proto.C92_any_order`, `Proto.C92_map_last`
- C92 [propext, Quot.sound]: `Proto.C92_new_values_refuted`, `Proto.C92_truncated`
- C93 [propext, Classical.choice, Quot.sound]: `Sharding.C93_keeps_partial`, `Sharding.C93_redis_partial`
- C93 [propext, Quot.sound]: `Sharding.C93_move_refuted`, `Sharding.C93_lost_refuted`, `Sharding.C93_copies`, `Sharding.C93_moves`
- C94 [propext, Classical.choice, Quot.sound]: `Persist.C94_redis_partial`, `Persist.C94_batches`, `Persist.C94_commuting_partial`, `Persist.C94_handover_partial`, `Persist.C94_as_one`
- C94 [propext, Quot.sound]: `Persist.C94_equal_refuted`, `Persist.C94_order_refuted`, `Persist.C94_trim_refuted`
- C95 [propext, Quot.sound]: `Sharding.C95_policy`, `Sharding.C95_lost_node_refuted`
- C95 [propext, Classical.choice, Quot.sound]: `Sharding.C95_coordinator_reachable`, `Sharding.C95_coordinator_no_loss`, `Sharding.C95_coordinator_exact`, `Sharding.C95_coordinator_same`, `Sharding.C95_shard_partial`, `Sharding.C95_shard_memory`, `Sharding.C95_shard_forever_partial`, `Sharding.C95_storages`, `Sharding.C95_start_refuted`, `Sharding.C95_shard_same`
- C96 [propext, Classical.choice, Quot.sound]: `Remote.Gossip.C96_identity`, `Remote.Gossip.C96_handshake`, `Remote.Gossip.C96_port`, `Remote.Gossip.C96_agree_partial`, `Remote.Gossip.C96_override_partial`, `Remote.Gossip.C96_self_partial`, `Remote.Gossip.C96_history`, `Remote.Gossip.C96_no_panic`, `Remote.Gossip.C96_selector_partial`, `Remote.Gossip.C96_leader_partial`, `Remote.Gossip.C96_placement_partial`, `Remote.Gossip.C96_can_learn`, `Remote.Gossip.C96_can_spread`, `Remote.Gossip.C96_override_refuted`, `Remote.Gossip.C96_override_placement_refuted`, `Remote.Gossip.C96_reboot_refuted`
- C96 [propext]: `Remote.Gossip.C96_selects`
- C97 [propext, Classical.choice, Quot.sound]: `Sharding.C97_one_instance_partial`, `Sharding.C97_where_partial`, `Sharding.C97_remembers`, `Sharding.C97_told_partial`, `Sharding.C97_heals_partial`, `Sharding.C97_can_heal_partial`
- C97 [propext, Quot.sound]: `Sharding.C97_restart_refuted`, `Sharding.C97_left_behind_refuted`, `Sharding.C97_stopped_refuted`, `Sharding.C97_crash`
- C98 [propext, Classical.choice, Quot.sound]: `Sharding.Keys.C98_keys`, `Sharding.Keys.C98_group`, `Sharding.Keys.C98_own`, `Sharding.Keys.C98_names_partial`
- C98 [propext, Quot.sound]: `Sharding.Keys.C98_entities_refuted`, `Sharding.Keys.C98_snapshot_refuted`
- C98 [propext]: `Sharding.Keys.C98_twice_refuted`, `Sharding.Keys.C98_shard_refuted`
- C99 [propext, Quot.sound]: `K8s.C99_found_partial`, `K8s.C99_phase`
- C99 [propext, Classical.choice, Quot.sound]: `K8s.C99_panic_iff`, `K8s.C99_default`
- C99 [propext]: `K8s.C99_sidecar_refuted`, `K8s.C99_hostname_refuted`, `K8s.C99_ended_refuted`, `K8s.C99_error_refuted`
- C100 [propext, Classical.choice, Quot.sound]: `Actor.Waits.C100_answered`, `Actor.Waits.C100_framework_partial`, `Actor.Waits.C100_knot_only`, `Actor.Waits.C100_self`
- C100 [propext, Quot.sound]: `Actor.Waits.C100_knot_stays`, `Actor.Waits.C100_knot_unanswered`, `Actor.Waits.C100_knot_grows`, `Actor.Waits.C100_refused_refuted`, `Actor.Waits.C100_clients_refuted`, `Actor.Waits.C100_early_refuted`, `Actor.Waits.C100_shutdown_refuted`
- C101 [propext, Classical.choice, Quot.sound]: `Json.C101_read_back_partial`, `Json.C101_types`, `Json.C101_remote`, `Json.C101_newer`, `Json.C101_older`, `Json.C101_distinct`, `Json.C101_null_refuted`, `Json.C101_deep_refuted`, `Json.C101_remote_refuted`
- C102 [propext]: `Json.C102_taken_partial`, `Json.C102_unit_refuted`
- C102 [propext, Quot.sound]: `Json.C102_refused`
- C103 [propext, Classical.choice, Quot.sound]: `Actor.Pool.C103_once`, `Actor.Pool.C103_true`, `Actor.Pool.C103_untouched`, `Actor.Pool.C103_answered`, `Actor.Pool.C103_ends`
- C103 [propext, Quot.sound]: `Actor.Pool.C103_assigned`, `Actor.Pool.C103_served`, `Actor.Pool.C103_only_dead`, `Actor.Pool.C103_waiting_partial`, `Actor.Pool.C103_waiting_refuted`, `Actor.Pool.C103_order_refuted`, `Actor.Pool.C103_panic_refuted`, `Actor.Pool.C103_empty`, `Actor.Pool.C103_stop_pool`, `Actor.Pool.C103_new_partial`, `Actor.Pool.C103_new_refuted`
- C104 [propext, Classical.choice, Quot.sound]: `Remote.Peering.C104_only`, `Remote.Peering.C104_mutual`, `Remote.Peering.C104_far`, `Remote.Peering.C104_exact`, `Remote.Peering.C104_ends`, `Remote.Peering.C104_stuck`, `Remote.Peering.C104_answered`, `Remote.Peering.C104_no_more`, `Remote.Peering.C104_told`, `Remote.Peering.C104_told_all`, `Remote.Peering.C104_join`
- C104 [propext, Quot.sound]: `Remote.Peering.C104_lost_refuted`, `Remote.Peering.C104_early_refuted`, `Remote.Peering.C104_unreachable_refuted`
- C105 [propext, Classical.choice, Quot.sound]: `Remote.Lookup.C105_no_circle`, `Remote.Lookup.C105_ends`, `Remote.Lookup.C105_account`, `Remote.Lookup.C105_answered`, `Remote.Lookup.C105_found_partial`, `Remote.Lookup.C105_circle_refuted`, `Remote.Lookup.C105_before_join_refuted`, `Remote.Lookup.C105_giveup_refuted`
- C105 [propext, Quot.sound]: `Remote.Lookup.C105_moves`, `Remote.Lookup.C105_true`
- C106 [propext, Classical.choice, Quot.sound]: `Remote.OneLeader.C106_no_panic`, `Remote.OneLeader.C106_agreement_partial`, `Remote.OneLeader.C106_exactly_one_partial`, `Remote.OneLeader.C106_dead_never_leads_partial`, `Remote.OneLeader.C106_stays`, `Remote.OneLeader.C106_missed_ping_refuted`, `Remote.OneLeader.C106_split_refuted`, `Remote.OneLeader.C106_two_leaders_refuted`, `Remote.OneLeader.C106_ends`, `Remote.OneLeader.C106_answers`
- C107 [propext, Classical.choice, Quot.sound]: `Singleton.C107_steps_partial`, `Singleton.C107_only_leader_partial`, `Singleton.C107_runs_partial`, `Singleton.C107_reachable_partial`, `Singleton.C107_failed_start_refuted`
- C108 [propext, Classical.choice, Quot.sound]: `Singleton.C108_accounted_partial`, `Singleton.C108_one_instance_partial`, `Singleton.C108_no_error_partial`, `Singleton.C108_delivered_partial`, `Singleton.C108_reachable_partial`, `Singleton.C108_ended_refuted`
- C108 [propext, Quot.sound]: `Singleton.C108_order_refuted`
- C109 [propext, Classical.choice, Quot.sound]: `Singleton.C109_steps_partial`, `Singleton.C109_only_leader_partial`, `Singleton.C109_runs_partial`, `Singleton.C109_reachable_partial`, `Singleton.C109_last_partial`
- C109 [propext, Quot.sound]: `Singleton.C109_early_removal_refuted`, `Singleton.C109_second_crash_refuted`, `Singleton.C109_lost_refuted`
- C110 [propext, Classical.choice, Quot.sound]: `Singleton.Joint.C110_only_there_partial`, `Singleton.Joint.C110_goes_on_partial`, `Singleton.Joint.C110_told_partial`, `Singleton.Joint.C110_refuted`, `Singleton.Joint.C110_hasty_joiner_refuted`, `Singleton.Joint.C110_alone_refuted`, `Singleton.Joint.C110_late_manager_refuted`, `Singleton.Joint.C110_early_request_refuted`, `Singleton.Joint.C110_untold_refuted`
- C110 [propext, Quot.sound]: `Singleton.Joint.C110_can_be_told`
- C111 [propext, Classical.choice, Quot.sound]: `Json.C111_understood`, `Json.C111_refused`, `Json.C111_one_meaning`, `Json.C111_one_value`, `Json.C111_written`
- C112 [propext, Classical.choice, Quot.sound]: `Singleton.Joint.C112_takes_over_partial`, `Singleton.Joint.C112_only_successor_partial`, `Singleton.Joint.C112_goes_on_partial`, `Singleton.Joint.C112_silent_end_refuted`, `Singleton.Joint.C112_out_of_sight_refuted`
- C113 [propext, Classical.choice, Quot.sound]: `Sharding.Hosts.C113_none_missed`, `Sharding.Hosts.C113_registered`, `Sharding.Hosts.C113_last_word`, `Sharding.Hosts.C113_gone`, `Sharding.Hosts.C113_steady`, `Sharding.Hosts.C113_comes_back`, `Sharding.Hosts.C113_shut_out_refuted`, `Sharding.Hosts.C113_alive_unused_refuted`, `Sharding.Hosts.C113_gone_refuted`, `Sharding.Hosts.C113_not_itself`, `Sharding.Hosts.C113_removed_once`
- C113 [propext, Quot.sound]: `Sharding.Hosts.C113_work`, `Sharding.Hosts.C113_stopped`
- C114 [propext, Classical.choice, Quot.sound]: `Remote.Topics.C114_addressees`, `Remote.Topics.C114_once`, `Remote.Topics.C114_everybody_partial`, `Remote.Topics.C114_rest`, `Remote.Topics.C114_steady`, `Remote.Topics.C114_comes_back`, `Remote.Topics.C114_shut_out_refuted`, `Remote.Topics.C114_not_itself`, `Remote.Topics.C114_told`
- C114 [propext, Quot.sound]: `Remote.Topics.C114_mediator`, `Remote.Topics.C114_prefix`, `Remote.Topics.C114_reaches`, `Remote.Topics.C114_one_way_refuted`, `Remote.Topics.C114_half_refuted`, `Remote.Topics.C114_lost_refuted`, `Remote.Topics.C114_dead`
- C114 [propext]: `Remote.Topics.C114_answer`
- C115 [propext, Quot.sound]: `Remote.Api.C115_nodes`, `Remote.Api.C115_leader_tag`, `Remote.Api.C115_answered`, `Remote.Api.C115_elected`, `Remote.Api.C115_not_elected`, `Remote.Api.C115_known`, `Remote.Api.C115_health`, `Remote.Api.C115_checks`, `Remote.Api.C115_times`, `Remote.Api.C115_all_actors`, `Remote.Api.C115_types`, `Remote.Api.C115_all_stats`, `Remote.Api.C115_big_leader_refuted`, `Remote.Api.C115_timeout_refuted`
- C115 [propext, Classical.choice, Quot.sound]: `Remote.Api.C115_steady`, `Remote.Api.C115_status`, `Remote.Api.C115_health_given`, `Remote.Api.C115_cause_partial`, `Remote.Api.C115_outcome`, `Remote.Api.C115_truthful`
- C115 [propext]: `Remote.Api.C115_actors`, `Remote.Api.C115_torn_refuted`, `Remote.Api.C115_no_cause_refuted`, `Remote.Api.C115_health_torn_refuted`, `Remote.Api.C115_twice_refuted`
- C116 [propext, Classical.choice, Quot.sound]: `Persist.Shared.C116_explained`, `Persist.Shared.C116_once`, `Persist.Shared.C116_ends`, `Persist.Shared.C116_own`, `Persist.Shared.C116_read_back`, `Persist.Shared.C116_latest`, `Persist.Shared.C116_commands`, `Persist.Shared.C116_free`, `Persist.Shared.C116_delete_holds_up`, `Persist.Shared.C116_stall_refuted`
- C116 [propext, Quot.sound]: `Persist.Shared.C116_readings`, `Persist.Shared.C116_methods`, `Persist.Shared.C116_down`, `Persist.Shared.C116_late_refuted`, `Persist.Shared.C116_dead_writer_refuted`, `Persist.Shared.C116_sent_order_refuted`
- C117 [propext, Classical.choice, Quot.sound]: `Persist.Client.C117_own`, `Persist.Client.C117_alone`, `Persist.Client.C117_survives_partial`, `Persist.Client.C117_batches`, `Persist.Client.C117_keys`
- C117 [propext, Quot.sound]: `Persist.Client.C117_persists`, `Persist.Client.C117_dead_writer_refuted`, `Persist.Client.C117_gave_up_refuted`, `Persist.Client.C117_removed_refuted`
- C118 [propext, Quot.sound]: `Actor.Blocking.C118_as_awaited_partial`, `Actor.Blocking.C118_actors`, `Actor.Blocking.C118_awaited`, `Actor.Blocking.C118_registered`, `Actor.Blocking.C118_ended`, `Actor.Blocking.C118_waits`
- C118 [propext, Classical.choice, Quot.sound]: `Actor.Blocking.C118_panics`, `Actor.Blocking.C118_true`, `Actor.Blocking.C118_result`, `Actor.Blocking.C118_returns`, `Actor.Blocking.C118_inside_refuted`, `Actor.Blocking.C118_outside_refuted`
- C118 [propext]: `Actor.Blocking.C118_silent_refuted`
- C119 [propext, Classical.choice, Quot.sound]: `Remote.Trip.C119_once_partial`, `Remote.Trip.C119_told`, `Remote.Trip.C119_actor`, `Remote.Trip.C119_waits`, `Remote.Trip.C119_nothing_lost`, `Remote.Trip.C119_answerable`, `Remote.Trip.C119_code`, `Remote.Trip.C119_lost_waits`, `Remote.Trip.C119_lost_refuted`, `Remote.Trip.C119_unconnected_refuted`, `Remote.Trip.C119_large_refuted`, `Remote.Trip.C119_cannot_tell_refuted`, `Remote.Trip.C119_waiting_order`, `Remote.Trip.C119_reads_on`, `Remote.Trip.C119_frames`, `Remote.Trip.C119_cut_off`, `Remote.Trip.C119_renewed`, `Remote.Trip.C119_renewed_back`
- C119 [propext, Quot.sound]: `Remote.Trip.C119_order_refuted`, `Remote.Trip.C119_removed`, `Remote.Trip.C119_one_client`
- C120 [propext, Classical.choice, Quot.sound]: `Persist.Trims.C120_range`, `Persist.Trims.C120_latest`, `Persist.Trims.C120_one`, `Persist.Trims.C120_survives_partial`
- C120 [propext, Quot.sound]: `Persist.Trims.C120_again`, `Persist.Trims.C120_back_refuted`, `Persist.Trims.C120_single_refuted`
- C121 [propext, Classical.choice, Quot.sound]: `Remote.Readers.C121_session_fatal`, `Remote.Readers.C121_client_fatal`, `Remote.Readers.C121_session_told`, `Remote.Readers.C121_client_told`, `Remote.Readers.C121_session_over`, `Remote.Readers.C121_client_over`, `Remote.Readers.C121_own_session`, `Remote.Readers.C121_own_client`, `Remote.Readers.C121_session_partial`, `Remote.Readers.C121_client_partial`, `Remote.Readers.C121_introduced`, `Remote.Readers.C121_shaken`, `Remote.Readers.C121_table`, `Remote.Readers.C121_session_refuted`, `Remote.Readers.C121_client_refuted`, `Remote.Readers.C121_early_refuted`, `Remote.Readers.C121_waits_refuted`, `Remote.Readers.C121_newer_refuted`, `Remote.Readers.C121_shut_down`, `Remote.Readers.C121_introduced_once`
- C122 [propext, Classical.choice, Quot.sound]: `Persist.Flock.C122_known`, `Persist.Flock.C122_asked`, `Persist.Flock.C122_starts`, `Persist.Flock.C122_keys`, `Sharding.C122_coordinators`, `Sharding.C122_shards`
- C122 [propext, Quot.sound]: `Persist.Flock.C122_late_refuted`, `Persist.Flock.C122_disagree_refuted`, `Persist.Flock.C122_once_refuted`, `Persist.Flock.C122_order_refuted`, `Persist.Flock.C122_crash`, `Persist.Flock.C122_apart`, `Persist.Flock.C122_empty`, `Persist.Flock.C122_left_behind`, `Persist.Flock.C122_waits`
- C123 [propext, Classical.choice, Quot.sound]: `Uuid.C123_parse`, `Uuid.C123_read_back`, `Uuid.C123_messages`, `Uuid.C123_panics`, `Uuid.C123_length`, `Uuid.C123_refused_refuted`
- C124 [propext, Quot.sound]: `Sharding.Debounce.C124_arrivals`, `Sharding.Debounce.C124_at_most`, `Sharding.Debounce.C124_quiet`, `Sharding.Debounce.C124_follows_partial`, `Sharding.Debounce.C124_twice_refuted`
- C124 [propext, Classical.choice, Quot.sound]: `Sharding.Debounce.C124_put_off_refuted`, `Sharding.Debounce.C124_even`
- C125 [propext, Classical.choice, Quot.sound]: `Singleton.Status.C125_status`, `Singleton.Status.C125_running_partial`, `Singleton.Status.C125_none_partial`, `Singleton.Status.C125_one_partial`
- C125 [propext, Quot.sound]: `Singleton.Status.C125_dead_refuted`, `Singleton.Status.C125_idle_refuted`, `Singleton.Status.C125_starting_refuted`
- C125 [none]: `Singleton.Status.C125_remote_refuted`
