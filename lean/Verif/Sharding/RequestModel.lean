import Verif.Sharding.HostLemmas
import Verif.Sharding.ShardLemmas

/-!
# A request to a sharded entity, from caller to entity and back

`Sharded::send` (`/repo/coerce/src/sharding/mod.rs` 165-202) on any number of nodes, put together from
the host (`HostModel`) and the shard (`ShardModel`), with the tasks and frames between them. A request is
known by the number of its result channel (a new channel for every call). `remote_entity_request` makes a
fresh uuid for a request it forwards; here the request keeps its number, so distinct uuids are assumed.
The allocator is a function `f` of the entity (C43). Coordinator, directory of actors and network are
the environment: they can do anything at any time, except duplicate a frame. Not modelled: requests that
cannot be encoded or have no handler on the caller's node (answered at once, 169-181), a caller that stops
waiting, and a shard host that stops.
-/

namespace Verif.Sharding

/-- What a caller gets: the entity's result, an error from the shard, an error of `handle_direct`, or
`ResultChannelClosed`. (`/repo/coerce/src/sharding/host/request.rs` 35-67 and 123-181;
`/repo/coerce/src/remote/handler.rs` 308-371.) -/
inductive Ans where
  | ok (v : Nat)
  | err (e : EErr)
  | failed
  | closed
deriving DecidableEq, Repr

/-- what becomes of a call of `handle_direct`, `/repo/coerce/src/remote/handler.rs` 308-371: the entity
handles the message and its result `v` is encoded; it is handled but the result cannot be encoded; or it
is not handled (undecodable, wrong type, or the entity is gone). -/
inductive Outcome where
  | handled (v : Nat)
  | unencodable (v : Nat)
  | unhandled
deriving DecidableEq, Repr

/-- the task of `handle_request`, `/repo/coerce/src/sharding/host/request.rs` 43-64, on node `n`: send `r`
to instance `a` of shard `s`. -/
structure ShardTask where
  n : Nat
  s : Nat
  a : Nat
  r : EReq
deriving DecidableEq, Repr

/-- a `RemoteEntityRequest` on its way to shard `s` on node `n`,
`/repo/coerce/src/sharding/host/request.rs` 144-155. -/
structure EFrame where
  n : Nat
  s : Nat
  r : EReq
deriving DecidableEq, Repr

/-- the task of `Entity::request`, `/repo/coerce/src/sharding/shard/mod.rs` 367-375: `r` is given to
instance `i` of entity `e`, in shard `s`. -/
structure ERun where
  s : Nat
  e : Nat
  i : Nat
  r : EReq
deriving DecidableEq, Repr

/-- All nodes. `shards` are the running shard actors by node, shard and instance. `relayed` are the
requests that were forwarded to another node: on that node `Handler<RemoteEntityRequest>` has put a
channel of its own into the request, `/repo/coerce/src/sharding/shard/mod.rs` 457-503. `table` are the
requests registered with `push_request` at their origin. `lost`, `executed` and `sent` are ghosts:
requests whose frame or reply is gone, what entities did (entity, request, result), what was asked. -/
structure Net where
  hosts : Assoc Nat (Host EReq) := []
  shards : Assoc (Nat × Nat × Nat) Shard := []
  tasks : List ShardTask := []
  frames : List EFrame := []
  running : List ERun := []
  relayed : List Nat := []
  table : List Nat := []
  replies : List (Nat × Ans) := []
  answers : List (Nat × Ans) := []
  lost : List Nat := []
  executed : List (Nat × Nat × Nat) := []
  sent : List EReq := []

/-- a result channel is used, or dropped (`closed`). A relayed request's channel is that of the task in
`Handler<RemoteEntityRequest>`, which then sends a reply frame to the origin,
`/repo/coerce/src/sharding/shard/mod.rs` 482-502. -/
def Net.resolve (σ : Net) (l : List (EReq × Ans)) : Net :=
  { σ with
      replies := σ.replies ++ (l.filter fun p => σ.relayed.contains p.1.id).map fun p => (p.1.id, p.2)
      answers := σ.answers ++ (l.filter fun p => !σ.relayed.contains p.1.id).map fun p => (p.1.id, p.2) }

/-- the task that an output of the host of node `n` is, if it is a request to an instance there,
`/repo/coerce/src/sharding/host/request.rs` 35-67. -/
def HostOut.task (n : Nat) : HostOut EReq → Option ShardTask
  | .deliver s a r => some ⟨n, s, a, r⟩
  | _ => none

/-- the frame that an output of a host is, if it is a request to another node,
`/repo/coerce/src/sharding/host/request.rs` 123-181. -/
def HostOut.frame : HostOut EReq → Option EFrame
  | .forward n s r => some ⟨n, s, r⟩
  | _ => none

/-- what a host of node `n` sends: tasks for shards on the node, or `remote_entity_request`,
`/repo/coerce/src/sharding/host/request.rs` 123-181, which registers the request first. -/
def Net.emit (σ : Net) (n : Nat) (outs : List (HostOut EReq)) : Net :=
  { σ with
      tasks := σ.tasks ++ outs.filterMap (HostOut.task n)
      frames := σ.frames ++ outs.filterMap HostOut.frame
      relayed := σ.relayed ++ (outs.filterMap HostOut.frame).map (·.r.id)
      table := σ.table ++ (outs.filterMap HostOut.frame).map (·.r.id) }

/-- `l` without the elements of `m`. (Compares the requests before and after `Handler<EntityRequest>`,
`/repo/coerce/src/sharding/host/request.rs` 70-121.) -/
def minus {α : Type} [DecidableEq α] (l m : List α) : List α := m.foldl List.erase l

/-- A message at the host of node `n`. A request that the host had, or got, and neither keeps nor passes on is
dropped, and with it the sender of its result channel. (`/repo/coerce/src/sharding/host/request.rs` 70-121,
`/repo/coerce/src/sharding/host/mod.rs` 178-373.) -/
def Net.hostStep (f : Nat → Nat) (σ : Net) (n : Nat) (op : HostOp EReq) : Net :=
  match σ.hosts.get n with
  | none => σ
  | some h =>
    let g := fun r : EReq => f r.entity
    let s := op.shard g
    let outs := (h.step g op).2
    let dropped := minus (h.kept s ++ (op.brings g s).toList) ((h.next g op).kept s ++ outs.filterMap (HostOut.sent s))
    (({ σ with hosts := σ.hosts.insert n (h.next g op) }).emit n outs).resolve (dropped.map fun r => (r, Ans.closed))

/-- the instance that ends with an operation of the host. (`/repo/coerce/src/sharding/host/mod.rs` 329-363.) -/
def HostOp.ends (h : Host EReq) : HostOp EReq → Option (Nat × Nat)
  | .stopDone t => if t ∈ h.stops then some (t.s, t.a) else none
  | .closed s a => if (s, a) ∈ h.closing then some (s, a) else none
  | _ => none

/-- everything waiting in a shard. (`/repo/coerce/src/sharding/shard/mod.rs` 107-132.) -/
def Shard.waitingAll (σ : Shard) : List EReq := σ.entities.flatMap fun p => p.2.st.buf

/-- a shard actor ends; the requests waiting in it are dropped. (`/repo/coerce/src/sharding/host/mod.rs` 329-363.) -/
def Net.endShard (σ : Net) (k : Nat × Nat × Nat) : Net :=
  match σ.shards.get k with
  | none => σ
  | some sh => ({ σ with shards := σ.shards.erase k }).resolve (sh.waitingAll.map fun r => (r, .closed))

/-- the call of an entity that an output of shard `s` is, `/repo/coerce/src/sharding/shard/mod.rs` 341-378. -/
def ShardOut.run (s : Nat) : ShardOut → Option ERun
  | .deliver e i r => some ⟨s, e, i, r⟩
  | .error _ _ _ => none

/-- the answer that an output of a shard is, `/repo/coerce/src/sharding/shard/mod.rs` 381-454. -/
def ShardOut.refused : ShardOut → Option (EReq × Ans)
  | .deliver _ _ _ => none
  | .error _ r x => some (r, .err x)

/-- A message at a shard actor. `Handler<StartEntity>` replaces the entity, and drops what was waiting for
it (`/repo/coerce/src/sharding/shard/mod.rs` 324-332). -/
def Net.shardStep (σ : Net) (k : Nat × Nat × Nat) (op : ShardOp) : Net :=
  match σ.shards.get k with
  | none => σ
  | some sh =>
    let dropped := match op with
      | .startEntity e _ _ => sh.buffer e
      | _ => []
    ({ σ with shards := σ.shards.insert k (sh.next op)
              running := σ.running ++ (sh.step op).2.filterMap (ShardOut.run k.2.1) }).resolve
      ((sh.step op).2.filterMap ShardOut.refused ++ dropped.map fun r => (r, Ans.closed))

/-- what can happen (`/repo/coerce/src/sharding/host/request.rs` 35-181, `/repo/coerce/src/sharding/shard/mod.rs`
227-503, `/repo/coerce/src/remote/handler.rs` 308-371). -/
inductive NetOp where
  /-- `Sharded::send` on node `n`. -/
  | send (n : Nat) (r : EReq)
  /-- any message but a request at the host of node `n`. -/
  | host (n : Nat) (op : HostOp EReq)
  /-- the actor of a shard has recovered, from journal `j`. -/
  | boot (n s a : Nat) (j : List JEntry)
  /-- any message but a request at a shard. -/
  | shard (k : Nat × Nat × Nat) (op : ShardOp)
  /-- a task reaches its shard, or finds it gone. `ok`: whether the shard's journal write succeeds. -/
  | take (t : ShardTask) (ok : Bool)
  /-- a frame is handled by instance `a` of its shard. -/
  | arrive (x : EFrame) (a : Nat) (ok : Bool)
  /-- a frame is lost with its connection, or finds no actor for its shard: the error is sent back for
  the id of the frame, which nobody waits for (`/repo/coerce/src/remote/actor_ref.rs` 64-67,
  `/repo/coerce/src/remote/net/server/session/mod.rs` 556-562). -/
  | lose (x : EFrame)
  /-- a request given to an entity is done. -/
  | run (x : ERun) (o : Outcome)
  /-- a reply reaches its origin. -/
  | reply (p : Nat × Ans)
  /-- a reply is lost with its connection. -/
  | loseReply (p : Nat × Ans)

/-- the operations of a host that come from outside it and are not requests.
(`/repo/coerce/src/sharding/host/request.rs` 70-121.) -/
def HostOp.isRequest : HostOp EReq → Bool
  | .request _ => true
  | _ => false

/-- the same for a shard (`/repo/coerce/src/sharding/shard/mod.rs` 381-454). -/
def ShardOp.isRequest : ShardOp → Bool
  | .request _ _ => true
  | _ => false

/-- the end of `handle_direct`. (`/repo/coerce/src/remote/handler.rs` 308-371.) -/
def Outcome.ans : Outcome → Ans
  | .handled v => .ok v
  | .unencodable _ => .failed
  | .unhandled => .failed

/-- what the entity did. (`/repo/coerce/src/remote/handler.rs` 308-371.) -/
def Outcome.effect (e k : Nat) : Outcome → List (Nat × Nat × Nat)
  | .handled v => [(e, k, v)]
  | .unencodable v => [(e, k, v)]
  | .unhandled => []

/-- one step (`/repo/coerce/src/sharding/host/request.rs` 35-181, `/repo/coerce/src/sharding/shard/mod.rs` 227-503,
`/repo/coerce/src/remote/handler.rs` 308-371). -/
def Net.step (f : Nat → Nat) (σ : Net) : NetOp → Net
  | .send n r =>
    if (σ.hosts.get n).isSome ∧ r.id ∉ σ.sent.map (·.id) then
      ({ σ with sent := σ.sent ++ [r] } : Net).hostStep f n (.request r)
    else σ
  | .host n op =>
    if op.isRequest then σ else
    match (σ.hosts.get n).bind op.ends with
    | some (s, a) => (σ.hostStep f n op).endShard (n, s, a)
    | none => σ.hostStep f n op
  | .boot n s a j =>
    match σ.shards.get (n, s, a) with
    | some _ => σ
    | none => { σ with shards := σ.shards.insert (n, s, a) (Shard.boot j) }
  | .shard k op => if op.isRequest then σ else σ.shardStep k op
  | .take t ok =>
    if t ∈ σ.tasks then
      match σ.shards.get (t.n, t.s, t.a) with
      | some _ => ({ σ with tasks := σ.tasks.erase t } : Net).shardStep (t.n, t.s, t.a) (.request t.r ok)
      | none => ({ σ with tasks := σ.tasks.erase t } : Net).resolve [(t.r, .closed)]
    else σ
  | .arrive x a ok =>
    if x ∈ σ.frames ∧ (σ.shards.get (x.n, x.s, a)).isSome then
      ({ σ with frames := σ.frames.erase x } : Net).shardStep (x.n, x.s, a) (.request x.r ok)
    else σ
  | .lose x =>
    if x ∈ σ.frames then { σ with frames := σ.frames.erase x, lost := σ.lost ++ [x.r.id] } else σ
  | .run x o =>
    if x ∈ σ.running then
      ({ σ with running := σ.running.erase x, executed := σ.executed ++ o.effect x.e x.r.id } : Net).resolve [(x.r, o.ans)]
    else σ
  | .reply p =>
    -- `pop_request`, then the waiting `remote_entity_request` passes the answer on, request.rs 163-172
    if p ∈ σ.replies then
      if p.1 ∈ σ.table then
        { σ with replies := σ.replies.erase p, table := σ.table.erase p.1, answers := σ.answers ++ [p] }
      else { σ with replies := σ.replies.erase p }
    else σ
  | .loseReply p =>
    if p ∈ σ.replies then { σ with replies := σ.replies.erase p, lost := σ.lost ++ [p.1] } else σ

/-- the nodes `ns`, nothing asked yet. (`/repo/coerce/src/sharding/host/mod.rs` 89-106.) -/
def Net.init (ns : List Nat) : Net := { hosts := ns.foldl (fun m n => m.insert n (Host.init n)) [] }

/-- any number of steps (`/repo/coerce/src/sharding/host/request.rs` 35-181, `/repo/coerce/src/sharding/shard/mod.rs`
227-503). -/
def Net.run (f : Nat → Nat) (ns : List Nat) (ops : List NetOp) : Net := ops.foldl (Net.step f) (Net.init ns)

end Verif.Sharding
