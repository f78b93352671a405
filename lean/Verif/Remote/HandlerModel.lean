import Verif.Remote.CodecModel

/-!
# A message arriving from another node

`session_handle_message` → `RemoteActorSystem::handle_message` → `handle_attempt`, and the reply.
-/

namespace Verif.Remote
open Verif.Proto Verif.Proto.Network

/-! ### Finding the actor -/

/-- An actor instance as `get_actor_ref` sees it. `sys` is the actor system it runs in, `ty` its type
(`BoxedActorRef::as_actor` succeeds for exactly this type), `key` names the instance.
(`/repo/coerce/src/remote/handler.rs` 220-240.) -/
structure Inst where
  sys : Nat
  ty : Nat
  key : Nat
deriving DecidableEq, Repr

/-- `ACTOR_REF_CACHE`, `/repo/coerce/src/remote/handler.rs` 186-214: one table per process, keyed by
actor id alone. -/
abbrev RefCache := List (String × Inst)

/-- `ActorRefCache::get`, `/repo/coerce/src/remote/handler.rs` 201-203. -/
def RefCache.get (c : RefCache) (id : String) : Option Inst := (c.find? fun p => p.1 = id).map (·.2)

/-- `ActorRefCache::add`, `/repo/coerce/src/remote/handler.rs` 197-199: `HashMap::insert`. -/
def RefCache.add (c : RefCache) (id : String) (i : Inst) : RefCache :=
  (id, i) :: c.filter fun p => p.1 ≠ id

/-- the cached reference, if it is of the right type and its mailbox is still open.
(`/repo/coerce/src/remote/handler.rs` 224-230.) -/
def RefCache.usable (c : RefCache) (valid : Inst → Bool) (ty : Nat) (id : String) : Option Inst :=
  (c.get id).bind fun i => if i.ty = ty ∧ valid i then some i else none

/-- `get_actor_ref::<A>`, `/repo/coerce/src/remote/handler.rs` 220-240. `valid` is
`LocalActorRef::is_valid` now, `reg` the answer of the scheduler of the actor system asked
(`get_tracked_actor::<A>`, which answers with actors of type `A` only). -/
def getActorRef (c : RefCache) (valid : Inst → Bool) (reg : Option Inst) (ty : Nat) (id : String) :
    Option Inst × RefCache :=
  match c.usable valid ty id with
  | some i => (some i, c)
  | none => match reg with
    | some i => (some i, c.add id i)
    | none => (none, c)

/-- the process seen from outside: one entry per call of `get_actor_ref`. (`/repo/coerce/src/remote/handler.rs`
220-240.) -/
structure Lookup where
  sys : Nat
  ty : Nat
  id : String
  /-- the actor of that id (and type) registered in that system at the time of the call. -/
  reg : Option Inst
  /-- which mailboxes are open at the time of the call. -/
  valid : Inst → Bool

/-- the answers of a sequence of lookups in one process. (`/repo/coerce/src/remote/handler.rs` 220-240: the cache
belongs to the process, 186-214.) -/
def lookups (c : RefCache) : List Lookup → List (Option Inst)
  | [] => []
  | l :: ls =>
    let r := getActorRef c l.valid l.reg l.ty l.id
    r.1 :: lookups r.2 ls

/-! ### Handling an attempt -/

/-- What a message type and an actor do, seen from the handler: `M::from_envelope`, `actor.send(m)` and
`M::write_remote_result`. (`/repo/coerce/src/remote/handler.rs` 256-281.) -/
structure Behav (A M R : Type) where
  decode : Bytes → Except UnwrapErr M
  send : A → M → Except ActorRefErr R
  encode : R → Except WrapErr Bytes

/-- What one call of `handle_attempt` does: how often the actor was looked up, what was delivered to which actor and
what was sent through the result channel (`none`: the sender was dropped unused).
(`/repo/coerce/src/remote/handler.rs` 247-306.) -/
structure Attempted (A M : Type) where
  lookups : Nat
  delivered : List (A × M)
  sent : Option (Except ActorRefErr Bytes)
deriving Repr

/-- `/repo/coerce/src/remote/handler.rs` 283. -/
def maxRetries : Nat := 10

section
variable {A M R : Type}

/-- `handle_attempt` once the actor is known, `/repo/coerce/src/remote/handler.rs` 256-281. -/
def deliverTo (b : Behav A M R) (a : A) (buf : Bytes) : List (A × M) × Option (Except ActorRefErr Bytes) :=
  match b.decode buf with
  | .error e => ([], some (.error (.deserialisation e)))
  | .ok m => match b.send a m with
    | .error _ => ([(a, m)], none)
    | .ok r => match b.encode r with
      | .ok bs => ([(a, m)], some (.ok bs))
      | .error e => ([(a, m)], some (.error (.serialisation e)))

/-- `RemoteActorMessageHandler::handle_attempt`, `/repo/coerce/src/remote/handler.rs` 247-306.
`find n` is the outcome of the lookup made in attempt `n` (10 ms apart). -/
def handleAttempt (b : Behav A M R) (find : Nat → Option A) (id : String) (buf : Bytes)
    (attempt : Nat) : Attempted A M :=
  match find attempt with
  | some a => let d := deliverTo b a buf; ⟨1, d.1, d.2⟩
  | none =>
    if attempt + 1 ≥ maxRetries then ⟨1, [], some (.error (.notFound id))⟩
    else
      let r := handleAttempt b find id buf (attempt + 1)
      { r with lookups := r.lookups + 1 }
termination_by maxRetries - attempt

/-- the result of a oneshot channel whose sender is gone. (`/repo/coerce/src/remote/system/rpc.rs` 168-191.) -/
def recv (o : Option (Except ActorRefErr Bytes)) : Except ActorRefErr Bytes :=
  o.getD (.error .resultChannelClosed)

/-- `RemoteActorSystem::handle_message`, `/repo/coerce/src/remote/system/rpc.rs` 168-191; `handler` is
the message handler registered for `ident`, if any. -/
def handleMessage (handler : Option (Behav A M R)) (find : Nat → Option A) (ident id : String)
    (buf : Bytes) : Except ActorRefErr Bytes :=
  match handler with
  | some b => recv (handleAttempt b find id buf 1).sent
  | none => .error (.notSupported id ident "")

/-- `handle_direct`, `/repo/coerce/src/remote/handler.rs` 308-371. `actor` is the reference downcast
to the handler's actor type; `wants` whether a result channel was given. Returns what was delivered
and what was sent through the channel. -/
def handleDirect (b : Behav A M R) (actor : Option A) (buf : Bytes) (wants : Bool) :
    List (A × M) × List (Except ActorRefErr Bytes) :=
  match actor, b.decode buf with
  | some a, .ok m =>
    if wants then
      match b.send a m with
      | .ok r => match b.encode r with
        | .ok bs => ([(a, m)], [.ok bs])
        | .error e => ([(a, m)], [.error (.serialisation e)])
      | .error e => ([(a, m)], [.error e])
    else ([(a, m)], [])
  | _, .error e => ([], if wants then [.error (.deserialisation e)] else [])
  | none, .ok _ => ([], if wants then [.error .invalidRef] else [])

/-! ### The reply -/

/-- What `session_handle_message` sends. (`/repo/coerce/src/remote/net/server/session/mod.rs` 527-564.) -/
inductive Reply where
  /-- `SessionWrite` on the connection the request came on. -/
  | onSession (e : ClientEvent)
  /-- `node_rpc_raw` to a node. -/
  | toNode (node : UInt64) (e : SessionEvent)
  /-- the waiting request of this very node is completed. -/
  | completeLocal (id : String) (e : ActorRefErr)
  /-- the task panicked: nothing is sent. -/
  | panicked
deriving DecidableEq

/-- `notify_rpc_err`, `/repo/coerce/src/remote/system/rpc.rs` 140-166. -/
def notifyRpcErr (self : UInt64) (mid : String) (e : ActorRefErr) (node : UInt64) : Reply :=
  if node = self then .completeLocal mid e
  else .toNode node (.err { messageId := mid, error := some e.toProto })

/-- `session_handle_message`, `/repo/coerce/src/remote/net/server/session/mod.rs` 527-564, given the
outcome of `handle_message`. `norm` is `Uuid` parsing followed by printing; `none`: it does not parse
and `unwrap` panics. -/
def sessionReply (norm : String → Option String) (self : UInt64) (msg : MessageRequest)
    (outcome : Except ActorRefErr Bytes) : List Reply :=
  match outcome with
  | .ok bs =>
    if msg.requiresResponse then
      match norm msg.messageId with
      | some mid => [.onSession (.result { messageId := mid, result := bs })]
      | none => [.panicked]
    else []
  | .error e => match norm msg.messageId with
    | some mid => [notifyRpcErr self mid e msg.originNodeId]
    | none => [.panicked]

/-- `session_handle_message`, `/repo/coerce/src/remote/net/server/session/mod.rs` 527-564, with
`RemoteActorSystem::handle_message`, `/repo/coerce/src/remote/system/rpc.rs` 168-191. -/
def sessionHandleMessage (norm : String → Option String) (self : UInt64)
    (handlers : String → Option (Behav A M R)) (find : Nat → Option A) (msg : MessageRequest) :
    List Reply :=
  sessionReply norm self msg
    (handleMessage (handlers msg.handlerType) find msg.handlerType msg.actorId msg.message)

end

end Verif.Remote
