import Verif.Util

/-!
# The chat example: one chat stream and one peer

`/repo/examples/coerce-sharded-chat-example/src/actor/stream/mod.rs` and
`/repo/examples/coerce-sharded-chat-example/src/actor/peer/mod.rs`: an application put together from sharding,
persistence and publish/subscribe. Messages are numbers; their encodings are left out. A subscription passes messages to
the mailbox of the peer at once and in order (C33; it does not fall 1024 messages behind). The default persistence policy
tries until it succeeds, so `persist` only returns with success.
-/

namespace Verif.Chat

/-- what goes out through the web socket. (`Peer::write`,
`/repo/examples/coerce-sharded-chat-example/src/actor/peer/mod.rs` 55-65.) -/
inductive Out where
  | history (m : Nat)
  /-- "Welcome to .., say hello!" -/
  | welcome
  | live (m : Nat)
deriving DecidableEq, Repr

/-- where the peer is with this stream. (`chat_streams`,
`/repo/examples/coerce-sharded-chat-example/src/actor/peer/mod.rs` 32, and the handler 125-189.) -/
inductive Where where
  | out
  /-- inside the handler of `JoinChat`: the stream has answered, the subscription is not made. `member`: it was in already. -/
  | joining (history : List Nat) (member : Bool)
  | member
deriving DecidableEq, Repr

/-- one chat stream (`ChatStream`, `/repo/examples/coerce-sharded-chat-example/src/actor/stream/mod.rs` 9-15), its
journal, and one peer (`Peer`, `/repo/examples/coerce-sharded-chat-example/src/actor/peer/mod.rs` 26-33). -/
structure Chat where
  /-- the journal of the stream. -/
  journal : List Nat := []
  /-- `ChatStream::messages`. -/
  msgs : List Nat := []
  /-- ghost: messages whose `persist` has returned. -/
  said : List Nat := []
  /-- published, not yet at the mediator of the peer's node. -/
  flying : List Nat := []
  at_ : Where := .out
  /-- passed on by the subscription, in the mailbox of the peer. -/
  queue : List Nat := []
  /-- written to the web socket. -/
  seen : List Out := []
  /-- the peer has panicked. -/
  dead : Bool := false
deriving DecidableEq, Repr

/-- the peer has a subscription (the old one is only dropped when the new one is stored).
(`/repo/examples/coerce-sharded-chat-example/src/actor/peer/mod.rs` 155-159 and 181.) -/
def Chat.subscribed (σ : Chat) : Bool :=
  match σ.at_ with
  | .out => false
  | .joining _ m => m
  | .member => true

/-- what can happen: the handlers of `/repo/examples/coerce-sharded-chat-example/src/actor/stream/mod.rs` 77-114 and
`/repo/examples/coerce-sharded-chat-example/src/actor/peer/mod.rs` 103-210, one message reaching the node of the peer,
and restarts. -/
inductive Op where
  /-- `Handler<ChatMessage>`; `extra`: how many attempts stored the message without this being known. -/
  | say (m : Nat) (extra : Nat)
  /-- the `i`-th message under way reaches the mediator of the peer's node. -/
  | deliver (i : Nat)
  /-- the stream is stopped and started again, here or elsewhere. -/
  | restart
  /-- the peer handles `JoinChat`, up to the answer of the stream. -/
  | join
  /-- the rest of that handler. -/
  | subscribe
  /-- the peer handles the next `Receive`. -/
  | receive
  /-- the peer handles `LeaveChat`. -/
  | leave
  /-- the peer handles `SendChatMessage` and the request to the stream fails. -/
  | sendFails
deriving DecidableEq, Repr

/-- the mediator of the peer's node broadcasts `m`. (`/repo/coerce/src/remote/stream/pubsub.rs` 143-157.) -/
def Chat.broadcast (σ : Chat) (m : Nat) : Chat :=
  if σ.subscribed && !σ.dead then { σ with queue := σ.queue ++ [m] } else σ

/-- `PubSub::publish`: `near` if the stream is on the node of the peer, otherwise each message is sent by its own task
(C33). (`/repo/coerce/src/remote/stream/pubsub.rs` 58-74.) -/
def Chat.publish (near : Bool) (σ : Chat) (m : Nat) : Chat :=
  if near then σ.broadcast m else { σ with flying := σ.flying ++ [m] }

/-- `Handler<ChatMessage>`, `/repo/examples/coerce-sharded-chat-example/src/actor/stream/mod.rs` 93-114, with
`persist` (C03, C09). -/
def Chat.say (near : Bool) (σ : Chat) (m extra : Nat) : Chat :=
  Chat.publish near { σ with
    journal := σ.journal ++ List.replicate (extra + 1) m
    msgs := σ.msgs ++ [m]
    said := σ.said ++ [m] } m

/-- `Recover<ChatMessage>`, `/repo/examples/coerce-sharded-chat-example/src/actor/stream/mod.rs` 136-141, for the whole
journal (C01). -/
def Chat.restart (σ : Chat) : Chat := { σ with msgs := σ.journal }

/-- `Handler<JoinChat>` up to the answer, `/repo/examples/coerce-sharded-chat-example/src/actor/peer/mod.rs` 126-152,
and `Handler<Join>`, `/repo/examples/coerce-sharded-chat-example/src/actor/stream/mod.rs` 77-91. -/
def Chat.join (σ : Chat) : Chat :=
  match σ.at_ with
  | .out => { σ with at_ := .joining σ.msgs false }
  | .member => { σ with at_ := .joining σ.msgs true }
  | .joining _ _ => σ

/-- the rest of `Handler<JoinChat>`, `/repo/examples/coerce-sharded-chat-example/src/actor/peer/mod.rs` 153-181, in one
step: a peer that joins again has two subscriptions until the end of the handler, this time is taken to be short. -/
def Chat.subscribe (σ : Chat) : Chat :=
  match σ.at_ with
  | .joining h _ => { σ with at_ := .member, seen := σ.seen ++ h.map .history ++ [.welcome] }
  | _ => σ

/-- `Handler<Receive<ChatStreamTopic>>`, `/repo/examples/coerce-sharded-chat-example/src/actor/peer/mod.rs` 103-122:
whether the peer still is in the stream is not asked. -/
def Chat.receive (σ : Chat) : Chat :=
  match σ.at_, σ.queue with
  | .joining _ _, _ => σ
  | _, [] => σ
  | _, m :: q => { σ with queue := q, seen := σ.seen ++ [.live m] }

/-- `Handler<LeaveChat>`, `/repo/examples/coerce-sharded-chat-example/src/actor/peer/mod.rs` 203-210. -/
def Chat.leave (σ : Chat) : Chat :=
  match σ.at_ with
  | .member => { σ with at_ := .out }
  | _ => σ

/-- `Handler<SendChatMessage>`, `/repo/examples/coerce-sharded-chat-example/src/actor/peer/mod.rs` 191-201: `expect`
panics. -/
def Chat.sendFails (σ : Chat) : Chat :=
  match σ.at_ with
  | .member => { σ with dead := true }
  | _ => σ

/-- one of the operations, `/repo/examples/coerce-sharded-chat-example/src/actor/stream/mod.rs` 77-141 and
`/repo/examples/coerce-sharded-chat-example/src/actor/peer/mod.rs` 103-210. -/
def Chat.step (near : Bool) (σ : Chat) : Op → Chat
  | .say m extra => σ.say near m extra
  | .deliver i =>
    match σ.flying[i]? with
    | none => σ
    | some m => ({ σ with flying := σ.flying.eraseIdx i } : Chat).broadcast m
  | .restart => σ.restart
  | .join => if σ.dead then σ else σ.join
  | .subscribe => if σ.dead then σ else σ.subscribe
  | .receive => if σ.dead then σ else σ.receive
  | .leave => if σ.dead then σ else σ.leave
  | .sendFails => if σ.dead then σ else σ.sendFails

/-- any sequence of operations (`/repo/examples/coerce-sharded-chat-example/src/actor/stream/mod.rs` 77-141,
`/repo/examples/coerce-sharded-chat-example/src/actor/peer/mod.rs` 103-210). -/
def Chat.run (near : Bool) (σ : Chat) (ops : List Op) : Chat := ops.foldl (Chat.step near) σ

end Verif.Chat
