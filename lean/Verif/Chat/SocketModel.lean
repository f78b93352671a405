import Verif.Util
import Verif.Proto.Chat

/-!
# A stream attached to an actor, and the web socket of a chat peer

`attach_stream` of the actor context, for any stream, message conversion and actor; and the conversion the peer of the
chat example uses. What the stream yields and when is left to the operations.
-/

namespace Verif.Chat
open Verif.Proto

/-- what a conversion ends in: `Option<M>`, or a panic of the task that runs it. (`message_converter`,
`/repo/coerce/src/actor/context.rs` 431-455.) -/
inductive Conv (M : Type) where
  | skip
  | msg (m : M)
  | panic
deriving DecidableEq, Repr

/-- the task of `attach_stream`, `/repo/coerce/src/actor/context.rs` 443-454. -/
inductive Task where
  | running
  /-- left the loop and, if so configured, sent `Stop`. -/
  | ended
  | panicked
deriving DecidableEq, Repr

/-- what is in the mailbox: an item of the stream (`/repo/coerce/src/actor/context.rs` 446-448) or `Stop` (451-453,
`/repo/examples/coerce-sharded-chat-example/src/actor/peer/mod.rs` 97). -/
inductive Mail (M : Type) where
  | item (m : M)
  | stop
deriving DecidableEq, Repr

/-- the actor and the task that reads the stream for it. (`/repo/coerce/src/actor/context.rs` 431-455.) -/
structure Att (M : Type) where
  task : Task := .running
  alive : Bool := true
  mailbox : List (Mail M) := []
  /-- what the actor has handled. -/
  handled : List M := []
deriving DecidableEq, Repr

/-- what can happen: the stream yields or ends (`/repo/coerce/src/actor/context.rs` 445-449), the actor handles a
message (`/repo/coerce/src/actor/lifecycle.rs` 82-128) or ends. -/
inductive AttOp (R : Type) where
  /-- the stream yields `Ok(r)`. -/
  | next (r : R)
  /-- the stream yields `Err(..)`. -/
  | err
  /-- the stream ends. -/
  | end_
  /-- the actor takes the next message from its mailbox. -/
  | handle
  /-- the actor panics or is stopped for other reasons. -/
  | crash
deriving DecidableEq, Repr

/-- `LocalActorRef::notify`: sending to an actor that has ended does nothing here (`let _ =`).
(`/repo/coerce/src/actor/refs/mod.rs` 461-475.) -/
def Att.post {M : Type} (σ : Att M) (x : Mail M) : Att M :=
  if σ.alive then { σ with mailbox := σ.mailbox ++ [x] } else σ

/-- the loop of `attach_stream` for one item, `/repo/coerce/src/actor/context.rs` 445-449. -/
def Att.next {M : Type} (σ : Att M) : Conv M → Att M
  | .skip => σ
  | .msg m => σ.post (.item m)
  | .panic => { σ with task := .panicked }

/-- `attach_stream` after the loop, `/repo/coerce/src/actor/context.rs` 451-453. -/
def Att.finish {M : Type} (stopOnEnd : Bool) (σ : Att M) : Att M :=
  if stopOnEnd then ({ σ with task := .ended } : Att M).post .stop else { σ with task := .ended }

/-- one message of the actor's mailbox; `closes`: its handler calls `notify_stop` on itself.
(`/repo/coerce/src/actor/lifecycle.rs` 82-128.) -/
def Att.handle {M : Type} (closes : M → Bool) (σ : Att M) : Att M :=
  if σ.alive then
    match σ.mailbox with
    | [] => σ
    | .stop :: _ => { σ with alive := false, mailbox := [] }
    | .item m :: q => { σ with handled := σ.handled ++ [m], mailbox := if closes m then q ++ [.stop] else q }
  else σ

/-- `attach_stream`, `/repo/coerce/src/actor/context.rs` 431-455. -/
def Att.step {R M : Type} (conv : R → Conv M) (closes : M → Bool) (stopOnEnd : Bool) (σ : Att M) : AttOp R → Att M
  | .next r => match σ.task with
    | .running => σ.next (conv r)
    | _ => σ
  | .err => match σ.task with
    | .running => σ.finish stopOnEnd
    | _ => σ
  | .end_ => match σ.task with
    | .running => σ.finish stopOnEnd
    | _ => σ
  | .handle => σ.handle closes
  | .crash => { σ with alive := false, mailbox := [] }

/-- any sequence of operations (`/repo/coerce/src/actor/context.rs` 431-455). -/
def Att.run {R M : Type} (conv : R → Conv M) (closes : M → Bool) (stopOnEnd : Bool) (σ : Att M) (ops : List (AttOp R)) : Att M :=
  ops.foldl (Att.step conv closes stopOnEnd) σ

/-! ## The peer -/

/-- `ChatMessage`, `/repo/examples/coerce-sharded-chat-example/src/actor/stream/mod.rs` 64-69. -/
structure Said where
  stream : String
  messageId : Option UInt64 := none
  sender : Option String := none
  text : String
deriving DecidableEq, Repr

/-- `ClientEvent`, `/repo/examples/coerce-sharded-chat-example/src/actor/peer/message.rs` 8-13. -/
inductive PeerEvent where
  | join (stream : String) (token : Option String)
  | chat (m : Said)
  | leave (stream : String)
  | close
deriving DecidableEq, Repr

/-- `as_bytes` of `JoinChat`, `/repo/examples/coerce-sharded-chat-example/src/actor/peer/message.rs` 28-43. -/
def joinBytes (stream : String) (token : Option String) : Bytes :=
  Chat.JoinChat.write { chatStreamId := stream, joinToken := token.map fun t => { value := t } }

/-- `from_bytes` of `JoinChat`, `/repo/examples/coerce-sharded-chat-example/src/actor/peer/message.rs` 45-54. -/
def readJoin (b : Bytes) : Option PeerEvent :=
  (Chat.JoinChat.read b).map fun m => .join m.chatStreamId (m.joinToken.map (·.value))

/-- `From<ChatMessage> for protocol::chat::ChatMessage`,
`/repo/examples/coerce-sharded-chat-example/src/actor/peer/message.rs` 60-76. -/
def Said.proto (m : Said) : Chat.ChatMessage :=
  { chatStreamId := m.stream, messageId := m.messageId.map fun i => { value := i }, sender := m.sender.map fun s => { value := s }, message := m.text }

/-- `From<protocol::chat::ChatMessage> for ChatMessage`,
`/repo/examples/coerce-sharded-chat-example/src/actor/peer/message.rs` 78-87. -/
def Said.ofProto (m : Chat.ChatMessage) : Said :=
  ⟨m.chatStreamId, m.messageId.map (·.value), m.sender.map (·.value), m.message⟩

/-- `as_bytes` of `SendChatMessage`, `/repo/examples/coerce-sharded-chat-example/src/actor/peer/message.rs` 92-99. -/
def chatBytes (m : Said) : Bytes := Chat.SendChatMessage.write { message := some m.proto }

/-- `from_bytes` of `SendChatMessage`, `/repo/examples/coerce-sharded-chat-example/src/actor/peer/message.rs` 101-110. -/
def readChat (b : Bytes) : Option PeerEvent :=
  (Chat.SendChatMessage.read b).bind fun s => s.message.map fun m => .chat (Said.ofProto m)

/-- `as_bytes` of `LeaveChat`, `/repo/examples/coerce-sharded-chat-example/src/actor/peer/message.rs` 118-125. -/
def leaveBytes (stream : String) : Bytes := Chat.LeaveChat.write { chatStreamId := stream }

/-- `from_bytes` of `LeaveChat`, `/repo/examples/coerce-sharded-chat-example/src/actor/peer/message.rs` 127-133. -/
def readLeave (b : Bytes) : Option PeerEvent := (Chat.LeaveChat.read b).map fun m => .leave m.chatStreamId

/-- `.unwrap()` of what was read. (`/repo/examples/coerce-sharded-chat-example/src/actor/peer/message.rs` 136-152.) -/
def unwrapped : Option PeerEvent → Conv PeerEvent
  | some e => .msg e
  | none => .panic

/-- `parse_inbound_message`, `/repo/examples/coerce-sharded-chat-example/src/actor/peer/message.rs` 136-152. -/
def parseInbound : Bytes → Conv PeerEvent
  | [] => .msg .close
  | t :: b =>
    if t = 0 then unwrapped (readJoin b)
    else if t = 1 then unwrapped (readChat b)
    else if t = 2 then unwrapped (readLeave b)
    else .msg .close

/-- `tungstenite::Message`. (As matched on in `/repo/examples/coerce-sharded-chat-example/src/actor/peer/mod.rs`
77-84.) -/
inductive Frame where
  | text (b : Bytes)
  | binary (b : Bytes)
  | ping
  | pong
  | close
  | raw
deriving DecidableEq, Repr

/-- the conversion of the peer, `/repo/examples/coerce-sharded-chat-example/src/actor/peer/mod.rs` 77-84. -/
def ofFrame : Frame → Conv PeerEvent
  | .text b => parseInbound b
  | .binary b => parseInbound b
  | .ping => .skip
  | .pong => .skip
  | .close => .msg .close
  | .raw => .skip

/-- `Handler<ClientEvent>`, `/repo/examples/coerce-sharded-chat-example/src/actor/peer/mod.rs` 90-101: `Close` sends
`Stop`. -/
def PeerEvent.closes : PeerEvent → Bool
  | .close => true
  | _ => false

/-- `ChatClient::write`, `/repo/examples/coerce-sharded-chat-example/src/websocket/client/mod.rs` 100-108, with the numbers
of `join_chat` and `chat` (110-132) and the one `parse_inbound_message` expects for leaving. -/
def clientFrame : PeerEvent → Frame
  | .join s t => .binary (0 :: joinBytes s t)
  | .chat m => .binary (1 :: chatBytes m)
  | .leave s => .binary (2 :: leaveBytes s)
  | .close => .close

/-- a peer with its socket. (`/repo/examples/coerce-sharded-chat-example/src/actor/peer/mod.rs` 69-87.) -/
def Peer.run (ops : List (AttOp Frame)) : Att PeerEvent := Att.run ofFrame PeerEvent.closes true {} ops

end Verif.Chat
