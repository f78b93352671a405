import Verif.Remote.CodecModel

/-!
# Remote requests and their replies

The table of outstanding requests of one node (`RemoteHandler`), the places that add to it and the
frames that take from it.
-/

namespace Verif.Remote
open Verif.Proto Verif.Proto.Network

/-- what the task waiting for a reply gets: `RemoteResponse::Ok`, `RemoteResponse::Err`
(`/repo/coerce/src/remote/actor/mod.rs` 38-41) or a closed channel (its sender was dropped). -/
inductive Answer where
  | ok (bs : Bytes)
  | err (e : ActorRefErr)
  | closed
deriving DecidableEq, Repr

/-- One node: `pending` is the table `requests : HashMap<Uuid, RemoteRequest>`
(`/repo/coerce/src/remote/actor/mod.rs` 16-32), each entry with the waiting caller; `done` is the
history of callers that got an answer. `U` are the message ids, `W` the callers. -/
structure Rpc (U W : Type) where
  pending : List (U × W)
  done : List (U × W × Answer)
deriving Repr

section
variable {U W : Type} [DecidableEq U]

/-- nothing asked yet, `/repo/coerce/src/remote/actor/mod.rs` 67-72. -/
def Rpc.init : Rpc U W := ⟨[], []⟩

/-- `RemoteHandler::push_request`, `/repo/coerce/src/remote/actor/mod.rs` 21-23: `HashMap::insert`; an
entry with the same id is dropped, so its caller sees a closed channel. -/
def Rpc.push (σ : Rpc U W) (u : U) (w : W) : Rpc U W :=
  { pending := (u, w) :: σ.pending.filter (fun p => p.1 ≠ u)
    done := σ.done ++ (σ.pending.filter (fun p => p.1 = u)).map fun p => (p.1, p.2, .closed) }

/-- `pop_request` (`/repo/coerce/src/remote/actor/mod.rs` 25-27) followed by sending the answer. -/
def Rpc.answer (σ : Rpc U W) (u : U) (a : Answer) : Rpc U W :=
  match σ.pending.find? (fun p => p.1 = u) with
  | none => σ
  | some p => { pending := σ.pending.filter (fun q => q.1 ≠ u), done := σ.done ++ [(u, p.2, a)] }

/-- `ClientMessageReceiver::on_receive`, the events that touch the table,
`/repo/coerce/src/remote/net/client/receive.rs` 109-154. `parse` is `Uuid::from_str`; an id that does
not parse panics before the table is touched; an `Err` event without a convertible error panics after
the entry has been taken, which drops the caller's channel. -/
def Rpc.onClientEvent (parse : String → Option U) (σ : Rpc U W) : ClientEvent → Rpc U W
  | .result e => match parse e.messageId with
    | none => σ
    | some u => σ.answer u (.ok e.result)
  | .err e => match parse e.messageId with
    | none => σ
    | some u => match e.error.bind ActorRefErr.fromProto with
      | some x => σ.answer u (.err x)
      | none => σ.answer u .closed
  | .pong e => match parse e.messageId with
    | none => σ
    | some u => σ.answer u (.ok (PongEvent.write { messageId := e.messageId }))
  | _ => σ

/-- `SessionMessageReceiver::on_receive`, the events that touch the table,
`/repo/coerce/src/remote/net/server/session/mod.rs` 376-406. Here the error is converted first. -/
def Rpc.onSessionEvent (parse : String → Option U) (σ : Rpc U W) : SessionEvent → Rpc U W
  | .result e => match parse e.messageId with
    | none => σ
    | some u => σ.answer u (.ok e.result)
  | .err e => match e.error.bind ActorRefErr.fromProto with
    | none => σ
    | some x => match parse e.messageId with
      | none => σ
      | some u => σ.answer u (.err x)
  | _ => σ

/-- What can happen to the table. (`/repo/coerce/src/remote/system/rpc.rs` 193-201;
`/repo/coerce/src/remote/net/server/session/mod.rs` 376-406.) -/
inductive RpcOp (U W : Type) where
  /-- `node_rpc_raw`, `RemoteActorRef::send`: a request is stored and written to the other node
  (`/repo/coerce/src/remote/system/rpc.rs` 85-115, `/repo/coerce/src/remote/actor_ref.rs` 70-99). -/
  | request (u : U) (w : W)
  /-- `RemoteActorRef::send` when `create_request` fails: the request was stored first, the caller
  returns with the error at once (`/repo/coerce/src/remote/actor_ref.rs` 79-81). -/
  | failedRequest (u : U) (w : W)
  /-- a frame from a node this node connected to. -/
  | clientEvent (e : ClientEvent)
  /-- a frame from a node that connected to this one. -/
  | sessionEvent (e : SessionEvent)
  /-- `notify_raw_rpc_result` / `notify_rpc_err` on the node that made the request
  (`/repo/coerce/src/remote/system/rpc.rs` 118-122, 145-149). -/
  | localAnswer (u : U) (a : Answer)

/-- one of them (`/repo/coerce/src/remote/system/rpc.rs` 193-201). -/
def Rpc.step (parse : String → Option U) (σ : Rpc U W) : RpcOp U W → Rpc U W
  | .request u w => σ.push u w
  | .failedRequest u w => σ.push u w
  | .clientEvent e => σ.onClientEvent parse e
  | .sessionEvent e => σ.onSessionEvent parse e
  | .localAnswer u a => σ.answer u a

/-- any sequence of them (`/repo/coerce/src/remote/system/rpc.rs` 193-201). -/
def Rpc.run (parse : String → Option U) (ops : List (RpcOp U W)) : Rpc U W :=
  ops.foldl (Rpc.step parse) Rpc.init

end

/-! ### Two nodes: how a reply travels -/

/-- A requesting node and a responding node, with the request ids each has outstanding
(`inflight_remote_request_count`), and the frames in flight. Simplifications: ids only, no payloads; connections do
not fail; frames may be delivered in any order. (`/repo/coerce/src/remote/system/rpc.rs` 203-207.) -/
structure Pair (U : Type) where
  /-- outstanding at the requesting node. -/
  asker : List U
  /-- outstanding at the responding node. -/
  responder : List U
  /-- requests on their way. -/
  requests : List U
  /-- replies on their way. -/
  replies : List U
  /-- ghost: ids the asker got an answer for. -/
  answered : List U
  /-- ghost: ids the responder replied to through `node_rpc_raw`. -/
  rpcReplies : List U
deriving DecidableEq, Repr

/-- what can happen between the two: asking (`/repo/coerce/src/remote/actor_ref.rs` 70-99), answering
(`/repo/coerce/src/remote/system/rpc.rs` 117-166), arrival. -/
inductive PairOp (U : Type) where
  /-- the asker sends a request with a fresh id. -/
  | ask (u : U)
  /-- the responder handles it and replies on the session: `send_result`,
  `/repo/coerce/src/remote/net/server/session/mod.rs` 628-647. -/
  | replyOnSession (u : U)
  /-- the responder replies with an error (`notify_rpc_err`) or with the result of a sharded entity
  (`notify_raw_rpc_result`): both go through `node_rpc_raw` with the id of the request, which stores
  the id in the responder's own table and waits for an answer
  (`/repo/coerce/src/remote/system/rpc.rs` 117-166). -/
  | replyByRpc (u : U)
  /-- a reply frame reaches the asker; the receivers of `SessionEvent::Result`/`Err` and
  `ClientEvent::Result`/`Err` send nothing back
  (`/repo/coerce/src/remote/net/server/session/mod.rs` 376-406). -/
  | deliver (u : U)

/-- nothing asked yet, `/repo/coerce/src/remote/actor/mod.rs` 67-72. -/
def Pair.init {U : Type} : Pair U := ⟨[], [], [], [], [], []⟩

/-- one of them (`/repo/coerce/src/remote/system/rpc.rs` 117-201). -/
def Pair.step {U : Type} [DecidableEq U] (σ : Pair U) : PairOp U → Pair U
  | .ask u => { σ with asker := u :: σ.asker, requests := u :: σ.requests }
  | .replyOnSession u =>
    if u ∈ σ.requests then
      { σ with requests := σ.requests.erase u, replies := u :: σ.replies }
    else σ
  | .replyByRpc u =>
    if u ∈ σ.requests then
      { σ with requests := σ.requests.erase u, replies := u :: σ.replies,
               responder := u :: σ.responder, rpcReplies := u :: σ.rpcReplies }
    else σ
  | .deliver u =>
    if u ∈ σ.replies then
      if u ∈ σ.asker then
        { σ with replies := σ.replies.erase u, asker := σ.asker.erase u, answered := u :: σ.answered }
      else { σ with replies := σ.replies.erase u }
    else σ

/-- any sequence of them (`/repo/coerce/src/remote/system/rpc.rs` 117-201). -/
def Pair.run {U : Type} [DecidableEq U] (ops : List (PairOp U)) : Pair U :=
  ops.foldl Pair.step Pair.init

end Verif.Remote
