import Verif.Remote.ClientModel
import Verif.Remote.RpcModel

/-!
# A request and its reply over connections that fail

Node A sends requests to actors of node B. The requests go over A's client to B; a good answer comes
back on the connection the request came on; an error comes back over B's own client to A. Either
client buffers, reconnects and gives up as in `ClientModel`, any connection may break, and what is
on a broken connection may be lost.

What is simplified: one actor of B is addressed (others would share nothing with it but the
connections); the lookup, the decoding of the message, the handler and the encoding of its answer are
one function `act` and one moment (`HandlerModel` has them apart); the ids (`Uuid::new_v4`) are the
numbers 0, 1, 2, …, so no two requests have the same; the entry that `notify_rpc_err` leaves in the
request table of B for ever is not modelled (`RpcModel` has it).
-/

namespace Verif.Remote.Trip
open Verif.Proto

/-- How an event is put into a frame and read from one: `write_to_bytes` and `read_from_bytes`,
`/repo/coerce/src/remote/net/message.rs` 54-180; any pair of functions here. -/
structure Wire (α : Type) where
  put : α → Bytes
  get : Bytes → Option α

/-- What is fixed: the largest frame (`LengthDelimitedCodec`,
`/repo/coerce/src/remote/net/server/session/mod.rs` 58-59), the three kinds of event
(`SessionEvent::NotifyActor`, `/repo/coerce/src/remote/actor_ref.rs` 120-129; `ClientEvent::Result`,
`/repo/coerce/src/remote/net/server/session/mod.rs` 636-640; `SessionEvent::Err`,
`/repo/coerce/src/remote/system/rpc.rs` 153-157), each with the id of the request, and what
`handle_message` does to the actor and gives (`/repo/coerce/src/remote/system/rpc.rs` 168-191). -/
structure Cfg (S P : Type) where
  lim : Nat
  ask : Wire (Nat × P)
  good : Wire (Nat × Bytes)
  bad : Wire (Nat × ActorRefErr)
  act : S → P → S × Except ActorRefErr Bytes

/-- One node's client to the other and the connections it has made, numbered from 1:
`/repo/coerce/src/remote/net/client/mod.rs` 35-46, `/repo/coerce/src/remote/actor/clients.rs` 13-16. -/
structure Link where
  client : Client := Client.init
  /-- how many connections it has made. -/
  made : Nat := 0
  /-- the registry knows the client by the id of the other node (`node_id_registry`). -/
  known : Bool := false
  /-- frames written by the client and not yet read, with the connection they are on. -/
  there : List (Nat × Bytes) := []
  /-- frames written by the session at the other end and not yet read. -/
  back : List (Nat × Bytes) := []
  /-- the connections that have broken. -/
  cut : List Nat := []
deriving DecidableEq

/-- What the client of a link meets besides writes: `Connect`,
`/repo/coerce/src/remote/net/client/connect.rs` 122-170; a socket that stops working; `Disconnected`,
275-343; `RemoveClient` handled by the registry, `/repo/coerce/src/remote/actor/clients.rs` 74-88. -/
inductive Net where
  | connect (o : ConnOut)
  | broken
  | ended
  | removed
deriving DecidableEq

/-- The client handles something. When it has connected it reports so to the registry and waits for that
(`ClientConnected`, `/repo/coerce/src/remote/net/client/connect.rs` 136-145,
`/repo/coerce/src/remote/actor/clients.rs` 91-96). What it has newly written is on its latest connection:
`/repo/coerce/src/remote/net/client/connect.rs` 122-170, `/repo/coerce/src/remote/net/client/send.rs` 43-133. -/
def Link.does (lim : Nat) (l : Link) (o : ClientOp) : Link :=
  let c := l.client.step lim o
  let m := if c.st = .connected ∧ l.client.st ≠ .connected then l.made + 1 else l.made
  { l with
    client := c
    made := m
    known := l.known || m != l.made
    there := l.there ++ (c.sent.drop l.client.sent.length).map fun b => (m, b) }

/-- the same, and the registry forgets a client that has given up
(`/repo/coerce/src/remote/net/client/connect.rs` 275-343, `/repo/coerce/src/remote/actor/clients.rs` 74-88). -/
def Link.net (lim : Nat) (l : Link) : Net → Link
  | .connect o => l.does lim (.connect o)
  | .broken => l.does lim .breakLink
  | .ended => l.does lim .loopEnds
  | .removed => if l.client.gaveUp then { l with known := false } else l

/-- Whether the client keeps a message it is given: not if it has given up or hangs
(`/repo/coerce/src/remote/net/client/send.rs` 74-133). -/
def accepts (c : Client) : Bool :=
  match c.st with
  | .idle _ => true
  | .connected => true
  | .terminated => false
  | .stuck => false

/-- Whether a message handed to `notify_node` gets as far as a socket or the client's buffer:
the registry must know the client (`/repo/coerce/src/remote/actor/clients.rs` 107-114). -/
def Link.takes (l : Link) : Bool := l.known && accepts l.client

/-- `notify_node`, `/repo/coerce/src/remote/system/cluster.rs` 33-39, with `Handler<ClientWrite>`,
`/repo/coerce/src/remote/actor/clients.rs` 99-116: a message for a node that has no client registered is
dropped. -/
def Link.write (lim : Nat) (l : Link) (bs : Bytes) : Link :=
  if l.known then l.does lim (.write bs) else l

/-- the next frame of connection `k` is read: `receive_loop`,
`/repo/coerce/src/remote/net/mod.rs` 82-112; the frames of one connection are read in the order written. -/
def pull (k : Nat) : List (Nat × Bytes) → Option (Bytes × List (Nat × Bytes))
  | [] => none
  | x :: r =>
    if x.1 = k then some (x.2, r)
    else match pull k r with
      | none => none
      | some (b, r') => some (b, x :: r')

/-- A task `session_handle_message` that has been spawned: the connection its request came on (the
session it holds), the id and the message. `/repo/coerce/src/remote/net/server/session/mod.rs` 316-323. -/
structure Task (P : Type) where
  conn : Nat
  id : Nat
  msg : P
deriving DecidableEq

/-- A message handled: ghost. `/repo/coerce/src/remote/system/rpc.rs` 168-191. -/
structure Served (P : Type) where
  id : Nat
  msg : P
  res : Except ActorRefErr Bytes

/-- Both nodes: `a` is A's client to B and `b` B's client to A
(`/repo/coerce/src/remote/net/client/mod.rs` 35-46); the request table of A
(`/repo/coerce/src/remote/actor/mod.rs` 16-32); the tasks of B's sessions
(`/repo/coerce/src/remote/net/server/session/mod.rs` 316-323) and the actor. The rest are ghosts: what was
asked, what was handled, and the ids of requests and of replies that are gone. -/
structure Sys (S P : Type) where
  a : Link
  b : Link
  rpc : Rpc Nat Unit
  tasks : List (Task P)
  actor : S
  asked : List P
  served : List (Served P)
  lostAsks : List Nat
  lostReplies : List Nat

/-- two nodes that have just started, `/repo/coerce/src/remote/net/client/mod.rs` 58-86. -/
def Sys.init {S P : Type} (s : S) : Sys S P := ⟨{}, {}, Rpc.init, [], s, [], [], [], []⟩

/-- What can happen, `/repo/coerce/src/remote/actor_ref.rs` 70-99,
`/repo/coerce/src/remote/net/server/session/mod.rs` 316-323, 376-406, 527-564,
`/repo/coerce/src/remote/net/client/receive.rs` 109-154. -/
inductive Op (P : Type) where
  /-- somebody on A calls `RemoteActorRef::send`. -/
  | ask (p : P)
  /-- A's client, B's client. -/
  | aNet (e : Net)
  | bNet (e : Net)
  /-- connection `k` of A (of B) breaks; later what is still on it is lost. -/
  | aCut (k : Nat)
  | bCut (k : Nat)
  | aDrop (k : Nat)
  | bDrop (k : Nat)
  /-- A (B) finds the other node again and gets another client to it. -/
  | aRenew
  | bRenew
  /-- B's session for connection `k` of A reads a frame. -/
  | recv (k : Nat)
  /-- task `i` of B runs. -/
  | serve (i : Nat)
  /-- A's client reads a reply on its connection `k`. -/
  | good (k : Nat)
  /-- A's session for connection `k` of B reads an error. -/
  | bad (k : Nat)
deriving DecidableEq

/-- the ids in frames: ghost, `/repo/coerce/src/remote/actor_ref.rs` 120-129. -/
def Wire.ids {α : Type} (w : Wire (Nat × α)) (fs : List Bytes) : List Nat :=
  fs.filterMap fun b => (w.get b).map (·.1)

/-- the frames of connection `k`: what `receive_loop` would read from it,
`/repo/coerce/src/remote/net/mod.rs` 82-112. -/
def onConn (k : Nat) (fs : List (Nat × Bytes)) : List Bytes := (fs.filter fun x => x.1 = k).map (·.2)

/-- the frames of the other connections, `/repo/coerce/src/remote/net/mod.rs` 82-112. -/
def offConn (k : Nat) (fs : List (Nat × Bytes)) : List (Nat × Bytes) := fs.filter fun x => x.1 ≠ k

section
variable {S P : Type}

/-- `RemoteActorRef::send` as far as the wait, `/repo/coerce/src/remote/actor_ref.rs` 70-85. -/
def Sys.ask (c : Cfg S P) (σ : Sys S P) (p : P) : Sys S P :=
  let u := σ.asked.length
  { σ with
    rpc := σ.rpc.push u ()
    a := σ.a.write c.lim (c.ask.put (u, p))
    asked := σ.asked ++ [p]
    lostAsks := if σ.a.takes then σ.lostAsks else σ.lostAsks ++ [u] }

/-- `SessionMessageReceiver::on_receive` of a `NotifyActor`,
`/repo/coerce/src/remote/net/server/session/mod.rs` 316-323. A frame that cannot be read is skipped
(`/repo/coerce/src/remote/net/mod.rs` 82-112). -/
def Sys.recv (c : Cfg S P) (σ : Sys S P) (k : Nat) : Sys S P :=
  match pull k σ.a.there with
  | none => σ
  | some (f, r) => match c.ask.get f with
    | none => { σ with a := { σ.a with there := r } }
    | some (u, p) => { σ with a := { σ.a with there := r }, tasks := σ.tasks ++ [⟨k, u, p⟩] }

/-- the answer of a task goes out: a good one through the session it came from, `send_result` and
`RemoteSession::write`, `/repo/coerce/src/remote/net/server/session/mod.rs` 628-647, 199-221, which drops it if the
connection is broken or the frame is too large; an error through `notify_rpc_err`,
`/repo/coerce/src/remote/system/rpc.rs` 140-166. -/
def Sys.reply (c : Cfg S P) (σ : Sys S P) (k u : Nat) : Except ActorRefErr Bytes → Sys S P
  | .ok bs =>
    if k ∉ σ.a.cut ∧ (c.good.put (u, bs)).length ≤ c.lim then
      { σ with a := { σ.a with back := σ.a.back ++ [(k, c.good.put (u, bs))] } }
    else { σ with lostReplies := σ.lostReplies ++ [u] }
  | .error e =>
    { σ with
      b := σ.b.write c.lim (c.bad.put (u, e))
      lostReplies := if σ.b.takes then σ.lostReplies else σ.lostReplies ++ [u] }

/-- `session_handle_message`, `/repo/coerce/src/remote/net/server/session/mod.rs` 527-564. -/
def Sys.serve (c : Cfg S P) (σ : Sys S P) (i : Nat) : Sys S P :=
  match σ.tasks[i]? with
  | none => σ
  | some t =>
    let x := c.act σ.actor t.msg
    Sys.reply c { σ with
      tasks := σ.tasks.eraseIdx i
      actor := x.1
      served := σ.served ++ [⟨t.id, t.msg, x.2⟩] } t.conn t.id x.2

/-- `ClientMessageReceiver::on_receive` of a `Result`,
`/repo/coerce/src/remote/net/client/receive.rs` 109-125. -/
def Sys.good (c : Cfg S P) (σ : Sys S P) (k : Nat) : Sys S P :=
  match pull k σ.a.back with
  | none => σ
  | some (f, r) => match c.good.get f with
    | none => { σ with a := { σ.a with back := r } }
    | some (u, bs) => { σ with a := { σ.a with back := r }, rpc := σ.rpc.answer u (.ok bs) }

/-- `SessionMessageReceiver::on_receive` of an `Err`,
`/repo/coerce/src/remote/net/server/session/mod.rs` 391-406. -/
def Sys.bad (c : Cfg S P) (σ : Sys S P) (k : Nat) : Sys S P :=
  match pull k σ.b.there with
  | none => σ
  | some (f, r) => match c.bad.get f with
    | none => { σ with b := { σ.b with there := r } }
    | some (u, e) => { σ with b := { σ.b with there := r }, rpc := σ.rpc.answer u (.err e) }

/-- what is still on a broken connection of A is gone: `/repo/coerce/src/remote/net/mod.rs` 82-112 ends at
the first error. -/
def Sys.aDrop (c : Cfg S P) (σ : Sys S P) (k : Nat) : Sys S P :=
  if k ∈ σ.a.cut then
    { σ with
      a := { σ.a with there := offConn k σ.a.there, back := offConn k σ.a.back }
      lostAsks := σ.lostAsks ++ c.ask.ids (onConn k σ.a.there)
      lostReplies := σ.lostReplies ++ c.good.ids (onConn k σ.a.back) }
  else σ

/-- the same for a connection of B, `/repo/coerce/src/remote/net/mod.rs` 82-112. -/
def Sys.bDrop (c : Cfg S P) (σ : Sys S P) (k : Nat) : Sys S P :=
  if k ∈ σ.b.cut then
    { σ with
      b := { σ.b with there := offConn k σ.b.there }
      lostReplies := σ.lostReplies ++ c.bad.ids (onConn k σ.b.there) }
  else σ

/-- A client that has given up and been removed is followed by another, `NewClient`,
`/repo/coerce/src/remote/actor/clients.rs` 44-71, `RemoteClient::new`, `/repo/coerce/src/remote/net/client/mod.rs` 58-86;
what the old one had in its buffer went with it (`/repo/coerce/src/remote/net/client/connect.rs` 328-341). The connections
are numbered on. -/
def Link.renew (l : Link) : Link := { l with client := Client.init }

/-- whether there can be another client, `/repo/coerce/src/remote/actor/clients.rs` 50-60: an address that has a client gets
no other. -/
def Link.renewable (l : Link) : Bool := l.client.gaveUp && !l.known

/-- A gets another client, `/repo/coerce/src/remote/actor/clients.rs` 44-71. -/
def Sys.aRenew (c : Cfg S P) (σ : Sys S P) : Sys S P :=
  if σ.a.renewable then
    { σ with a := σ.a.renew, lostAsks := σ.lostAsks ++ c.ask.ids σ.a.client.buf }
  else σ

/-- the same for B, `/repo/coerce/src/remote/actor/clients.rs` 44-71. -/
def Sys.bRenew (c : Cfg S P) (σ : Sys S P) : Sys S P :=
  if σ.b.renewable then
    { σ with b := σ.b.renew, lostReplies := σ.lostReplies ++ c.bad.ids σ.b.client.buf }
  else σ

/-- one thing happens, `/repo/coerce/src/remote/actor_ref.rs` 70-99,
`/repo/coerce/src/remote/net/server/session/mod.rs` 256-408. -/
def Sys.step (c : Cfg S P) (σ : Sys S P) : Op P → Sys S P
  | .ask p => σ.ask c p
  | .aNet e => { σ with a := σ.a.net c.lim e }
  | .bNet e => { σ with b := σ.b.net c.lim e }
  | .aCut k => { σ with a := { σ.a with cut := k :: σ.a.cut } }
  | .bCut k => { σ with b := { σ.b with cut := k :: σ.b.cut } }
  | .aDrop k => σ.aDrop c k
  | .bDrop k => σ.bDrop c k
  | .aRenew => σ.aRenew c
  | .bRenew => σ.bRenew c
  | .recv k => σ.recv c k
  | .serve i => σ.serve c i
  | .good k => σ.good c k
  | .bad k => σ.bad c k

/-- any sequence of them, `/repo/coerce/src/remote/actor_ref.rs` 70-99. -/
def Sys.run (c : Cfg S P) (σ : Sys S P) (ops : List (Op P)) : Sys S P := ops.foldl (Sys.step c) σ

end

/-! ### The frames of the code -/

/-- The request, `/repo/coerce/src/remote/actor_ref.rs` 111-130, with `/repo/coerce/src/remote/net/message.rs` 96-180. `pr` and
`parse` are `Uuid::to_string` and `Uuid::from_str`. -/
def askWire (pr : Nat → String) (parse : String → Option Nat) (node : UInt64) (handler actor : String) :
    Wire (Nat × Bytes) where
  put x := ((SessionEvent.notifyActor
    { messageId := pr x.1
      handlerType := handler
      actorId := actor
      message := x.2
      requiresResponse := true
      originNodeId := node }).write).getD []
  get b := match SessionEvent.read b with
    | .ok (.notifyActor m) => (parse m.messageId).map fun u => (u, m.message)
    | _ => none

/-- The good answer, `/repo/coerce/src/remote/net/server/session/mod.rs` 628-647, read by
`/repo/coerce/src/remote/net/client/receive.rs` 109-125. -/
def goodWire (pr : Nat → String) (parse : String → Option Nat) : Wire (Nat × Bytes) where
  put x := ((ClientEvent.result { messageId := pr x.1, result := x.2 }).write).getD []
  get b := match ClientEvent.read b with
    | .ok (.result m) => (parse m.messageId).map fun u => (u, m.result)
    | _ => none

/-- The error, `/repo/coerce/src/remote/system/rpc.rs` 153-157, read by
`/repo/coerce/src/remote/net/server/session/mod.rs` 391-406. -/
def badWire (pr : Nat → String) (parse : String → Option Nat) : Wire (Nat × ActorRefErr) where
  put x := ((SessionEvent.err { messageId := pr x.1, error := some x.2.toProto }).write).getD []
  get b := match SessionEvent.read b with
    | .ok (.err m) => match m.error.bind ActorRefErr.fromProto with
      | some e => (parse m.messageId).map fun u => (u, e)
      | none => none
    | _ => none

/-- The code's frames with the codec's limit, `/repo/coerce/src/remote/net/server/session/mod.rs` 58-59. -/
def codeCfg {S : Type} (pr : Nat → String) (parse : String → Option Nat) (node : UInt64)
    (handler actor : String) (act : S → Bytes → S × Except ActorRefErr Bytes) : Cfg S Bytes where
  lim := maxFrame
  ask := askWire pr parse node handler actor
  good := goodWire pr parse
  bad := badWire pr parse
  act := act

end Verif.Remote.Trip
