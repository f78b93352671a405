import Verif.Remote.CodecModel
import Verif.Remote.NodeStoreModel

/-!
# What nodes tell each other about nodes

The account a node has of a node: id, address, tag, start time and attributes. A node makes its own when it starts, tells
it to whoever connects (`Identity`), and passes on those it has in every handshake it sends. They travel as bytes.

Which answers and handshakes are asked for, and when an account that was heard is registered, is left open here; it is
the subject of `Verif.Remote.DiscoveryModel`, `DiscReplyModel` and `WorkerModel`.
-/

namespace Verif.Remote.Gossip
open Verif.Proto
open Verif.Proto.Network (RemoteNode NodeIdentity SessionHandshake SystemCapabilities)

/-- which nodes run with `COERCE_OVERRIDE_INCOMING_NODE_ADDR`, `/repo/coerce/src/remote/cluster/builder/worker.rs` 73-80. -/
abbrev Conf := UInt64 → Bool

/-! ## Conversions -/

/-- the identity a session writes when it starts, `/repo/coerce/src/remote/net/server/session/mod.rs` 89-119; the address is
the one the server was started with, which is that of the node's own account
(`/repo/coerce/src/remote/cluster/builder/worker.rs` 49-97). -/
def identityOf (n : Node) (peers : List Node) (version : String) (caps : SystemCapabilities) : NodeIdentity :=
  { nodeId := n.id, nodeTag := n.tag, addr := n.addr, applicationVersion := version
    nodeStartedAt := n.startedAt.map Time.toTimestamp, peers := peers.map Node.toProto, capabilities := some caps
    attributes := n.attributes }

/-- reading it, `/repo/coerce/src/remote/net/client/receive.rs` 62-74: the account of the node itself and those of its peers;
`none` = panic. -/
def readIdentity (e : NodeIdentity) : Option (Node × List Node) :=
  match Node.fromIdentity e, e.peers.mapM Node.fromProto with
  | some n, some ps => some (n, ps)
  | _, _ => none

/-- what a client writes for `BeginHandshake`, `/repo/coerce/src/remote/net/client/connect.rs` 210-223. -/
def handshakeOf (self : Node) (known : List Node) (trace : String) (kind : Int32) : SessionHandshake :=
  { nodeId := self.id, nodes := known.map Node.toProto, token := [], nodeTag := self.tag, clientType := kind, traceId := trace }

/-- what follows the last colon, or everything if there is none: `split(":").last()`.
(`/repo/coerce/src/remote/net/server/session/mod.rs` 481.) -/
def afterColon : List Char → List Char
  | [] => []
  | c :: cs => if ':' ∈ cs then afterColon cs else if c = ':' then cs else c :: cs

/-- `/repo/coerce/src/remote/net/server/session/mod.rs` 481. -/
def portOf (addr : String) : String := String.ofList (afterColon addr.toList)

/-- `/repo/coerce/src/remote/net/server/session/mod.rs` 477-485: with the override the address of the sender itself is the
address it connected from, with the port it says it has. -/
def shakenAddr (c : Conf) (self : UInt64) (ip : String) (sender id : UInt64) (addr : String) : String :=
  if c self = true ∧ id = sender then ip ++ ":" ++ portOf addr else addr

/-- one node of a handshake, `/repo/coerce/src/remote/net/server/session/mod.rs` 474-493; `none` = panic. -/
def readShaken (c : Conf) (self : UInt64) (ip : String) (sender : UInt64) (p : RemoteNode) : Option Node :=
  (Node.fromProto p).map fun n => { n with addr := shakenAddr c self ip sender n.id n.addr }

/-- `session_handshake`, `/repo/coerce/src/remote/net/server/session/mod.rs` 437-525: the accounts given to
`Discover` on node `self`. -/
def readHandshake (c : Conf) (self : UInt64) (ip : String) (e : SessionHandshake) : Option (List Node) :=
  (e.nodes.filter fun n => n.nodeId ≠ self).mapM (readShaken c self ip e.nodeId)

/-- for the directory of `NodeStoreModel`; the time as one number, in the same order.
(`/repo/coerce/src/remote/cluster/node.rs` 53-60.) -/
def rnode (a : Node) : RNode := ⟨a.id.toNat, a.addr, a.tag, a.startedAt.map fun t => t.secs.toInt * 2 ^ 32 + t.nanos⟩

/-- `NodeSelector`, `/repo/coerce/src/remote/cluster/node.rs` 62-65. -/
inductive Selector where
  | all
  | attribute (key value : String)
deriving DecidableEq, Repr

/-- `NodeSelector::includes`, `/repo/coerce/src/remote/cluster/node.rs` 72-77. -/
def Selector.includes (s : Selector) (a : Node) : Bool :=
  match s with
  | .all => true
  | .attribute k v => decide (Assoc.get a.attributes k = some v)

/-! ## The cluster -/

/-- an account in a directory, with the status the heartbeat gives it. (`RemoteNodeState`,
`/repo/coerce/src/remote/cluster/node.rs` 41-51.) -/
structure Held where
  acc : Node
  status : NodeStatus
deriving DecidableEq, Repr

/-- a running node: its own account, its directory (`RemoteNodeStore`), what was done with the directory, and the
accounts it has heard: those given to `Discover`, and those in the caches of identities.
(`/repo/coerce/src/remote/cluster/node.rs` 16-19, `/repo/coerce/src/remote/cluster/discovery/mod.rs` 19-24.) -/
structure Member where
  own : Node
  nodes : Assoc UInt64 Held := []
  log : List NStoreOp := []
  heard : List Node := []

/-- bytes on their way to node `to`: an identity, or a handshake as seen to come from address `ip`.
(`/repo/coerce/src/remote/net/server/session/mod.rs` 89-119; `/repo/coerce/src/remote/net/client/connect.rs` 210-223.)
-/
inductive Told where
  | identity (to : UInt64) (bs : Bytes)
  | handshake (to : UInt64) (ip : String) (bs : Bytes)

/-- all nodes and the messages under way. The state of a node: `/repo/coerce/src/remote/cluster/node.rs` 16-19. -/
structure Cluster where
  members : UInt64 → Option Member := fun _ => none
  told : List Told := []

/-- what can happen: nodes start (`/repo/coerce/src/remote/cluster/builder/worker.rs` 49-61), write identities and
handshakes (`/repo/coerce/src/remote/net/server/session/mod.rs` 89-119,
`/repo/coerce/src/remote/net/client/connect.rs` 210-223), read them, and register nodes
(`/repo/coerce/src/remote/cluster/discovery/mod.rs` 112-151). -/
inductive Op where
  /-- a node is started. -/
  | start (a : Node)
  /-- the process of a running node is replaced by a new one with the same id. -/
  | reboot (a : Node)
  /-- `y` answers a connection of `x` with its identity. -/
  | identify (x y : UInt64) (version : String) (caps : SystemCapabilities)
  /-- `x` sends `y` a handshake. -/
  | shake (x y : UInt64) (ip trace : String) (kind : Int32)
  | deliver (i : Nat)
  | lose (i : Nat)
  /-- `x` takes up the account it has heard as number `i`. -/
  | register (x : UInt64) (i : Nat)
  /-- the heartbeat of `x` changes the status of a node. -/
  | mark (x id : UInt64) (status : NodeStatus)

/-- `RemoteRegistry::register_node`, `RemoteNodeStore::add`, `/repo/coerce/src/remote/actor/registry.rs` 80-84. -/
def Member.add (m : Member) (a : Node) : Member :=
  { m with nodes := m.nodes.insert a.id ⟨a, .joining⟩, log := m.log ++ [.add (rnode a)] }

/-- a node that starts registers itself, `/repo/coerce/src/remote/cluster/builder/worker.rs` 49-61. -/
def Member.fresh (a : Node) : Member := Member.add { own := a } a

/-- known and not terminated. (`/repo/coerce/src/remote/cluster/discovery/mod.rs` 113-119 and 127.) -/
def Member.knows (m : Member) (id : UInt64) : Bool :=
  match m.nodes.get id with
  | some h => decide (h.status ≠ .terminated)
  | none => false

/-- `Handler<Discover>` for one node, `/repo/coerce/src/remote/cluster/discovery/mod.rs` 112-151: a node that is known is not
registered again. That it is not registered while it is being discovered either is left out. -/
def Member.register (m : Member) (a : Node) : Member := if m.knows a.id then m else m.add a

/-- `RemoteNodeStore::update_nodes`, `/repo/coerce/src/remote/cluster/node.rs` 113-117, for one node that was just read. -/
def Member.mark (m : Member) (id : UInt64) (st : NodeStatus) : Member :=
  match m.nodes.get id with
  | none => m
  | some h => { m with nodes := m.nodes.insert id { h with status := st }, log := m.log ++ [.update ⟨rnode h.acc, st⟩] }

/-- the accounts of a directory, `get_all`, `/repo/coerce/src/remote/cluster/node.rs` 165-167. -/
def Member.all (m : Member) : List Node := m.nodes.vals.map (·.acc)

/-- those a handshake carries, `/repo/coerce/src/remote/cluster/discovery/mod.rs` 134-140. -/
def Member.alive (m : Member) : List Node :=
  (m.nodes.vals.filter fun h => decide (h.status ≠ .terminated)).map (·.acc)

/-- a node is changed (every node has its own `RemoteNodeStore`, `/repo/coerce/src/remote/cluster/node.rs` 16-19). -/
def Cluster.put (σ : Cluster) (x : UInt64) (m : Member) : Cluster :=
  { σ with members := fun y => if y = x then some m else σ.members y }

/-- a node that runs is changed (every node has its own `RemoteNodeStore`, `/repo/coerce/src/remote/cluster/node.rs`
16-19). -/
def Cluster.change (σ : Cluster) (x : UInt64) (f : Member → Member) : Cluster :=
  match σ.members x with
  | some m => σ.put x (f m)
  | none => σ

/-- what was written is under way, if writing succeeded (`/repo/coerce/src/remote/net/client/send.rs` 74-133). -/
def Cluster.send (σ : Cluster) (bs : Option Bytes) (mk : Bytes → Told) : Cluster :=
  match bs with
  | some b => if b.length ≤ maxFrame then { σ with told := σ.told ++ [mk b] } else σ
  | none => σ

/-- accounts are kept (a log that no code reads; they go to `Discover`,
`/repo/coerce/src/remote/cluster/discovery/mod.rs` 112, and to the caches, 295-335). -/
def Member.hear (m : Member) (l : List Node) : Member := { m with heard := m.heard ++ l }

/-- the accounts a message brings to its receiver; `none` if it is something else or reading it panics. Of an identity
only the account of the node itself is used, its peers are asked themselves.
(`/repo/coerce/src/remote/net/client/receive.rs` 62-74, `/repo/coerce/src/remote/net/server/session/mod.rs` 470-494.)
-/
def Told.accounts (c : Conf) : Told → Option (List Node)
  | .identity _ bs => match ClientEvent.read bs with
    | .ok (.identity e) => (readIdentity e).map fun r => [r.1]
    | _ => none
  | .handshake to ip bs => match SessionEvent.read bs with
    | .ok (.handshake e) => readHandshake c to ip e
    | _ => none

/-- the node a message goes to: the peer of the connection (`/repo/coerce/src/remote/net/client/mod.rs` 35-46). -/
def Told.to : Told → UInt64
  | .identity to _ => to
  | .handshake to _ _ => to

/-- one of the operations (`/repo/coerce/src/remote/cluster/discovery/mod.rs` 112-151,
`/repo/coerce/src/remote/net/server/session/mod.rs` 437-525). -/
def Cluster.step (c : Conf) (σ : Cluster) : Op → Cluster
  | .start a => match σ.members a.id with
    | none => σ.put a.id (.fresh a)
    | some _ => σ
  | .reboot a => σ.change a.id fun _ => .fresh a
  | .identify x y version caps => match σ.members x, σ.members y with
    | some _, some m => σ.send (ClientEvent.write (.identity (identityOf m.own m.all version caps))) (.identity x)
    | _, _ => σ
  | .shake x y ip trace kind => match σ.members x with
    | some m => σ.send (SessionEvent.write (.handshake (handshakeOf m.own m.alive trace kind))) (.handshake y ip)
    | none => σ
  | .deliver i => match σ.told[i]? with
    | some t => { σ with told := σ.told.eraseIdx i }.change t.to fun m => m.hear ((t.accounts c).getD [])
    | none => σ
  | .lose i => { σ with told := σ.told.eraseIdx i }
  | .register x i => σ.change x fun m => match m.heard[i]? with
    | some a => m.register a
    | none => m
  | .mark x id st => σ.change x fun m => m.mark id st

/-- any sequence of operations, from no node at all (`/repo/coerce/src/remote/cluster/discovery/mod.rs` 55-234,
`/repo/coerce/src/remote/net/server/session/mod.rs` 437-525). -/
def Cluster.run (c : Conf) (ops : List Op) : Cluster := ops.foldl (Cluster.step c) {}

end Verif.Remote.Gossip
