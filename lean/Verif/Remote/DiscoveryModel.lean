import Verif.Assoc
import Verif.Util

/-!
# Node discovery

`/repo/coerce/src/remote/cluster/discovery/mod.rs`. What other nodes answer (`identify`), and whether a
client for an address can be made, are parameters of each operation. The completion replies are in
`Verif.Remote.DiscReplyModel`.
-/

namespace Verif.Remote

/-- `RemoteNode`: id and address. (`/repo/coerce/src/remote/cluster/node.rs` 54-60.) -/
structure DNode where
  id : Nat
  addr : String
deriving DecidableEq, Repr

/-- `NodeIdentity`, `/repo/coerce/src/remote/cluster/node.rs` 91-96. -/
structure Identity where
  node : DNode
  peers : List DNode
deriving DecidableEq, Repr

/-- the outside world during one operation: what is answered at an address (`None`: no client, no answer or an error),
and whether a client for an address can be made. (`/repo/coerce/src/remote/cluster/discovery/mod.rs` 290-335.) -/
structure DEnv where
  identify : String → Option Identity
  client : String → Bool

/-- `NodeDiscovery`, `/repo/coerce/src/remote/cluster/discovery/mod.rs` 18-24, with the parts of the
system it works on. -/
structure Disc where
  discovering : List Nat := []
  byAddr : Assoc String Identity := []
  byId : Assoc Nat Identity := []
  /-- the registry: nodes, and whether they are `Terminated`. -/
  reg : Assoc Nat Bool := []
  /-- `Discover` messages with nodes, sent to itself (94-99) and not handled yet. -/
  queue : List (List DNode) := []
  /-- handshakes under way, `/repo/coerce/src/remote/cluster/discovery/mod.rs` 143-148. -/
  shakes : List DNode := []
  /-- nodes announced with `NodeAdded` and `NodeRemoved`. -/
  added : List Nat := []
  removed : List Nat := []
deriving DecidableEq, Repr

/-- `NodeDiscovery::get_node_identity`, `/repo/coerce/src/remote/cluster/discovery/mod.rs` 290-335. -/
def Disc.getIdentity (env : DEnv) (σ : Disc) (addr : String) : Disc × Option Identity :=
  match σ.byAddr.get addr with
  | some i => (σ, some i)
  | none => match env.identify addr with
    | none => (σ, none)
    | some i =>
      ({ σ with byAddr := (σ.byAddr.insert addr i).insert i.node.addr i
                byId := σ.byId.insert i.node.id i }, some i)

/-- `NodeDiscovery::discover_nodes`, `/repo/coerce/src/remote/cluster/discovery/mod.rs` 265-288: the peers of one node. -/
def Disc.discoverPeers (env : DEnv) (self : Nat) :
    List DNode → Disc × Assoc Nat Identity → Disc × Assoc Nat Identity
  | [], s => s
  | p :: ps, (σ, found) =>
    if p.id = self then discoverPeers env self ps (σ, found)
    else match found.get p.id with
      | some _ => discoverPeers env self ps (σ, found)
      | none => match σ.getIdentity env p.addr with
        | (σ', none) => discoverPeers env self ps (σ', found)
        | (σ', some i) => discoverPeers env self ps (σ', found.insert p.id i)

/-- the second round, `/repo/coerce/src/remote/cluster/discovery/mod.rs` 79-92: the peers of every node found so far; the map is iterated in some order,
here newest first. -/
def Disc.discoverAll (env : DEnv) (self : Nat) :
    List Identity → Disc × Assoc Nat Identity → Disc × Assoc Nat Identity
  | [], s => s
  | i :: is, s => discoverAll env self is (Disc.discoverPeers env self i.peers s)

/-- `Handler<Discover>` with an address, `/repo/coerce/src/remote/cluster/discovery/mod.rs` 61-110. -/
def Disc.discoverAddr (env : DEnv) (self : Nat) (σ : Disc) (addr : String) : Disc :=
  match σ.byAddr.get addr with
  | some _ => σ
  | none => match σ.getIdentity env addr with
    | (σ', none) => σ'
    | (σ', some seed) =>
      let s := Disc.discoverPeers env self seed.peers (σ', [(seed.node.id, seed)])
      let (σ'', found) := if 1 < s.2.length then Disc.discoverAll env self s.2.vals s else s
      { σ'' with queue := σ''.queue ++ [found.vals.map (·.node)] }

/-- one node of the list, `/repo/coerce/src/remote/cluster/discovery/mod.rs` 126-151; `current`: the nodes known and not terminated when the message was
taken up. -/
def Disc.tryNode (env : DEnv) (current : List Nat) (σ : Disc) (n : DNode) : Disc :=
  if n.id ∉ current ∧ n.id ∉ σ.discovering ∧ env.client n.addr = true then
    { σ with reg := σ.reg.insert n.id false
             discovering := n.id :: σ.discovering
             shakes := σ.shakes ++ [n] }
  else σ

/-- the nodes known and not terminated, `/repo/coerce/src/remote/cluster/discovery/mod.rs` 113-119. -/
def Disc.current (σ : Disc) : List Nat := (σ.reg.filter fun p => !p.2).map (·.1)

/-- `Handler<Discover>` with nodes, `/repo/coerce/src/remote/cluster/discovery/mod.rs` 112-166. -/
def Disc.discoverNodes (env : DEnv) (σ : Disc) (ns : List DNode) : Disc :=
  ns.foldl (Disc.tryNode env σ.current) σ

/-- `Handler<NodeDiscovered>`, `/repo/coerce/src/remote/cluster/discovery/mod.rs` 212-234. -/
def Disc.nodeDiscovered (σ : Disc) (n : DNode) (ok : Bool) : Disc :=
  if ok then
    if n.id ∈ σ.discovering then
      { σ with discovering := σ.discovering.filter (· ≠ n.id), added := σ.added ++ [n.id] }
    else σ
  else σ

/-- `Handler<Forget>`, `/repo/coerce/src/remote/cluster/discovery/mod.rs` 172-200. -/
def Disc.forget (σ : Disc) (addr : String) : Disc :=
  match σ.byAddr.get addr with
  | none => σ
  | some i =>
    { σ with byAddr := σ.byAddr.erase addr
             byId := σ.byId.erase i.node.id
             removed := if (σ.byId.get i.node.id).isSome then σ.removed ++ [i.node.id] else σ.removed }

/-- Operations. `nodes`: a `Discover` with nodes, from the queue or from a handshake of another node; `shaken i ok`:
the `i`-th handshake ends (`/repo/coerce/src/remote/cluster/discovery/mod.rs` 246-258) and its `NodeDiscovered` is
handled; `status`: the heartbeat or a termination notice sets the status in the registry (`true`: terminated). -/
inductive DOp where
  | discover (env : DEnv) (addr : String)
  | next (env : DEnv)
  | nodes (env : DEnv) (ns : List DNode)
  | shaken (i : Nat) (ok : Bool)
  | forget (addr : String)
  | status (id : Nat) (terminated : Bool)

/-- one message handled, `/repo/coerce/src/remote/cluster/discovery/mod.rs` 55-234. -/
def Disc.step (self : Nat) (σ : Disc) : DOp → Disc
  | .discover env addr => σ.discoverAddr env self addr
  | .next env => match σ.queue with
    | [] => σ
    | ns :: q => ({ σ with queue := q }).discoverNodes env ns
  | .nodes env ns => σ.discoverNodes env ns
  | .shaken i ok => match σ.shakes[i]? with
    | none => σ
    | some n => ({ σ with shakes := σ.shakes.eraseIdx i }).nodeDiscovered n ok
  | .forget addr => σ.forget addr
  | .status id t => { σ with reg := σ.reg.update id fun _ => t }

/-- any sequence of messages, `/repo/coerce/src/remote/cluster/discovery/mod.rs` 55-234. -/
def Disc.run (self : Nat) (σ : Disc) (ops : List DOp) : Disc := ops.foldl (Disc.step self) σ

end Verif.Remote
