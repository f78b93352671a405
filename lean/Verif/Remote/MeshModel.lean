import Verif.Util

/-!
# How nodes come to know each other

All nodes of a cluster together: what `NodeDiscovery` does when it is given nodes
(`/repo/coerce/src/remote/cluster/discovery/mod.rs` 112-166), and what a node does with a handshake
(`/repo/coerce/src/remote/net/server/session/mod.rs` 437-525). Which nodes a node is given at first (those it found by asking
its seed, `DiscoveryModel`) is left open. Nodes are ids; no node is taken for terminated, and none stops.
-/

namespace Verif.Remote.Peering

/-- a handshake on its way, with its id and the nodes it carries. (`/repo/coerce/src/remote/cluster/discovery/mod.rs`
236-243.) -/
structure Shake where
  id : Nat
  src : Nat
  dst : Nat
  nodes : List Nat
deriving DecidableEq, Repr

/-- who waits for a `Discover` to be done: a caller on the node, or the session that has to answer a handshake.
(`/repo/coerce/src/remote/cluster/discovery/mod.rs` 153-165; `/repo/coerce/src/remote/net/server/session/mod.rs`
503-509.) -/
inductive Cause where
  | caller (c : Nat)
  | shake (h : Nat)
deriving DecidableEq, Repr

/-- the task spawned for a `Discover`, `/repo/coerce/src/remote/cluster/discovery/mod.rs` 153-165: it waits for its
handshakes. -/
structure Batch where
  cause : Cause
  waits : List Nat
deriving DecidableEq, Repr

/-- what all nodes know and the handshakes under way (`/repo/coerce/src/remote/cluster/discovery/mod.rs` 19-24,
`/repo/coerce/src/remote/cluster/node.rs` 16-19). -/
structure St where
  /-- the registry of each node, oldest entry first; empty: the node does not run. -/
  known : Nat → List Nat := fun _ => []
  told : List Shake := []
  batches : List Batch := []
  /-- answers to handshakes under way. -/
  acks : List Nat := []
  /-- callers that have been told of the end of their discovery. -/
  done : List Nat := []
  next : Nat := 0

/-- what can happen: a node starts, somebody tells it of nodes (`/repo/coerce/src/remote/cluster/discovery/mod.rs`
112-166), a handshake arrives (`/repo/coerce/src/remote/net/server/session/mod.rs` 437-525), its answer arrives
(`/repo/coerce/src/remote/cluster/discovery/mod.rs` 242-262). -/
inductive Op where
  /-- a node starts, `/repo/coerce/src/remote/cluster/builder/worker.rs` 49-61. -/
  | start (x : Nat)
  /-- node `x` is given nodes to discover by a caller of its own; `ok`: to which a connection can be made. -/
  | join (x : Nat) (ns : List Nat) (c : Nat) (ok : Nat → Bool)
  /-- a handshake arrives and its nodes are looked at. -/
  | handle (i : Nat) (ok : Nat → Bool)
  /-- a handshake fails: the connection is lost. -/
  | lose (i : Nat)
  /-- all handshakes of a batch have ended. -/
  | finish (j : Nat)
  /-- the answer to a handshake arrives. -/
  | ack (k : Nat)

/-- the node runs. (A node that runs knows itself, `/repo/coerce/src/remote/cluster/builder/worker.rs` 49-61.) -/
def St.runs (σ : St) (x : Nat) : Prop := σ.known x ≠ []

instance (σ : St) (x : Nat) : Decidable (σ.runs x) := inferInstanceAs (Decidable (_ ≠ _))

/-- one node is registered and sent a handshake with the nodes then known,
`/repo/coerce/src/remote/cluster/discovery/mod.rs` 130-148. -/
def St.reg (σ : St) (x n : Nat) : St :=
  { σ with known := fun y => if y = x then σ.known x ++ [n] else σ.known y
           told := σ.told ++ [⟨σ.next, x, n, σ.known x ++ [n]⟩]
           next := σ.next + 1 }

/-- the loop over the nodes, `/repo/coerce/src/remote/cluster/discovery/mod.rs` 126-151; the ids of the handshakes begun are
collected. A node that is being discovered is known as well, as none is taken for terminated. -/
def St.regAll (ok : Nat → Bool) (x : Nat) : List Nat → St × List Nat → St × List Nat
  | [], s => s
  | n :: ns, (σ, ids) =>
    if n ∉ σ.known x ∧ σ.runs n ∧ ok n = true then regAll ok x ns (σ.reg x n, ids ++ [σ.next])
    else regAll ok x ns (σ, ids)

/-- `Handler<Discover>` with nodes, `/repo/coerce/src/remote/cluster/discovery/mod.rs` 112-166. -/
def St.discover (σ : St) (ok : Nat → Bool) (x : Nat) (c : Cause) (ns : List Nat) : St :=
  let s := St.regAll ok x ns (σ, [])
  { s.1 with batches := s.1.batches ++ [⟨c, s.2⟩] }

/-- `session_handshake`, `/repo/coerce/src/remote/net/server/session/mod.rs` 470-507: all nodes but the receiver. -/
def St.handle (σ : St) (i : Nat) (ok : Nat → Bool) : St :=
  match σ.told[i]? with
  | none => σ
  | some s => { σ with told := σ.told.eraseIdx i }.discover ok s.dst (.shake s.id) (s.nodes.filter fun n => decide (n ≠ s.dst))

/-- `/repo/coerce/src/remote/cluster/discovery/mod.rs` 242-257: the sender is told of the failure. -/
def St.lose (σ : St) (i : Nat) : St :=
  match σ.told[i]? with
  | none => σ
  | some s => { σ with told := σ.told.eraseIdx i, acks := σ.acks ++ [s.id] }

/-- `/repo/coerce/src/remote/cluster/discovery/mod.rs` 156-164; a session then answers the handshake
(`/repo/coerce/src/remote/net/server/session/mod.rs` 509-519). -/
def St.finish (σ : St) (j : Nat) : St :=
  match σ.batches[j]? with
  | some ⟨.caller c, []⟩ => { σ with batches := σ.batches.eraseIdx j, done := σ.done ++ [c] }
  | some ⟨.shake h, []⟩ => { σ with batches := σ.batches.eraseIdx j, acks := σ.acks ++ [h] }
  | _ => σ

/-- `discover_node_handshake` returns, `/repo/coerce/src/remote/cluster/discovery/mod.rs` 236-262. -/
def St.ack (σ : St) (k : Nat) : St :=
  match σ.acks[k]? with
  | none => σ
  | some h => { σ with acks := σ.acks.eraseIdx k, batches := σ.batches.map fun b => { b with waits := b.waits.erase h } }

/-- one of the operations (`/repo/coerce/src/remote/cluster/discovery/mod.rs` 112-262,
`/repo/coerce/src/remote/net/server/session/mod.rs` 437-525). -/
def St.step (σ : St) : Op → St
  | .start x => if σ.runs x then σ else { σ with known := fun y => if y = x then [x] else σ.known y }
  | .join x ns c ok => if σ.runs x then σ.discover ok x (.caller c) ns else σ
  | .handle i ok => σ.handle i ok
  | .lose i => σ.lose i
  | .finish j => σ.finish j
  | .ack k => σ.ack k

/-- any sequence of operations (`/repo/coerce/src/remote/cluster/discovery/mod.rs` 112-262,
`/repo/coerce/src/remote/net/server/session/mod.rs` 437-525). -/
def run (ops : List Op) : St := ops.foldl St.step {}

end Verif.Remote.Peering
