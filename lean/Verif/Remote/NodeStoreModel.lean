import Verif.Remote.HeartbeatModel

/-!
# The node directory and its hash ring (`RemoteNodeStore`)

The hash functions are parameters: `h` of nodes (`/repo/coerce/src/remote/cluster/node.rs` 82-89, over
id, address, tag and start time, through the SipHash of `hashring`), and the key looked up is given by
its hash.
-/

namespace Verif.Remote

/-- `RemoteNode`, `/repo/coerce/src/remote/cluster/node.rs` 53-60, without the attributes, which are not
hashed. -/
structure RNode where
  id : Nat
  addr : String
  tag : String
  startedAt : Option Int
deriving DecidableEq, Repr

/-- `RemoteNodeState`, `/repo/coerce/src/remote/cluster/node.rs` 41-51: a node and its status; the ping times are left
out. -/
structure NState where
  node : RNode
  status : NodeStatus
deriving DecidableEq, Repr

/-- `HashRing` of crate `hashring` 0.3.2 (external): entries sorted by key. (Used in
`/repo/coerce/src/remote/cluster/node.rs` 18.) -/
abbrev Ring := List (Nat × RNode)

/-- `HashRing::add`: push, then sort by key. (Used in `/repo/coerce/src/remote/cluster/node.rs` 105 and 159.) -/
def ringAdd (h : RNode → Nat) (r : Ring) (n : RNode) : Ring :=
  isort (fun a b => decide (a.1 ≤ b.1)) (r ++ [(h n, n)])

/-- `HashRing::remove`: search the key of the node, remove that entry. With equal keys the binary search may find any
of them; here the first. (Used in `/repo/coerce/src/remote/cluster/node.rs` 141.) -/
def ringRemove (h : RNode → Nat) : Ring → RNode → Ring
  | [], _ => []
  | e :: r, n => if e.1 = h n then r else e :: ringRemove h r n

/-- `HashRing::get`: the first entry with a key not below, or the first of all. (Used in
`/repo/coerce/src/remote/cluster/node.rs` 146.) -/
def ringGet (r : Ring) (k : Nat) : Option RNode :=
  ((r.find? fun e => decide (k ≤ e.1)).or r.head?).map (·.2)

/-- `RemoteNodeStore`, `/repo/coerce/src/remote/cluster/node.rs` 16-19. -/
structure NStore where
  nodes : Assoc Nat NState := []
  ring : Ring := []
deriving DecidableEq, Repr

/-- collecting states into the map, later entries win. (`/repo/coerce/src/remote/cluster/node.rs` 155-162.) -/
def collectNodes (l : List NState) : Assoc Nat NState :=
  l.foldl (fun m s => m.insert s.node.id s) []

/-- `RemoteNodeStore::add`, `/repo/coerce/src/remote/cluster/node.rs` 149-163: all known nodes and the new one
(joining), sorted by id; the ring and the map are rebuilt from that. -/
def NStore.add (h : RNode → Nat) (σ : NStore) (n : RNode) : NStore :=
  let all := isort (fun a b => decide (a.node.id ≤ b.node.id)) (σ.nodes.map (·.2) ++ [⟨n, .joining⟩])
  { nodes := collectNodes all, ring := all.foldl (fun r s => ringAdd h r s.node) [] }

/-- `RemoteNodeStore::update_nodes`, `/repo/coerce/src/remote/cluster/node.rs` 113-117, for one node. -/
def NStore.update (σ : NStore) (s : NState) : NStore := { σ with nodes := σ.nodes.insert s.node.id s }

/-- `RemoteNodeStore::node_terminated`, `/repo/coerce/src/remote/cluster/node.rs` 119-124. -/
def NStore.terminated (σ : NStore) (id : Nat) : NStore :=
  { σ with nodes := σ.nodes.update id fun s => { s with status := .terminated } }

/-- `RemoteNodeStore::remove`, `/repo/coerce/src/remote/cluster/node.rs` 138-143. -/
def NStore.remove (h : RNode → Nat) (σ : NStore) (id : Nat) : NStore :=
  match σ.nodes.get id with
  | none => σ
  | some s => { nodes := σ.nodes.erase id, ring := ringRemove h σ.ring s.node }

/-- the calls made on the store: `/repo/coerce/src/remote/cluster/node.rs` 113-163. -/
inductive NStoreOp where
  | add (n : RNode)
  | update (s : NState)
  | terminated (id : Nat)
  | remove (id : Nat)
deriving DecidableEq, Repr

/-- one call, `/repo/coerce/src/remote/cluster/node.rs` 113-163. -/
def NStore.step (h : RNode → Nat) (σ : NStore) : NStoreOp → NStore
  | .add n => σ.add h n
  | .update s => σ.update s
  | .terminated id => σ.terminated id
  | .remove id => σ.remove h id

/-- any sequence of calls on an empty store, `/repo/coerce/src/remote/cluster/node.rs` 98-163. -/
def NStore.run (h : RNode → Nat) (ops : List NStoreOp) : NStore := ops.foldl (NStore.step h) {}

/-- `RemoteNodeStore::get_by_key`, `/repo/coerce/src/remote/cluster/node.rs` 145-147, for a key with hash `k`. -/
def NStore.byKey (σ : NStore) (k : Nat) : Option RNode := ringGet σ.ring k

end Verif.Remote
