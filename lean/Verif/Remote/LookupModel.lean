import Verif.Remote.NodeStoreModel

/-!
# Looking up actors when the nodes do not know the same nodes

`LocateModel` has one view of the cluster for all nodes and answers a question in one step. Here every node has a directory and a
ring of its own (`NStore`), and a question goes from node to node: a node that has no entry asks the node its ring names
(`/repo/coerce/src/remote/actor/registry.rs` 104-190), which does the same with its own ring
(`/repo/coerce/src/remote/net/server/session/mod.rs` 566-590 calls `locate_actor_node` again). Answers come back along the same
nodes. Actor ids are numbers with a hash `key`; `h` is the hash of a node's details.
-/

namespace Verif.Remote.Lookup

/-- where a question is: `/repo/coerce/src/remote/actor/registry.rs` 104-190,
`/repo/coerce/src/remote/net/server/session/mod.rs` 566-588. -/
inductive Phase where
  /-- the node asked last still has to look. -/
  | asking
  /-- the answer is on its way back. -/
  | back (r : Option Nat)
deriving DecidableEq, Repr

/-- a question under way: the nodes asked, the last one first. (`/repo/coerce/src/remote/actor/registry.rs` 104-190.)
-/
structure Chain where
  actor : Nat
  path : List Nat
  phase : Phase
  /-- who gets the answer; `none`: everybody has given up. -/
  caller : Option Nat
deriving DecidableEq, Repr

/-- the registries of all nodes, `/repo/coerce/src/remote/actor/registry.rs` 21-26, and the questions under way,
104-190. -/
structure St where
  /-- `RemoteRegistry::nodes` of every node, `/repo/coerce/src/remote/actor/registry.rs` 21-26. -/
  stores : Nat → NStore := fun _ => {}
  /-- `RemoteRegistry::actors` of every node. -/
  reg : Nat → Nat → Option Nat := fun _ _ => none
  /-- `SessionEvent::RegisterActor` under way: to, actor, node it is on. -/
  flying : List (Nat × Nat × Nat) := []
  chains : List Chain := []
  /-- callers that have got an answer, and the answer. -/
  results : List (Nat × Option Nat) := []

/-- what can happen: registrations (`/repo/coerce/src/remote/actor/registry.rs` 73-84 and 192-233) and the steps of
questions (`/repo/coerce/src/remote/actor/registry.rs` 104-190, `/repo/coerce/src/remote/system/actor.rs` 64-113). -/
inductive Op where
  /-- node `x` registers a node, `/repo/coerce/src/remote/actor/registry.rs` 73-84. -/
  | learn (x : Nat) (n : RNode)
  /-- an actor starts on node `x` and is registered. -/
  | start (x a : Nat)
  /-- a registration arrives. -/
  | arrive (i : Nat)
  /-- a registration is lost. -/
  | drop (i : Nat)
  /-- `locate_actor_node` on node `x`, `/repo/coerce/src/remote/system/actor.rs` 64-113. -/
  | ask (x a c : Nat)
  /-- the node asked last looks. -/
  | look (i : Nat)
  /-- an answer goes back to the node that asked, or to the caller. -/
  | back (i : Nat)
  /-- the node at place `k` (from the last asked) has waited five seconds, `/repo/coerce/src/remote/system/actor.rs` 87-106:
  whoever asked it is answered `None`; those it asked go on for nobody. -/
  | giveUp (i k : Nat)
  /-- the question to the node asked last, or its answer, is lost, and the node that asked gives up. -/
  | lost (i : Nat)
deriving DecidableEq, Repr

/-- the node responsible for an actor, as node `x` sees it, `/repo/coerce/src/remote/actor/registry.rs` 114-124, 210-211. -/
def St.owner (key : Nat → Nat) (σ : St) (x a : Nat) : Nat := (((σ.stores x).byKey (key a)).map (·.id)).getD x

/-- `actors.insert`, `/repo/coerce/src/remote/actor/registry.rs` 218-226. -/
def St.setReg (σ : St) (x a n : Nat) : St :=
  { σ with reg := fun y b => if y = x ∧ b = a then some n else σ.reg y b }

/-- `Handler<RegisterActor>` without a node, `/repo/coerce/src/remote/actor/registry.rs` 207-230. -/
def St.start (key : Nat → Nat) (σ : St) (x a : Nat) : St :=
  if σ.owner key x a = x then σ.setReg x a x
  else { σ with flying := σ.flying ++ [(σ.owner key x a, a, x)] }

/-- `Handler<GetActorNode>`, `/repo/coerce/src/remote/actor/registry.rs` 104-190. -/
def St.look (key : Nat → Nat) (σ : St) (c : Chain) (x : Nat) : Chain :=
  match σ.reg x c.actor with
  | some m => { c with phase := .back (some m) }
  | none =>
    if σ.owner key x c.actor = x then { c with phase := .back none }
    else { c with path := σ.owner key x c.actor :: c.path }

/-- one of the operations, `/repo/coerce/src/remote/actor/registry.rs` 73-233. -/
def St.step (h : RNode → Nat) (key : Nat → Nat) (σ : St) : Op → St
  | .learn x n => { σ with stores := fun y => if y = x then (σ.stores x).add h n else σ.stores y }
  | .start x a => σ.start key x a
  | .arrive i =>
    match σ.flying[i]? with
    | none => σ
    | some (o, a, n) => { σ with flying := σ.flying.eraseIdx i }.setReg o a n
  | .drop i => { σ with flying := σ.flying.eraseIdx i }
  | .ask x a c => { σ with chains := σ.chains ++ [⟨a, [x], .asking, some c⟩] }
  | .look i =>
    match σ.chains[i]? with
    | some ⟨a, x :: p, .asking, c⟩ => { σ with chains := σ.chains.set i (σ.look key ⟨a, x :: p, .asking, c⟩ x) }
    | _ => σ
  | .back i =>
    match σ.chains[i]? with
    | some ⟨a, _ :: y :: p, .back r, c⟩ => { σ with chains := σ.chains.set i ⟨a, y :: p, .back r, c⟩ }
    | some ⟨_, [_], .back r, c⟩ =>
      { σ with chains := σ.chains.eraseIdx i, results := σ.results ++ c.toList.map fun c => (c, r) }
    | _ => σ
  | .giveUp i k =>
    match σ.chains[i]? with
    | some ⟨a, p, f, c⟩ =>
      if 0 < k ∧ k < p.length then
        { σ with chains := σ.chains.set i ⟨a, p.drop k, .back none, c⟩ ++ [⟨a, p.take k, f, none⟩] }
      else σ
    | none => σ
  | .lost i =>
    match σ.chains[i]? with
    | some ⟨a, _ :: y :: p, _, c⟩ => { σ with chains := σ.chains.set i ⟨a, y :: p, .back none, c⟩ }
    | _ => σ

/-- any sequence of operations, `/repo/coerce/src/remote/actor/registry.rs` 73-233. -/
def run (h : RNode → Nat) (key : Nat → Nat) (ops : List Op) : St := ops.foldl (St.step h key) {}

end Verif.Remote.Lookup
