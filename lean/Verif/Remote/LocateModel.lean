import Verif.Assoc
import Verif.Util

/-!
# Finding the node of an actor

`/repo/coerce/src/remote/actor/registry.rs` 104-233 and `/repo/coerce/src/remote/system/actor.rs`
35-113, 183-241, for a whole cluster: every node has a registry, and all nodes share one view of which
node is assigned to an actor id (the hash ring of C29).
-/

namespace Verif.Remote

/-- the cluster. (`/repo/coerce/src/remote/actor/registry.rs` 21-26; `/repo/coerce/src/actor/scheduler/mod.rs` 23-29.)
-/
structure Loc where
  /-- `RemoteRegistry::actors` of every node, keyed by node and actor id,
  `/repo/coerce/src/remote/actor/registry.rs` 21-26. -/
  reg : Assoc (Nat × String) Nat := []
  /-- `SessionEvent::RegisterActor` under way: to, actor, node it is on. -/
  flying : List (Nat × String × Nat) := []
  /-- actors running on nodes. -/
  running : List (Nat × String) := []
  /-- the node assigned to an actor id, `nodes.get_by_key`; `none` if the ring is empty. -/
  view : String → Option Nat

/-- the node assigned, as seen by node `n`: itself if the ring is empty,
`/repo/coerce/src/remote/actor/registry.rs` 114-124 and 210-211. -/
def Loc.owner (σ : Loc) (n : Nat) (a : String) : Nat := (σ.view a).getD n

/-- `Handler<RegisterActor>` without a node id, on node `n`, `/repo/coerce/src/remote/actor/registry.rs` 207-230. -/
def Loc.register (σ : Loc) (n : Nat) (a : String) : Loc :=
  if σ.owner n a = n then { σ with reg := σ.reg.insert (n, a) n }
  else { σ with flying := σ.flying ++ [(σ.owner n a, a, n)] }

/-- `Handler<GetActorNode>` on node `n`, 104-190, if every question is answered in time: an entry of its
own registry; otherwise the answer of the assigned node, which is asked with `FindActor` and answers
with its own lookup (`/repo/coerce/src/remote/net/server/session/mod.rs` 566-588). -/
def Loc.lookup (σ : Loc) (n : Nat) (a : String) : Option Nat :=
  match σ.reg.get (n, a) with
  | some m => some m
  | none => if σ.owner n a = n then none else σ.reg.get (σ.owner n a, a)

/-- the lookup if the assigned node does not answer: after 5 s the caller gives up,
`/repo/coerce/src/remote/system/actor.rs` 87-106. -/
def Loc.lookupUnanswered (σ : Loc) (n : Nat) (a : String) : Option Nat := σ.reg.get (n, a)

/-- Operations.
* `start n a`: an actor starts on node `n` and is registered
  (`/repo/coerce/src/actor/scheduler/mod.rs` 210-217);
* `create n a`: `handle_create_actor` on node `n`, `/repo/coerce/src/remote/system/actor.rs` 183-241:
  refused if the lookup finds the id;
* `deliver i`: a `RegisterActor` arrives (`/repo/coerce/src/remote/net/server/session/mod.rs` 308-314); `lose i`: it does not;
* `stop n a`: the actor stops; the scheduler forgets it, nobody tells the registry;
* `view v`: membership has changed everywhere. -/
inductive LocOp where
  | start (n : Nat) (a : String)
  | create (n : Nat) (a : String)
  | deliver (i : Nat)
  | lose (i : Nat)
  | stop (n : Nat) (a : String)
  | view (v : String → Option Nat)

/-- an actor starts on node `n` and is registered, `/repo/coerce/src/actor/scheduler/mod.rs` 188-219 and
`/repo/coerce/src/remote/actor/registry.rs` 192-233. -/
def Loc.start (σ : Loc) (n : Nat) (a : String) : Loc :=
  ({ σ with running := (n, a) :: σ.running }).register n a

/-- `handle_create_actor`: the new state and whether it was accepted (else `ActorExists`).
(`/repo/coerce/src/remote/system/actor.rs` 183-241.) -/
def Loc.create (σ : Loc) (n : Nat) (a : String) : Loc × Bool :=
  if (σ.lookup n a).isSome then (σ, false) else (σ.start n a, true)

/-- one of the operations, `/repo/coerce/src/remote/actor/registry.rs` 104-233,
`/repo/coerce/src/remote/system/actor.rs` 35-113 and 183-241. -/
def Loc.step (σ : Loc) : LocOp → Loc
  | .start n a => σ.start n a
  | .create n a => (σ.create n a).1
  | .deliver i =>
    match σ.flying[i]? with
    | none => σ
    | some (o, a, n) => { σ with flying := σ.flying.eraseIdx i, reg := σ.reg.insert (o, a) n }
  | .lose i => { σ with flying := σ.flying.eraseIdx i }
  | .stop n a => { σ with running := σ.running.filter (· ≠ (n, a)) }
  | .view v => { σ with view := v }

/-- any sequence of operations, `/repo/coerce/src/remote/actor/registry.rs` 104-233. -/
def Loc.run (v : String → Option Nat) (ops : List LocOp) : Loc := ops.foldl Loc.step { view := v }

end Verif.Remote
