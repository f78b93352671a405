import Verif.Util
import Verif.Assoc

/-!
# The paths of actors and the comparison of references

Which path an actor is given when it is started, and what `==` on `LocalActorRef` compares. Actors are numbered in the
order in which they are started; the number stands for the actor itself (its mailbox), which no reference shows.
Registration with the scheduler is C17, the supervision of children C16.
-/

namespace Verif.Actor.Path

/-- an actor as far as paths go: its `LocalActorRef` (id and path, `/repo/coerce/src/actor/refs/mod.rs` 42-44) and of
its context `/repo/coerce/src/actor/context.rs` 31-46 the parent and the `Supervised`
(`/repo/coerce/src/actor/supervised.rs` 13-18). -/
structure Node where
  id : String
  path : String
  /-- `boxed_parent_ref`. -/
  parent : Option Nat := none
  /-- `Supervised::path`, once the actor has a `Supervised`. -/
  sup : Option String := none
  /-- `Supervised::children`. -/
  children : Assoc String Nat := []
  alive : Bool := true
  /-- its parent has handled the notice of its end. -/
  noticed : Bool := false
deriving DecidableEq, Repr

/-- `ActorContext::full_path`, `/repo/coerce/src/actor/context.rs` 61-62 and 89-91. -/
def Node.full (n : Node) : String := n.path ++ "/" ++ n.id

/-- an actor system: its name (`/repo/coerce/src/actor/system/mod.rs` 22-52) and all actors ever started, in the order
of their numbers. -/
structure Sys where
  name : String
  nodes : List Node := []
deriving DecidableEq, Repr

/-- what can happen: the ways in which actors are started (`/repo/coerce/src/actor/system/mod.rs` 107-210,
`/repo/coerce/src/actor/context.rs` 162-262) and end (`/repo/coerce/src/actor/context.rs` 347-428). -/
inductive Op where
  /-- `new_actor`, `new_actor_deferred`. -/
  | root (id : String)
  /-- `new_supervised_actor`, then `add_child_ref` by the parent (how a shard gets its entities). -/
  | supervised (p : Nat) (id : String)
  /-- `ActorContext::spawn`, `spawn_deferred`. -/
  | spawn (p : Nat) (id : String)
  /-- `ActorContext::attach_child_ref` (how a host gets its shards). -/
  | attach (p c : Nat)
  /-- the actor ends. -/
  | ends (a : Nat)
  /-- the parent handles `Terminated` of an actor. -/
  | notice (a : Nat)
deriving DecidableEq, Repr

/-- change one actor. (the context of an actor is changed only by itself: `&mut ActorContext`,
`/repo/coerce/src/actor/context.rs` 31-46.) -/
def Sys.modify (σ : Sys) (a : Nat) (f : Node → Node) : Sys := { σ with nodes := σ.nodes.modify a f }

/-- `self.supervised`, created with `own` if there is none. (`/repo/coerce/src/actor/context.rs` 163-169, 202-208,
226-231.) -/
def Node.ensure (own : String) (n : Node) : Node := { n with sup := some (n.sup.getD own) }

/-- the child entry. (`/repo/coerce/src/actor/supervised.rs` 82-83 and 133-141.) -/
def Node.enter (id : String) (c : Nat) (n : Node) : Node := { n with children := n.children.insert id c }

/-- `ActorSystem::new_actor`, `/repo/coerce/src/actor/system/mod.rs` 107-179: the path is the name of the system. -/
def Sys.root (σ : Sys) (id : String) : Sys := { σ with nodes := σ.nodes ++ [{ id := id, path := σ.name }] }

/-- `ActorContext::spawn`, `/repo/coerce/src/actor/context.rs` 220-237 (`spawn_deferred` 244-262 likewise), and
`Supervised::spawn`, `/repo/coerce/src/actor/supervised.rs` 60-92. -/
def Sys.spawn (σ : Sys) (p : Nat) (id : String) : Sys :=
  match σ.nodes[p]? with
  | none => σ
  | some n =>
    if !n.alive then σ
    else if (n.children.get id).isSome then σ.modify p (Node.ensure n.full)
    else
      let sup := n.sup.getD n.full
      let σ' := (σ.modify p (Node.ensure n.full)).modify p (Node.enter id σ.nodes.length)
      { σ' with nodes := σ'.nodes ++ [{ id := id, path := sup, parent := some p }] }

/-- `ActorSystem::new_supervised_actor`, `/repo/coerce/src/actor/system/mod.rs` 181-210: the path is the name of the
system. Then `ActorContext::add_child_ref`, `/repo/coerce/src/actor/context.rs` 201-213. -/
def Sys.supervised (σ : Sys) (p : Nat) (id : String) : Sys :=
  match σ.nodes[p]? with
  | none => σ
  | some n =>
    if !n.alive then σ
    else
      let σ' := (σ.modify p (Node.ensure n.full)).modify p (Node.enter id σ.nodes.length)
      { σ' with nodes := σ'.nodes ++ [{ id := id, path := σ.name, parent := some p }] }

/-- `ActorContext::attach_child_ref`, `/repo/coerce/src/actor/context.rs` 162-172: here the `Supervised` is created with
the path of the actor, not with its full path. -/
def Sys.attach (σ : Sys) (p c : Nat) : Sys :=
  match σ.nodes[p]?, σ.nodes[c]? with
  | some n, some m =>
    if !n.alive then σ else (σ.modify p (Node.ensure n.path)).modify p (Node.enter m.id c)
  | _, _ => σ

/-- `Supervised::on_child_stopped`, `/repo/coerce/src/actor/supervised.rs` 170-176, by the id in the notice. -/
def Sys.notice (σ : Sys) (a : Nat) : Sys :=
  match σ.nodes[a]? with
  | none => σ
  | some n =>
    match n.parent with
    | none => σ
    | some p =>
      if n.alive || n.noticed then σ
      else (σ.modify a fun n => { n with noticed := true }).modify p fun m => { m with children := Assoc.erase m.children n.id }

/-- one of the operations; `ends`: the task of the actor is over (`/repo/coerce/src/actor/lifecycle.rs` 134-135). -/
def Sys.step (σ : Sys) : Op → Sys
  | .root id => σ.root id
  | .supervised p id => σ.supervised p id
  | .spawn p id => σ.spawn p id
  | .attach p c => σ.attach p c
  | .ends a => σ.modify a fun n => { n with alive := false }
  | .notice a => σ.notice a

/-- any sequence of operations; each handler runs to its end (`/repo/coerce/src/actor/lifecycle.rs` 82-128). -/
def Sys.run (σ : Sys) (ops : List Op) : Sys := ops.foldl Sys.step σ

/-- `PartialEq for LocalActorRef`, `/repo/coerce/src/actor/refs/mod.rs` 242-246, of the references to two actors. -/
def Sys.refEq (σ : Sys) (a b : Nat) : Bool :=
  match σ.nodes[a]?, σ.nodes[b]? with
  | some n, some m => decide (n.path = m.path) && decide (n.id = m.id)
  | _, _ => false

end Verif.Actor.Path
