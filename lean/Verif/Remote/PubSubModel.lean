import Verif.Assoc
import Verif.Util

/-!
# Publish/subscribe

`/repo/coerce/src/remote/stream/mediator/mod.rs` and `/repo/coerce/src/remote/stream/pubsub.rs`.
A `tokio::sync::broadcast` channel (external) is the list of everything sent to it: a receiver has a
position; messages more than `cap` behind the end are overwritten, and receiving there is an error.
`send` to a channel without receivers stores nothing; such messages are before the position of every
later receiver, so keeping them in the list makes no difference.
-/

namespace Verif.Remote

/-- a value of a type implementing `Topic`, `/repo/coerce/src/remote/stream/pubsub.rs` 19-27: the name
and the message type belong to the type (`ty`), the key to the value. -/
structure TopicRef where
  ty : Nat
  name : String
  msgTy : Nat
  key : String
deriving DecidableEq, Repr

/-- `TopicSubscriberStore<T>`, `/repo/coerce/src/remote/stream/pubsub.rs` 119-122. -/
structure TStore (M : Type) where
  ty : Nat
  msgTy : Nat
  chans : Assoc String (List M) := []
deriving DecidableEq, Repr

/-- the task behind a `Subscription`, `/repo/coerce/src/remote/stream/pubsub.rs` 212-230: its receiver and what it has
passed to the actor. -/
structure Sub (M : Type) where
  name : String
  key : String
  pos : Nat
  alive : Bool := true
  got : List M := []
deriving DecidableEq, Repr

/-- `StreamMediator`, `/repo/coerce/src/remote/stream/mediator/mod.rs` 21-26, and the subscription tasks
started by it. `dead`: a handler panicked, which ends the actor. -/
structure Med (M : Type) where
  topics : Assoc String (TStore M) := []
  subs : Assoc Nat (Sub M) := []
  dead : Bool := false
deriving DecidableEq, Repr

variable {M : Type}

/-- everything sent to the channel of a topic name and key. (What was given to `broadcast`,
`/repo/coerce/src/remote/stream/pubsub.rs` 143-157.) -/
def Med.log (σ : Med M) (name key : String) : Option (List M) :=
  (σ.topics.get name).bind fun s => s.chans.get key

/-- `TopicSubscriberStore::receiver`, `/repo/coerce/src/remote/stream/pubsub.rs` 131-141: the channel is
made if missing. -/
def TStore.receiver (s : TStore M) (key : String) : TStore M × Nat :=
  match s.chans.get key with
  | some l => (s, l.length)
  | none => ({ s with chans := s.chans.insert key [] }, 0)

/-- `StreamMediator::subscribe`, `/repo/coerce/src/remote/stream/mediator/mod.rs` 96-135: refused
(`false`) if the name is taken by a topic of another type. -/
def Med.subscribe (σ : Med M) (id : Nat) (t : TopicRef) : Med M × Bool :=
  let s := (σ.topics.get t.name).getD { ty := t.ty, msgTy := t.msgTy }
  if s.ty = t.ty then
    let (s', pos) := s.receiver t.key
    ({ σ with topics := σ.topics.insert t.name s'
              subs := σ.subs.insert id { name := t.name, key := t.key, pos := pos } }, true)
  else ({ σ with topics := σ.topics.insert t.name s }, false)

/-- `TopicSubscriberStore::broadcast`, `/repo/coerce/src/remote/stream/pubsub.rs` 143-155. -/
def TStore.broadcast (s : TStore M) (key : String) (m : M) : TStore M :=
  { s with chans := s.chans.update key (· ++ [m]) }

/-- `Handler<Publish<T>>`, local part, `/repo/coerce/src/remote/stream/mediator/mod.rs` 186-189, with
`emit` (`/repo/coerce/src/remote/stream/pubsub.rs` 178-182), whose downcast panics if the message is of another type. -/
def Med.publish (σ : Med M) (t : TopicRef) (m : M) : Med M :=
  match σ.topics.get t.name with
  | none => σ
  | some s => if s.msgTy = t.msgTy then { σ with topics := σ.topics.insert t.name (s.broadcast t.key m) }
              else { σ with dead := true }

/-- `Handler<PublishRaw>`, 256-264, with `emit_serialised` (`/repo/coerce/src/remote/stream/pubsub.rs` 160-176): the message received
from another node, `none` if it cannot be read. -/
def Med.publishRaw (σ : Med M) (name key : String) : Option M → Med M
  | none => σ
  | some m => match σ.topics.get name with
    | none => σ
    | some s => { σ with topics := σ.topics.insert name (s.broadcast key m) }

/-- one turn of the subscription task, `/repo/coerce/src/remote/stream/pubsub.rs` 221-226: an error from the receiver (too far behind)
ends the loop. -/
def Sub.pump (cap : Nat) (log : List M) (s : Sub M) : Sub M :=
  if !s.alive then s
  else if s.pos + cap < log.length then { s with alive := false }
  else match log[s.pos]? with
    | none => s
    | some m => { s with pos := s.pos + 1, got := s.got ++ [m] }

/-- Operations. `unsubscribe` is `Subscription::unsubscribe` or dropping it
(`/repo/coerce/src/remote/stream/pubsub.rs` 197-209), and stands also for the receiving actor having stopped, which
makes the task panic. -/
inductive MedOp (M : Type) where
  | subscribe (id : Nat) (t : TopicRef)
  | publish (t : TopicRef) (m : M)
  | publishRaw (name key : String) (m : Option M)
  | pump (id : Nat)
  | unsubscribe (id : Nat)
deriving DecidableEq, Repr

/-- one operation on the mediator of a node, `/repo/coerce/src/remote/stream/mediator/mod.rs` 95-136 and 179-277, or
on a subscription, `/repo/coerce/src/remote/stream/pubsub.rs` 197-230. -/
def Med.step (cap : Nat) (σ : Med M) : MedOp M → Med M
  | .subscribe id t => if σ.dead then σ else (σ.subscribe id t).1
  | .publish t m => if σ.dead then σ else σ.publish t m
  | .publishRaw n k m => if σ.dead then σ else σ.publishRaw n k m
  | .pump id => { σ with subs := σ.subs.update id fun s => s.pump cap ((σ.log s.name s.key).getD []) }
  | .unsubscribe id => { σ with subs := σ.subs.update id fun s => { s with alive := false } }

/-- any sequence of such operations (`/repo/coerce/src/remote/stream/mediator/mod.rs` 95-277). -/
def Med.run (cap : Nat) (σ : Med M) (ops : List (MedOp M)) : Med M := ops.foldl (Med.step cap) σ

/-! Publishing to the cluster -/

/-- one publishing node, one other node, and the messages under way between them.
(`/repo/coerce/src/remote/stream/mediator/mod.rs` 21-26 and 179-224.) -/
structure Mesh (M : Type) where
  here : Med M := {}
  /-- `StreamMediator::nodes` of the publishing node contains the other one. -/
  knows : Bool := false
  there : Med M := {}
  /-- spawned sending tasks, `/repo/coerce/src/remote/stream/mediator/mod.rs` 199-212. -/
  flying : List (String × String × M) := []
deriving DecidableEq, Repr

/-- Operations: anything on either node, publishing to the cluster (`/repo/coerce/src/remote/stream/mediator/mod.rs`
180-224), running the `i`-th of the spawned tasks, and `NodeAdded`/`NodeRemoved` (149-172). -/
inductive MeshOp (M : Type) where
  | here (op : MedOp M)
  | there (op : MedOp M)
  | publish (t : TopicRef) (m : M)
  | deliver (i : Nat)
  | added
  | removed
deriving DecidableEq, Repr

/-- one operation, `/repo/coerce/src/remote/stream/mediator/mod.rs` 149-277. -/
def Mesh.step (cap : Nat) (σ : Mesh M) : MeshOp M → Mesh M
  | .here op => { σ with here := σ.here.step cap op }
  | .there op => { σ with there := σ.there.step cap op }
  | .publish t m =>
    if σ.here.dead then σ
    else
      let h := σ.here.publish t m
      if h.dead then { σ with here := h }
      else if σ.knows then { σ with here := h, flying := σ.flying ++ [(t.name, t.key, m)] }
      else { σ with here := h }
  | .deliver i =>
    match σ.flying[i]? with
    | none => σ
    | some (n, k, m) => { σ with flying := σ.flying.eraseIdx i
                                 there := σ.there.step cap (.publishRaw n k (some m)) }
  | .added => { σ with knows := true }
  | .removed => { σ with knows := false }

/-- any sequence of operations, `/repo/coerce/src/remote/stream/mediator/mod.rs` 149-277. -/
def Mesh.run (cap : Nat) (σ : Mesh M) (ops : List (MeshOp M)) : Mesh M := ops.foldl (Mesh.step cap) σ

end Verif.Remote
