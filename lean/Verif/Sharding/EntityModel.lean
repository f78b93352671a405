import Verif.Sharding.ShardModel
import Verif.Sharding.SystemModel

/-!
# The entities of a shard, as the shard is started, stopped and moved

The shard of `ShardModel` with the entities it has started as actors: the tasks that create them, the results in its
mailbox, the children it knows, and what becomes of all this when the shard stops; and one shard of the whole system of
`SystemModel` with the entities of all its instances. Requests reach a running shard at any time (their ways are those of
C75). Entities end by themselves at any time, and some time after they were told to stop.
-/

namespace Verif.Sharding

/-- what the entities and the tasks that create them send to the shard: `EntityStartResult`
(`/repo/coerce/src/sharding/shard/mod.rs` 312-317) and `Terminated` (`/repo/coerce/src/actor/context.rs` 425-428). The
latter carries the id only; the instance is noted for the claims. -/
inductive LifeMail where
  | started (t : StartTask)
  | failed (t : StartTask)
  | terminated (e i : Nat)
deriving DecidableEq, Repr

/-- an instance of the shard actor and its entities. `done`: the creations that have ended; `kids`: `Supervised`
(`/repo/coerce/src/actor/supervised.rs` 14-18); `live`: the entities running; `told`: those told to stop. -/
structure Life where
  shard : Shard := {}
  up : Bool := false
  done : List StartTask := []
  mail : List LifeMail := []
  kids : Assoc Nat Nat := []
  live : List (Nat × Nat) := []
  told : List (Nat × Nat) := []
deriving DecidableEq, Repr

/-- what can happen on one instance of the shard: messages of `/repo/coerce/src/sharding/shard/mod.rs` 227-338 and
381-454, the end of a start task, an entity that ends, and the shard told to stop. -/
inductive LifeOp where
  | request (r : EReq) (ok : Bool)
  | start (e c : Nat) (ok : Bool)
  | snapshot
  /-- the creation `t` succeeds. -/
  | comesUp (t : StartTask)
  | fails (t : StartTask)
  /-- the shard takes the next message of its mailbox. -/
  | take
  /-- an entity ends by itself. -/
  | dies (e i : Nat)
  /-- the children of a shard that has stopped are told to stop. -/
  | sweep
  /-- an entity that was told to stop has done so. -/
  | ends (e i : Nat)
deriving DecidableEq, Repr

/-- `notify`: what is sent to an actor that has ended is lost. (`/repo/coerce/src/actor/refs/mod.rs` 461-476.) -/
def Life.post (σ : Life) (m : LifeMail) : List LifeMail := if σ.up then σ.mail ++ [m] else σ.mail

/-- a message to the running shard. (`/repo/coerce/src/sharding/shard/mod.rs` 227-503.) -/
def Life.shardStep (σ : Life) (op : ShardOp) : Life := if σ.up then { σ with shard := σ.shard.next op } else σ

/-- the task of `start_entity` ends, `/repo/coerce/src/sharding/shard/mod.rs` 303-318: the entity, if any, is running
(`new_supervised_actor`, `/repo/coerce/src/actor/system/mod.rs` 181-210) before the shard is told. -/
def Life.comesUp (σ : Life) (t : StartTask) : Life :=
  if t ∈ σ.shard.starting ∧ t ∉ σ.done then
    { σ with done := σ.done ++ [t], live := σ.live ++ [(t.e, t.i)], mail := σ.post (.started t) }
  else σ

/-- a start task ends with an error and reports it, `/repo/coerce/src/sharding/shard/mod.rs` 283-319. -/
def Life.fails (σ : Life) (t : StartTask) : Life :=
  if t ∈ σ.shard.starting ∧ t ∉ σ.done then { σ with done := σ.done ++ [t], mail := σ.post (.failed t) } else σ

/-- `Handler<EntityStartResult>`, `/repo/coerce/src/sharding/shard/mod.rs` 226-280, with `add_child_ref`
(`/repo/coerce/src/actor/supervised.rs` 138-141), and `Handler<Terminated>`, `/repo/coerce/src/actor/supervised.rs` 48-57. -/
def Life.handle (σ : Life) : LifeMail → Life
  | .started t => { σ with shard := σ.shard.next (.started t), kids := σ.kids.insert t.e t.i }
  | .failed t => { σ with shard := σ.shard.next (.startFailed t) }
  | .terminated e _ => { σ with kids := σ.kids.erase e }

/-- the shard takes the next message of its mailbox, `/repo/coerce/src/sharding/shard/mod.rs` 227-280;
`/repo/coerce/src/actor/lifecycle.rs` 82-127. -/
def Life.take (σ : Life) : Life :=
  if σ.up then
    match σ.mail with
    | [] => σ
    | m :: q => ({ σ with mail := q } : Life).handle m
  else σ

/-- an entity ends; its context reports to the parent, `/repo/coerce/src/actor/context.rs` 347-366 and 425-428. -/
def Life.dies (σ : Life) (e i : Nat) : Life :=
  if (e, i) ∈ σ.live then { σ with live := σ.live.filter (· ≠ (e, i)), mail := σ.post (.terminated e i) } else σ

/-- the end of the shard's own loop: `actor_stopped`, `/repo/coerce/src/actor/lifecycle.rs` 138-175, answers those who wait
for the stop. The mailbox is dropped. The children are not told yet. -/
def Life.stop (σ : Life) : Life := if σ.up then { σ with up := false, mail := [] } else σ

/-- `Drop for ActorContext`, `/repo/coerce/src/actor/context.rs` 347-366, a task of its own: `stop_all`,
`/repo/coerce/src/actor/supervised.rs` 143-168. -/
def Life.sweep (σ : Life) : Life :=
  if σ.up then σ else { σ with kids := [], told := σ.told ++ σ.kids.map fun p => (p.1, p.2) }

/-- an entity that was told to stop ends, `/repo/coerce/src/actor/lifecycle.rs` 138-175. -/
def Life.ends (σ : Life) (e i : Nat) : Life := if (e, i) ∈ σ.told then σ.dies e i else σ

/-- one of these operations (`/repo/coerce/src/sharding/shard/mod.rs` 227-503, `/repo/coerce/src/actor/lifecycle.rs`
49-175). -/
def Life.step (σ : Life) : LifeOp → Life
  | .request r ok => σ.shardStep (.request r ok)
  | .start e c ok => σ.shardStep (.startEntity e c ok)
  | .snapshot => σ.shardStep .snapshot
  | .comesUp t => σ.comesUp t
  | .fails t => σ.fails t
  | .take => σ.take
  | .dies e i => σ.dies e i
  | .sweep => σ.sweep
  | .ends e i => σ.ends e i

/-- any number of them (`/repo/coerce/src/sharding/shard/mod.rs` 227-503, `/repo/coerce/src/actor/lifecycle.rs`
49-175). -/
def Life.run (σ : Life) (ops : List LifeOp) : Life := ops.foldl Life.step σ

/-- a shard actor that has just started, with its journal. (`/repo/coerce/src/sharding/shard/mod.rs` 157-177.) -/
def Life.boot (j : List JEntry) : Life := { shard := Shard.boot j, up := true }

/-! ## One shard in the whole system -/

/-- the system, the entities of every instance of one shard (by node and instance), and the journal of the shard in
the storage all nodes share. (`/repo/coerce/src/sharding/host/mod.rs` 42-50, `/repo/coerce/src/sharding/shard/mod.rs`
36-44.) -/
structure Moving (R : Type) where
  sys : Sys R
  life : Nat → Nat → Life := fun _ _ => {}
  journal : List JEntry := []

/-- a step of the system (`/repo/coerce/src/sharding/host/mod.rs` 178-373) or of one instance of the shard
(`/repo/coerce/src/sharding/shard/mod.rs` 227-503). -/
inductive MovOp (R : Type) where
  | sys (op : SysOp R)
  /-- something happens in the instance `a` on node `d`. -/
  | ent (d a : Nat) (op : LifeOp)

variable {R : Type}

/-- whether instance `a` of shard `s` is running on node `d`. (`/repo/coerce/src/sharding/host/mod.rs` 26-50.) -/
def Sys.has (w : Sys R) (s d a : Nat) : Bool := decide ((s, a) ∈ (w.host d).live)

/-- what becomes of an instance when the system goes from `w` to `w'`: it is started, and reads its journal, or stops.
(`/repo/coerce/src/sharding/host/mod.rs` 178-249 and 293-364.) -/
def Life.follow (s : Nat) (w w' : Sys R) (j : List JEntry) (d a : Nat) (l : Life) : Life :=
  match w.has s d a, w'.has s d a with
  | false, true => Life.boot j
  | true, false => l.stop
  | _, _ => l

/-- a step of an instance over the journal as it is. (The storage is shared: `/repo/coerce/src/sharding/shard/mod.rs`
145-147 gives every instance of the shard the same key.) -/
def Life.over (j : List JEntry) (l : Life) (op : LifeOp) : Life :=
  ({ l with shard := { l.shard with journal := j } } : Life).step op

/-- one step of the system or of an instance (`/repo/coerce/src/sharding/host/mod.rs` 178-373,
`/repo/coerce/src/sharding/shard/mod.rs` 227-503). -/
def Moving.step (s : Nat) (f : R → Nat) (σ : Moving R) : MovOp R → Moving R
  | .sys op =>
    { σ with sys := σ.sys.next f op, life := fun d a => (σ.life d a).follow s σ.sys (σ.sys.next f op) σ.journal d a }
  | .ent d a op =>
    { σ with
        life := fun d' a' => if d' = d ∧ a' = a then (σ.life d a).over σ.journal op else σ.life d' a'
        journal := ((σ.life d a).over σ.journal op).shard.journal }

/-- any number of steps (`/repo/coerce/src/sharding/host/mod.rs` 178-373, `/repo/coerce/src/sharding/shard/mod.rs`
227-503). -/
def Moving.run (s : Nat) (f : R → Nat) (σ : Moving R) (ops : List (MovOp R)) : Moving R := ops.foldl (Moving.step s f) σ

/-- the system as it starts. (`/repo/coerce/src/sharding/mod.rs` 70-107.) -/
def Moving.start (self : Nat) (nodes : List (Nat × Bool)) (journal : List Nat) : Moving R :=
  { sys := Sys.start self nodes journal }

end Verif.Sharding
