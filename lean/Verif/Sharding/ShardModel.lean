import Verif.Assoc
import Verif.Util

/-!
# The shard and its entities

`/repo/coerce/src/sharding/shard/`. Entity ids, recipes and requests are numbers or values of any type;
instances of entities are numbered. The creation of an entity (`ActorHandler::create`) succeeds or fails
as the environment decides. Not modelled: times of last request, and statistics.
-/

namespace Verif.Sharding

/-- `DefaultAllocator::allocate`, `/repo/coerce/src/sharding/coordinator/allocation.rs` 323-333. The hash of
an id is a parameter (`DefaultHasher::new()` has fixed keys, so it is the same function on every node);
it is a 64-bit number, the shard number a 32-bit one. `None` is the division by zero. -/
def allocate {I : Type} (hash : I → UInt64) (maxShards : UInt32) (id : I) : Option UInt32 :=
  if maxShards = 0 then none
  else some (UInt32.ofNat ((hash id).toNat % maxShards.toNat))

/-- an `EntityRequest`; `known` says that a handler for its message type is configured.
(`/repo/coerce/src/sharding/host/request.rs` 18-24; `/repo/coerce/src/sharding/shard/mod.rs` 381-454.) -/
structure EReq where
  id : Nat
  entity : Nat
  recipe : Option Nat := none
  known : Bool := true
deriving DecidableEq, Repr

/-- `EntityState`, `/repo/coerce/src/sharding/shard/mod.rs` 77-82. -/
inductive EState where
  | idle
  | starting (buf : List EReq)
  | active (i : Nat)
  | passivated
deriving DecidableEq, Repr

/-- `Entity`, `/repo/coerce/src/sharding/shard/mod.rs` 133-139. -/
structure Entity where
  recipe : Nat
  st : EState
deriving DecidableEq, Repr

/-- What is in the journal of a shard, `/repo/coerce/src/sharding/shard/mod.rs` 149-155: the messages
`StartEntity`, `PassivateEntity`, `RemoveEntity`, and snapshots (`true` for `PASSIVATED`, `false` for
`IDLE`). -/
inductive JEntry where
  | start (e c : Nat)
  | passivate (e : Nat)
  | remove (e : Nat)
  | snapshot (l : List (Nat × Nat × Bool))
deriving DecidableEq, Repr

/-- answers with an error: `ActorUnavailable`, `NotFound`, `NotSupported`. (`/repo/coerce/src/sharding/shard/mod.rs`
381-454.) -/
inductive EErr where
  | unavailable | notFound | notSupported
deriving DecidableEq, Repr

/-- what a shard does with a request: gives it to an instance of the entity (a task of its own) or answers with an
error. (`/repo/coerce/src/sharding/shard/mod.rs` 341-454.) -/
inductive ShardOut where
  | deliver (e i : Nat) (r : EReq)
  | error (e : Nat) (r : EReq) (err : EErr)
deriving DecidableEq, Repr

/-- the task started by `start_entity`; `i` is the instance it will create. (`/repo/coerce/src/sharding/shard/mod.rs`
283-319.) -/
structure StartTask where
  e : Nat
  c : Nat
  i : Nat
deriving DecidableEq, Repr

/-- `Shard`, `/repo/coerce/src/sharding/shard/mod.rs` 36-44 with its journal, the entities being created
the instances created, and those that have ended by themselves. -/
structure Shard where
  entities : Assoc Nat Entity := []
  journal : List JEntry := []
  fresh : Nat := 0
  starting : List StartTask := []
  created : List (Nat × Nat) := []
  ended : List (Nat × Nat) := []
deriving DecidableEq, Repr

/-- `start_entity`, `/repo/coerce/src/sharding/shard/mod.rs` 283-319. `persist` is false during recovery;
`ok` is whether the write to the journal succeeds, which makes no other difference. -/
def Shard.startEntity (σ : Shard) (e c : Nat) (persist ok : Bool) : Shard :=
  { σ with
      journal := if persist && ok then σ.journal ++ [.start e c] else σ.journal
      fresh := σ.fresh + 1
      starting := σ.starting ++ [⟨e, c, σ.fresh⟩] }

/-- `Entity::request`, `/repo/coerce/src/sharding/shard/mod.rs` 341-377. -/
def EState.request (e : Nat) (r : EReq) : EState → EState × List ShardOut
  | .idle => (.idle, [.error e r .unavailable])
  | .passivated => (.passivated, [.error e r .unavailable])
  | .starting buf => (.starting (buf ++ [r]), [])
  | .active i => (.active i, [.deliver e i r])

/-- `Handler<EntityRequest>`, `/repo/coerce/src/sharding/shard/mod.rs` 380-454. -/
def Shard.request (σ : Shard) (r : EReq) (ok : Bool) : Shard × List ShardOut :=
  if r.known then
    match σ.entities.get r.entity with
    | some x => ({ σ with entities := σ.entities.insert r.entity { x with st := (x.st.request r.entity r).1 } },
        (x.st.request r.entity r).2)
    | none =>
      match r.recipe with
      | some c => (({ σ with entities := σ.entities.insert r.entity ⟨c, .starting [r]⟩ } : Shard).startEntity r.entity c true ok, [])
      | none => (σ, [.error r.entity r .notFound])
  else (σ, [.error r.entity r .notSupported])

/-- `Handler<StartEntity>`, `/repo/coerce/src/sharding/shard/mod.rs` 322-338. -/
def Shard.handleStart (σ : Shard) (e c : Nat) (ok : Bool) : Shard :=
  ({ σ with entities := σ.entities.insert e ⟨c, .starting []⟩ } : Shard).startEntity e c true ok

/-- the requests waiting in a state. (`/repo/coerce/src/sharding/shard/mod.rs` 107-132.) -/
def EState.buf : EState → List EReq
  | .starting buf => buf
  | _ => []

/-- `Handler<EntityStartResult>` with `Ok`, `/repo/coerce/src/sharding/shard/mod.rs` 235-263. -/
def Shard.started (σ : Shard) (t : StartTask) : Shard × List ShardOut :=
  match σ.entities.get t.e with
  | some x =>
    ({ σ with starting := σ.starting.erase t, created := σ.created ++ [(t.e, t.i)],
              entities := σ.entities.insert t.e { x with st := .active t.i } },
      x.st.buf.map fun r => .deliver t.e t.i r)
  | none => ({ σ with starting := σ.starting.erase t, created := σ.created ++ [(t.e, t.i)] }, [])

/-- `Handler<EntityStartResult>` with `Err`, `/repo/coerce/src/sharding/shard/mod.rs` 270-277: a log line. -/
def Shard.startFailed (σ : Shard) (t : StartTask) : Shard := { σ with starting := σ.starting.erase t }

/-- `save_snapshot` and the encoding of the snapshot, `/repo/coerce/src/sharding/shard/recovery.rs` 36-47 and
98-125. The entities are cloned, and the clone of every state is `Idle`
(`/repo/coerce/src/sharding/shard/mod.rs` 84-88). -/
def snapshotOf (m : Assoc Nat Entity) : List (Nat × Nat × Bool) := m.map fun p => (p.1, p.2.recipe, false)

/-- decoding of the snapshot and `RecoverSnapshot`, `/repo/coerce/src/sharding/shard/recovery.rs` 81-95 and
127-154. -/
def restoreSnapshot (l : List (Nat × Nat × Bool)) : Assoc Nat Entity :=
  l.foldl (fun m p => m.insert p.1 ⟨p.2.1, if p.2.2 then .passivated else .idle⟩) []

/-- `Recover<StartEntity>`, `Recover<PassivateEntity>`, `Recover<RemoveEntity>`,
`/repo/coerce/src/sharding/shard/recovery.rs` 51-79, and a snapshot. -/
def recoverEntry (m : Assoc Nat Entity) : JEntry → Assoc Nat Entity
  | .start e c => m.insert e ⟨c, .starting []⟩
  | .passivate e =>
    match m.get e with
    | some x => m.insert e { x with st := .passivated }
    | none => m
  | .remove e => m.erase e
  | .snapshot l => restoreSnapshot l

/-- whether a journal entry is a snapshot. (`/repo/coerce/src/persistent/journal/mod.rs` 25-45: entries and snapshots
are kept apart; here in one list.) -/
def JEntry.isSnapshot : JEntry → Bool
  | .snapshot _ => true
  | _ => false

/-- the journal from the last snapshot on: what `Journal::recover_latest` returns (C05).
(`/repo/coerce/src/persistent/journal/mod.rs` 322-411.) -/
def sinceSnapshot : List JEntry → List JEntry
  | [] => []
  | x :: l => if l.any JEntry.isSnapshot then sinceSnapshot l else x :: l

/-- the entities after `PersistentActor::started` has replayed snapshot and messages,
`/repo/coerce/src/persistent/actor.rs` 230-296. -/
def recoverAll (j : List JEntry) : Assoc Nat Entity := (sinceSnapshot j).foldl recoverEntry []

/-- `is_starting`, `/repo/coerce/src/sharding/shard/mod.rs` 114-116. -/
def EState.isStarting : EState → Bool
  | .starting _ => true
  | _ => false

/-- `post_recovery`, `recover_entities` and `get_active_entities`,
`/repo/coerce/src/sharding/shard/mod.rs` 157-177 and 208-223. -/
def Shard.boot (j : List JEntry) : Shard :=
  ((recoverAll j).filter fun p => p.2.st.isStarting).foldl (fun σ p => σ.startEntity p.1 p.2.recipe false true)
    { entities := recoverAll j, journal := j }

/-- messages to a shard, `/repo/coerce/src/sharding/shard/mod.rs` 227-503, and its start, 157-177. -/
inductive ShardOp where
  | request (r : EReq) (ok : Bool)
  | startEntity (e c : Nat) (ok : Bool)
  | started (t : StartTask)
  | startFailed (t : StartTask)
  | snapshot
  | childStopped (e i : Nat)
deriving DecidableEq, Repr

/-- `on_child_stopped`, `/repo/coerce/src/sharding/shard/mod.rs` 179, does nothing. -/
def Shard.step (σ : Shard) : ShardOp → Shard × List ShardOut
  | .request r ok => σ.request r ok
  | .startEntity e c ok => (σ.handleStart e c ok, [])
  | .started t => if t ∈ σ.starting then σ.started t else (σ, [])
  | .startFailed t => if t ∈ σ.starting then (σ.startFailed t, []) else (σ, [])
  | .snapshot => ({ σ with journal := σ.journal ++ [.snapshot (snapshotOf σ.entities)] }, [])
  | .childStopped e i => if (e, i) ∈ σ.created then ({ σ with ended := σ.ended ++ [(e, i)] }, []) else (σ, [])

/-- the state after one of them (`/repo/coerce/src/sharding/shard/mod.rs` 227-503). -/
def Shard.next (σ : Shard) (op : ShardOp) : Shard := (σ.step op).1

/-- the state after any number of them (`/repo/coerce/src/sharding/shard/mod.rs` 227-503). -/
def Shard.run (σ : Shard) (ops : List ShardOp) : Shard := ops.foldl Shard.next σ

/-- everything done in a run, in order (`/repo/coerce/src/sharding/shard/mod.rs` 227-503). -/
def Shard.outs (σ : Shard) : List ShardOp → List ShardOut
  | [] => []
  | op :: ops => (σ.step op).2 ++ (σ.next op).outs ops

end Verif.Sharding
