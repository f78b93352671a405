import Verif.Persist.Model
import Verif.Sharding.CodecModel
import Verif.Sharding.CoordinatorModel
import Verif.Sharding.ShardModel

/-!
# Coordinator and shard over a journal storage

The coordinator and the shard of `Verif.Sharding.CoordinatorModel` and `Verif.Sharding.ShardModel` keep their journal as
a list. Here the journal is in a storage: every message is encoded, written under the actor's persistence key with the
journal's numbers, and what is recovered is what the storage gives back, decoded again.
-/

namespace Verif.Sharding

/-- an actor (`none`: not running) and the journals of all actors. (`/repo/coerce/src/persistent/journal/mod.rs`
1-60.) -/
structure Stored (α τ : Type) where
  actor : Option α
  sys : Persist.Sys τ

/-- nothing started and nothing stored (`/repo/coerce/src/persistent/journal/mod.rs` 25-45). -/
def Stored.init {α τ : Type} (st : τ) : Stored α τ := ⟨none, Persist.Sys.init st⟩

/-- The attempts of one `persist` call. Neither actor overrides `persist_failure_policy`, so the policy is to try again
until the write succeeds (`/repo/coerce/src/persistent/failure.rs` 117-123, `/repo/coerce/src/persistent/actor.rs` 42-54).
`fails`: the failed attempts, `true` when the write reached the storage all the same; `done`: whether an attempt succeeded in
the end or the node was lost before. -/
def tries (fails : List Bool) (done : Bool) : List Persist.WriteOutcome :=
  fails.map (fun stored => if stored then .lostAck else .rejected) ++ if done then [.ok] else []

/-- the journal after these attempts to write `p` under `key`. (`/repo/coerce/src/persistent/actor.rs` 31-59.) -/
def persistTries {τ : Type} (S : Persist.Storage τ) (key : String) (s : Persist.Sys τ) (p : Persist.Payload)
    (fails : List Bool) (done : Bool) : Persist.Sys τ :=
  ((tries fails done).map fun o => (Persist.Op.persist p o)).foldl (fun s op => s.step S key op) s

/-! ## Coordinator -/

/-- the journal entry of an allocation: `persist(&message)` in `Handler<AllocateShard>`,
`/repo/coerce/src/sharding/coordinator/allocation.rs` 64-90, with the name given in `configure`,
`/repo/coerce/src/sharding/coordinator/mod.rs` 71-73. -/
def allocPayload (s : UInt32) : Persist.Payload := ⟨"AllocateShard", Wire.AllocateShard.write ⟨s, false⟩⟩

/-- `JournalTypes` of the coordinator, `/repo/coerce/src/sharding/coordinator/mod.rs` 71-73. -/
def coordKnown : Persist.Known := ⟨fun t => t = "AllocateShard", fun _ => false⟩

/-- `from_bytes` of a recovered entry, `/repo/coerce/src/persistent/journal/mod.rs` 431-464; `none` is an error, which
stops the actor (`/repo/coerce/src/persistent/actor.rs` 279-293). -/
def decodeAlloc (p : Persist.Payload) : Option Nat :=
  match Wire.AllocateShard.read p.bytes with
  | .ok m => some m.shardId.toNat
  | _ => none

/-- what happens to a stored coordinator: its start (`/repo/coerce/src/persistent/actor.rs` 217-296), an allocation
(`/repo/coerce/src/sharding/coordinator/allocation.rs` 65-91), anything else, its end. -/
inductive CoordCall where
  | allocate (s : UInt32) (fails : List Bool) (done : Bool)
  | other (op : CoordOp)
  | restart (self : Nat) (nodes : List (Nat × Bool))
  | elsewhere (pid : String) (op : Persist.Op)

/-- what a coordinator does without its journal. (`/repo/coerce/src/sharding/coordinator/balancing.rs` 23-175,
`/repo/coerce/src/sharding/coordinator/discovery.rs` 33-71.) -/
def CoordOp.plain : CoordOp → Bool
  | .allocate _ _ => false
  | .restart _ _ => false
  | _ => true

section
variable {τ : Type} (S : Persist.Storage τ) (key : String)

/-- `Handler<AllocateShard>`, `/repo/coerce/src/sharding/coordinator/allocation.rs` 64-90, writes only for a shard that is
not known; the actor handles nothing else until the write has succeeded. A start (`PersistentActor::started`, `/repo/coerce/src/persistent/actor.rs` 230-296) reads the journal and gives
every message to `Recover<AllocateShard>`. `elsewhere`: another actor uses the storage under another key. -/
def Stored.coordStep (σ : Stored Coord τ) : CoordCall → Stored Coord τ × Option AllocResult
  | .allocate s fails done =>
    match σ.actor with
    | none => (σ, none)
    | some c =>
      if (c.shards.get s.toNat).isSome then
        (⟨some (c.next (.allocate s.toNat true)), σ.sys⟩, (c.step (.allocate s.toNat true)).2)
      else if done then
        (⟨some (c.next (.allocate s.toNat true)), persistTries S key σ.sys (allocPayload s) fails true⟩,
          (c.step (.allocate s.toNat true)).2)
      else (⟨none, persistTries S key σ.sys (allocPayload s) fails false⟩, none)
  | .other op =>
    match σ.actor with
    | none => (σ, none)
    | some c => if op.plain then (⟨some (c.next op), σ.sys⟩, (c.step op).2) else (σ, none)
  | .restart self nodes =>
    (⟨(((σ.sys.recovered S coordKnown key).messages.getD []).mapM decodeAlloc).map (Coord.start self nodes),
      σ.sys.step S key (.restart coordKnown)⟩, none)
  | .elsewhere pid op => (if pid = key then σ else ⟨σ.actor, σ.sys.step S pid op⟩, none)

/-- the state after one of them (`/repo/coerce/src/sharding/coordinator/allocation.rs` 65-91). -/
def Stored.coordNext (σ : Stored Coord τ) (op : CoordCall) : Stored Coord τ := (σ.coordStep S key op).1

/-- the state after any number of them (`/repo/coerce/src/sharding/coordinator/allocation.rs` 65-91). -/
def Stored.coordRun (σ : Stored Coord τ) (ops : List CoordCall) : Stored Coord τ := ops.foldl (Stored.coordNext S key) σ

/-- the answers given (`/repo/coerce/src/sharding/coordinator/allocation.rs` 65-91). -/
def Stored.coordAnswers (σ : Stored Coord τ) : List CoordCall → List AllocResult
  | [] => []
  | op :: ops => (σ.coordStep S key op).2.toList ++ (σ.coordNext S key op).coordAnswers ops

end

/-! ## Shard -/

/-- how entities and recipes, numbers in the model, are written: the ids are strings and the recipes bytes.
(`/repo/coerce/src/sharding/shard/message.rs` 8-25.) -/
structure Naming where
  id : Nat → String
  ofId : String → Option Nat
  recipe : Nat → Proto.Bytes
  ofRecipe : Proto.Bytes → Option Nat
  ofId_id : ∀ e, ofId (id e) = some e
  ofRecipe_recipe : ∀ c, ofRecipe (recipe c) = some c

section
variable (N : Naming)

/-- the journal entry of an entity's start: `persist(&StartEntity {..})` in `start_entity`,
`/repo/coerce/src/sharding/shard/mod.rs` 290-297, with the name given in `configure`, `/repo/coerce/src/sharding/shard/mod.rs`
149-155. -/
def startPayload (e c : Nat) : Persist.Payload := ⟨"StartEntity", Wire.StartEntity.write ⟨N.id e, N.recipe c⟩⟩

/-- `JournalTypes` of a shard, `/repo/coerce/src/sharding/shard/mod.rs` 149-155. -/
def shardKnown : Persist.Known :=
  ⟨fun t => t = "StartEntity" || t = "PassivateEntity" || t = "RemoveEntity", fun t => t = "ShardStateSnapshot"⟩

/-- a recovered message, `/repo/coerce/src/persistent/journal/mod.rs` 431-464. Only `StartEntity` is ever written by a
running shard: nothing calls `save_snapshot`, and no code persists the other two. The others are left out here. -/
def decodeStart (p : Persist.Payload) : Option JEntry :=
  if p.ptype = "StartEntity" then
    match Wire.StartEntity.read p.bytes with
    | .ok m => (N.ofId m.actorId).bind fun e => (N.ofRecipe m.recipe).map fun c => .start e c
    | _ => none
  else none

/-- what happens to a stored shard: its start (`/repo/coerce/src/persistent/actor.rs` 217-296), messages
(`/repo/coerce/src/sharding/shard/mod.rs` 227-503), its end. -/
inductive ShardCall where
  | request (r : EReq) (fails : List Bool) (done : Bool)
  | startEntity (e c : Nat) (fails : List Bool) (done : Bool)
  | started (t : StartTask)
  | startFailed (t : StartTask)
  | childStopped (e i : Nat)
  | restart
  | elsewhere (pid : String) (op : Persist.Op)

/-- whether a request makes the shard start, and so persist, an entity: `/repo/coerce/src/sharding/shard/mod.rs` 399-454. -/
def Shard.starts (σ : Shard) (r : EReq) : Option (Nat × Nat) :=
  if r.known && (σ.entities.get r.entity).isNone then r.recipe.map fun c => (r.entity, c) else none

variable {τ : Type} (S : Persist.Storage τ) (key : String)

/-- One step of a shard: `Handler<EntityRequest>` and `Handler<StartEntity>`, `/repo/coerce/src/sharding/shard/mod.rs`
322-454, write in `start_entity`. `persistent_entities` is true, `/repo/coerce/src/sharding/host/mod.rs` 202. -/
def Stored.shardStep (σ : Stored Shard τ) : ShardCall → Stored Shard τ
  | .request r fails done =>
    match σ.actor with
    | none => σ
    | some sh =>
      match sh.starts r with
      | none => ⟨some (sh.next (.request r true)), σ.sys⟩
      | some (e, c) =>
        ⟨if done then some (sh.next (.request r true)) else none, persistTries S key σ.sys (startPayload N e c) fails done⟩
  | .startEntity e c fails done =>
    match σ.actor with
    | none => σ
    | some sh =>
      ⟨if done then some (sh.next (.startEntity e c true)) else none,
        persistTries S key σ.sys (startPayload N e c) fails done⟩
  | .started t => ⟨σ.actor.map (·.next (.started t)), σ.sys⟩
  | .startFailed t => ⟨σ.actor.map (·.next (.startFailed t)), σ.sys⟩
  | .childStopped e i => ⟨σ.actor.map (·.next (.childStopped e i)), σ.sys⟩
  | .restart =>
    ⟨(((σ.sys.recovered S shardKnown key).messages.getD []).mapM (decodeStart N)).map Shard.boot,
      σ.sys.step S key (.restart shardKnown)⟩
  | .elsewhere pid op => if pid = key then σ else ⟨σ.actor, σ.sys.step S pid op⟩

/-- any number of them (`/repo/coerce/src/sharding/shard/mod.rs` 227-503). -/
def Stored.shardRun (σ : Stored Shard τ) (ops : List ShardCall) : Stored Shard τ := ops.foldl (Stored.shardStep N S key) σ

end

end Verif.Sharding
