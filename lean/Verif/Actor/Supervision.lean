/-!
# Supervision, the scheduler's registry and worker pools: models

Models `/repo/coerce/src/actor/supervised.rs`, the registry part of
`/repo/coerce/src/actor/scheduler/mod.rs` with `/repo/coerce/src/actor/system/mod.rs`, and
`/repo/coerce/src/actor/worker.rs`.

A `HashMap` is an association list with unique keys. An actor instance is a number, distinct from the
id it runs under.
-/

namespace Verif.Actor

/-! ### Maps -/

/-- a `HashMap` by id, as in `/repo/coerce/src/actor/supervised.rs` 17 and `/repo/coerce/src/actor/scheduler/mod.rs`
24. -/
abbrev Map (α : Type) := List (String × α)

namespace Map
variable {α : Type}
/-- `HashMap::get`, as in `/repo/coerce/src/actor/supervised.rs` 67 and `/repo/coerce/src/actor/scheduler/mod.rs`
242-245. -/
def get (m : Map α) (k : String) : Option α := (m.find? (fun p => p.1 = k)).map (·.2)
/-- `HashMap::remove`, as in `/repo/coerce/src/actor/supervised.rs` 171 and `/repo/coerce/src/actor/scheduler/mod.rs`
224. -/
def erase (m : Map α) (k : String) : Map α := m.filter (fun p => p.1 ≠ k)
/-- `HashMap::insert`, as in `/repo/coerce/src/actor/supervised.rs` 82-83 and
`/repo/coerce/src/actor/scheduler/mod.rs` 194-196. -/
def insert (m : Map α) (k : String) (v : α) : Map α := (k, v) :: m.erase k
end Map

/-! ### Supervised children -/

/-- `ChildType`, `/repo/coerce/src/actor/supervised.rs` 31-34. -/
inductive ChildType where
  | spawned | attached
deriving DecidableEq, Repr

/-- `ChildRef`, `/repo/coerce/src/actor/supervised.rs` 37-40. -/
structure Child where
  kind : ChildType
  ref : Nat
deriving DecidableEq, Repr

/-- Result of `Supervised::spawn`. (`/repo/coerce/src/actor/supervised.rs` 66-91.) -/
inductive SpawnRes where
  | ok (ref : Nat)
  | alreadyExists
  | startFailed
deriving DecidableEq, Repr

/-- `Supervised::spawn`, `/repo/coerce/src/actor/supervised.rs` 60-92. `startOk`: did the child's `started` finish without a
stop request (`rx.await`)? The child is entered before that is known. -/
def spawn (cs : Map Child) (id : String) (ref : Nat) (startOk : Bool) : Map Child × SpawnRes :=
  match cs.get id with
  | some _ => (cs, .alreadyExists)
  | none => (cs.insert id ⟨.spawned, ref⟩, if startOk then .ok ref else .startFailed)

/-- `Supervised::spawn_deferred`, `/repo/coerce/src/actor/supervised.rs` 94-119. -/
def spawnDeferred (cs : Map Child) (id : String) (ref : Nat) : Map Child × SpawnRes :=
  match cs.get id with
  | some _ => (cs, .alreadyExists)
  | none => (cs.insert id ⟨.spawned, ref⟩, .ok ref)

/-- `Supervised::attach_child_ref`, `/repo/coerce/src/actor/supervised.rs` 133-136. -/
def attach (cs : Map Child) (id : String) (ref : Nat) : Map Child := cs.insert id ⟨.attached, ref⟩

/-- `Supervised::add_child_ref`, `/repo/coerce/src/actor/supervised.rs` 138-141. -/
def addChild (cs : Map Child) (id : String) (ref : Nat) : Map Child := cs.insert id ⟨.spawned, ref⟩

/-- `Supervised::on_child_stopped`, `/repo/coerce/src/actor/supervised.rs` 170-176, from `Handler<Terminated>` 49-57. -/
def onChildStopped (cs : Map Child) (id : String) : Map Child := cs.erase id

/-- `Supervised::stop_all`, `/repo/coerce/src/actor/supervised.rs` 143-168: `stop` is sent to every child (first component),
and those whose `stop` returned `Ok` are removed. -/
def stopAll (cs : Map Child) (stopped : Nat → Bool) : List Nat × Map Child :=
  (cs.map (·.2.ref), cs.filter (fun p => !stopped p.2.ref))

/-- Operations on the children of one actor. (`/repo/coerce/src/actor/supervised.rs` 49-57 and 60-141.) -/
inductive SupOp where
  | spawn (id : String) (ref : Nat) (startOk : Bool)
  | spawnDeferred (id : String) (ref : Nat)
  | attach (id : String) (ref : Nat)
  | addChild (id : String) (ref : Nat)
  | terminated (id : String)
deriving DecidableEq, Repr

/-- one of the operations (`/repo/coerce/src/actor/supervised.rs` 60-176). -/
def supStep (cs : Map Child) : SupOp → Map Child
  | .spawn id r ok => (spawn cs id r ok).1
  | .spawnDeferred id r => (spawnDeferred cs id r).1
  | .attach id r => attach cs id r
  | .addChild id r => addChild cs id r
  | .terminated id => onChildStopped cs id

/-- any sequence of operations (`/repo/coerce/src/actor/supervised.rs` 59-177). -/
def supRun (ops : List SupOp) : Map Child := ops.foldl supStep []

/-! ### A parent with its running children -/

/-- A parent, its spawned children that are still running, and the `Terminated` notices that are in
the parent's mailbox (sent by `on_context_dropped`, `/repo/coerce/src/actor/context.rs` 426-428). -/
structure Family where
  kids : Map Child
  running : List (String × Nat)
  notices : List (String × Nat)

/-- what can happen to a parent and its children (`/repo/coerce/src/actor/supervised.rs` 60-136,
`/repo/coerce/src/actor/context.rs` 347-428). -/
inductive FamOp where
  | spawn (id : String) (ref : Nat)
  | attach (id : String) (ref : Nat)
  | die (id : String) (ref : Nat)
  | deliver
deriving DecidableEq, Repr

/-- `spawn` starts the child's task only if the id is free (`/repo/coerce/src/actor/supervised.rs` 67-83); `attach` enters a
reference to an actor started elsewhere, which has no parent and so never reports; `die`: a running
child's context is dropped and its id is sent to the parent; `deliver`: the parent handles the oldest
`Terminated`. -/
def famStep (f : Family) : FamOp → Family
  | .spawn id r =>
    match f.kids.get id with
    | some _ => f
    | none => { f with kids := f.kids.insert id ⟨.spawned, r⟩, running := (id, r) :: f.running }
  | .attach id r => { f with kids := attach f.kids id r }
  | .die id r =>
    if (id, r) ∈ f.running then
      { f with running := f.running.erase (id, r), notices := f.notices ++ [(id, r)] }
    else f
  | .deliver =>
    match f.notices with
    | [] => f
    | n :: rest => { f with kids := onChildStopped f.kids n.1, notices := rest }

/-- any sequence of such steps (`/repo/coerce/src/actor/supervised.rs` 49-177). -/
def famRun (ops : List FamOp) : Family := ops.foldl famStep ⟨[], [], []⟩

/-! ### The scheduler's registry -/

/-- Messages to the scheduler (`/repo/coerce/src/actor/scheduler/mod.rs` 130-176). `truth` is not part of the message: it
records, for the statement of the property, which registered actor was running under the id when the
lookup was sent. -/
inductive SMsg where
  | register (id : String) (ref : Nat)
  | deregister (id : String)
  | lookup (id : String) (truth : Option Nat)
deriving DecidableEq, Repr

/-- The registry, the scheduler's mailbox, the tracked actors that are running, those of them whose creator has not
sent `RegisterActor` yet, and the answered lookups with what was true. (`/repo/coerce/src/actor/scheduler/mod.rs`
23-29, `/repo/coerce/src/actor/system/mod.rs` 139-179.) -/
structure Registry where
  actors : Map Nat
  queue : List SMsg
  running : Map Nat
  unregistered : Map Nat
  answers : List (String × Option Nat × Option Nat)

/-- what can happen: actors are started (`/repo/coerce/src/actor/system/mod.rs` 139-179), stop
(`/repo/coerce/src/actor/lifecycle.rs` 149-161) and are looked up (`get_tracked_actor`,
`/repo/coerce/src/actor/system/mod.rs` 230-243). -/
inductive RegOp where
  | start (id : String) (ref : Nat)
  | sendRegister (id : String)
  | stop (id : String) (ref : Nat)
  | lookup (id : String)
  | process
deriving DecidableEq, Repr

/-- Which actor is running under `id` and has had its registration sent. (Not part of the code: what
`/repo/coerce/src/actor/scheduler/mod.rs` 237-264 ought to answer.) -/
def Registry.truth (g : Registry) (id : String) : Option Nat :=
  match g.unregistered.get id with
  | some _ => none
  | none => g.running.get id

/-- handlers of the scheduler: `RegisterActor`, `/repo/coerce/src/actor/scheduler/mod.rs` 192-218, `DeregisterActor`
223-229. -/
def regApply (m : Map Nat) : SMsg → Map Nat
  | .register id r => m.insert id r
  | .deregister id => m.erase id
  | .lookup _ _ => m

/-- `start`: `start_actor` in `ActorSystem::new_actor` (`/repo/coerce/src/actor/system/mod.rs` 139-179), the task runs at once;
`sendRegister`: the creator's `scheduler.send(RegisterActor)`; `stop`: the actor reaches
`send(DeregisterActor)` (`/repo/coerce/src/actor/lifecycle.rs` 154-156); `lookup`: `get_tracked_actor`; `process`: the
scheduler handles the oldest message, `GetActor` 237-264. -/
def regStep (g : Registry) : RegOp → Registry
  | .start id r => { g with running := (id, r) :: g.running, unregistered := (id, r) :: g.unregistered }
  | .sendRegister id =>
    match g.unregistered.get id with
    | none => g
    | some r => { g with
        unregistered := g.unregistered.erase id, queue := g.queue ++ [.register id r] }
  | .stop id r =>
    if (id, r) ∈ g.running then
      { g with running := g.running.filter (· ≠ (id, r)), queue := g.queue ++ [.deregister id] }
    else g
  | .lookup id => { g with queue := g.queue ++ [.lookup id (g.truth id)] }
  | .process =>
    match g.queue with
    | [] => g
    | m :: rest =>
      { g with
        queue := rest
        actors := regApply g.actors m
        answers := match m with
          | .lookup id t => g.answers ++ [(id, g.actors.get id, t)]
          | _ => g.answers }

/-- any sequence of such steps (`/repo/coerce/src/actor/scheduler/mod.rs` 188-265). -/
def regRun (ops : List RegOp) : Registry := ops.foldl regStep ⟨[], [], [], [], []⟩

/-! ### Worker pools -/

/-- `Worker::new`, `/repo/coerce/src/actor/worker.rs` 18-45: the ids of the workers. -/
def workerIds (name : String) (count : Nat) : List String :=
  (List.range count).map fun i => name ++ "-" ++ toString (i + 1)

/-- `Handler<WorkerMessage>`, `/repo/coerce/src/actor/worker.rs` 122-142: the request goes to the worker at the front, which
moves to the back; with no worker the request is dropped (the caller sees `ResultChannelClosed`). -/
def workerHandle {W : Type} (ws : List W) : List W × Option W :=
  match ws with
  | [] => ([], none)
  | w :: rest => (rest ++ [w], some w)

/-- Requests handled one after another: which worker got each. (`/repo/coerce/src/actor/worker.rs` 122-142.) -/
def workerRun {W : Type} (ws : List W) : Nat → List W × List (Option W)
  | 0 => (ws, [])
  | k + 1 =>
    let p := workerRun ws k
    let q := workerHandle p.1
    (q.1, p.2 ++ [q.2])

end Verif.Actor
