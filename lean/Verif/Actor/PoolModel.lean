import Verif.Actor.Supervision

/-!
# A worker pool at work

`/repo/coerce/src/actor/worker.rs`: the pool's actor (the "supervisor") passes tasks on to its workers in turn. Tasks have
numbers, so have the workers. The mailboxes of all workers are one list of pairs (worker, task) in the order of arrival;
the mailbox of a worker is its part of it.
-/

namespace Verif.Actor.Pool

/-- what `dispatch` returns. (`/repo/coerce/src/actor/worker.rs` 103-113; the errors:
`/repo/coerce/src/actor/refs/mod.rs` 284-303.) -/
inductive Out (R : Type) where
  | ok (r : R)
  /-- `ActorRefErr::ResultChannelClosed` -/
  | closed
  /-- `ActorRefErr::InvalidRef` -/
  | invalid
deriving DecidableEq, Repr

/-- the pool (`/repo/coerce/src/actor/worker.rs` 13-15), its workers, what is under way, and two logs that no code
reads. -/
structure St (R : Type) where
  /-- the pool's actor runs. -/
  up : Bool
  alive : Nat → Bool
  /-- `workers`, `/repo/coerce/src/actor/worker.rs` 13-15. -/
  ring : List Nat
  /-- mailbox of the pool's actor. -/
  inbox : List Nat := []
  /-- spawned tasks that have not sent yet, `/repo/coerce/src/actor/worker.rs` 129-130. -/
  fly : List (Nat × Nat) := []
  queued : List (Nat × Nat) := []
  /-- log: which worker began which task. -/
  done : List (Nat × Nat) := []
  /-- log: what callers got. -/
  outs : List (Nat × Out R) := []

/-- what can happen: the calls and handlers of `/repo/coerce/src/actor/worker.rs` 96-142, and the ends of actors. -/
inductive Op where
  /-- `dispatch`, up to the waiting. -/
  | dispatch (t : Nat)
  /-- the pool's actor handles a `WorkerMessage`. -/
  | handle
  /-- the spawned task at this position sends. -/
  | send (i : Nat)
  /-- a worker handles a message. -/
  | work (w : Nat)
  /-- a worker's handler panics: its actor ends. -/
  | panic (w : Nat)
  /-- a worker stops. -/
  | stopWorker (w : Nat)
  /-- the pool's actor stops. -/
  | stopPool
deriving DecidableEq, Repr

variable {R : Type}

/-- the tasks of a list get the same outcome. (`/repo/coerce/src/actor/worker.rs` 106-112: a dropped result sender is
an error for the one who waits.) -/
def tell (o : Out R) (ts : List Nat) : List (Nat × Out R) := ts.map fun t => (t, o)

/-- `dispatch`, `/repo/coerce/src/actor/worker.rs` 96-114: the message goes into the mailbox of the pool's actor. -/
def dispatch (σ : St R) (t : Nat) : St R :=
  if σ.up then { σ with inbox := σ.inbox ++ [t] } else { σ with outs := σ.outs ++ [(t, .invalid)] }

/-- `Handler<WorkerMessage<M>>`, `/repo/coerce/src/actor/worker.rs` 122-142: without workers the message, and with it the
sender of the result, is dropped. -/
def handle (σ : St R) : St R :=
  match σ.inbox with
  | [] => σ
  | t :: rest =>
    match workerHandle σ.ring with
    | (_, none) => { σ with inbox := rest, outs := σ.outs ++ [(t, .closed)] }
    | (ring, some w) => { σ with inbox := rest, ring := ring, fly := σ.fly ++ [(w, t)] }

/-- the spawned task, `/repo/coerce/src/actor/worker.rs` 129-140: if the worker is gone, the result's sender is dropped. -/
def send (σ : St R) (i : Nat) : St R :=
  match σ.fly[i]? with
  | none => σ
  | some (w, t) =>
    if σ.alive w then { σ with fly := σ.fly.eraseIdx i, queued := σ.queued ++ [(w, t)] }
    else { σ with fly := σ.fly.eraseIdx i, outs := σ.outs ++ [(t, .closed)] }

/-- the tasks in the mailbox of a worker, in order. (the mailbox of one actor,
`/repo/coerce/src/actor/scheduler/mod.rs` 279.) -/
def box (σ : St R) (w : Nat) : List Nat := (σ.queued.filter fun p => decide (p.1 = w)).map Prod.snd

/-- the others' mail. (every actor has a mailbox of its own, `/repo/coerce/src/actor/scheduler/mod.rs` 279.) -/
def others (σ : St R) (w : Nat) : List (Nat × Nat) := σ.queued.filter fun p => !decide (p.1 = w)

/-- a worker handles its next message; `res w t` is its result, passed on to the caller
(`/repo/coerce/src/actor/worker.rs` 130-137). -/
def work (res : Nat → Nat → R) (σ : St R) (w : Nat) : St R :=
  match box σ w with
  | [] => σ
  | t :: _ => { σ with queued := σ.queued.erase (w, t), done := σ.done ++ [(w, t)], outs := σ.outs ++ [(t, .ok (res w t))] }

/-- a worker panics over its next message: its mailbox is gone with it (`/repo/coerce/src/actor/worker.rs` 138: the error
is logged, the sender of the result dropped). -/
def panic (σ : St R) (w : Nat) : St R :=
  match box σ w with
  | [] => σ
  | t :: ts => { σ with alive := fun v => if v = w then false else σ.alive v, queued := others σ w,
                        done := σ.done ++ [(w, t)], outs := σ.outs ++ tell .closed (t :: ts) }

/-- a worker stops with messages in its mailbox: they are dropped with their result senders
(`/repo/coerce/src/actor/lifecycle.rs` 125-135, `/repo/coerce/src/actor/worker.rs` 138). -/
def stopWorker (σ : St R) (w : Nat) : St R :=
  { σ with alive := fun v => if v = w then false else σ.alive v, queued := others σ w, outs := σ.outs ++ tell .closed (box σ w) }

/-- the workers are actors of their own, not children of the pool's actor (`/repo/coerce/src/actor/worker.rs` 26-44): they
go on. -/
def stopPool (σ : St R) : St R :=
  { σ with up := false, inbox := [], outs := σ.outs ++ tell .closed σ.inbox }

/-- one of the operations. (`/repo/coerce/src/actor/worker.rs` 96-142.) -/
def step (res : Nat → Nat → R) (σ : St R) : Op → St R
  | .dispatch t => dispatch σ t
  | .handle => handle σ
  | .send i => send σ i
  | .work w => work res σ w
  | .panic w => panic σ w
  | .stopWorker w => stopWorker σ w
  | .stopPool => stopPool σ

/-- any sequence of operations (`/repo/coerce/src/actor/worker.rs` 96-142). -/
def run (res : Nat → Nat → R) (σ : St R) (ops : List Op) : St R := ops.foldl (step res) σ

/-- a pool of `n` workers that has just been created. (`/repo/coerce/src/actor/worker.rs` 24-45.) -/
def init (n : Nat) : St R := { up := true, alive := fun w => decide (w < n), ring := List.range n }

/-! ### Creating a pool -/

/-- the error of `Worker::new`: what `new_actor` returns if an actor does not start
(`/repo/coerce/src/actor/system/mod.rs` 166-178, passed on by `?` at `/repo/coerce/src/actor/worker.rs` 34). -/
inductive NewErr where
  | actorStartFailed
deriving DecidableEq

/-- `Worker::new`, `/repo/coerce/src/actor/worker.rs` 18-45: `starts i` tells whether worker `i` starts, `sup` whether the
pool's actor does. The actors that run afterwards, and the result: the workers of the pool. -/
def newLoop (starts : Nat → Bool) : Nat → Nat → List Nat → List Nat × Except NewErr (List Nat)
  | 0, _, ws => (ws, .ok ws)
  | k + 1, i, ws => if starts i then newLoop starts k (i + 1) (ws ++ [i]) else (ws, .error .actorStartFailed)

/-- `Worker::new`, `/repo/coerce/src/actor/worker.rs` 18-45: first the workers, then the actor of the pool. -/
def newPool (starts : Nat → Bool) (sup : Bool) (count : Nat) : List Nat × Except NewErr (List Nat) :=
  match newLoop starts count 0 [] with
  | (ws, .ok ring) => if sup then (ws, .ok ring) else (ws, .error .actorStartFailed)
  | r => r

end Verif.Actor.Pool
