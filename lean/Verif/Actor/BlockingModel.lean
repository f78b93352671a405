import Verif.Actor.Model
import Verif.Assoc

/-!
# The blocking interface

Models `/repo/coerce/src/actor/blocking.rs` (`new_actor_blocking`, `send_blocking`, `stop_blocking`, `exec_blocking`)
beside the functions it mirrors, `ActorSystem::new_actor` (`/repo/coerce/src/actor/system/mod.rs` 139-179) and
`LocalActorRef::{send, stop, notify}` (`/repo/coerce/src/actor/refs/mod.rs` 382-416, 498-506, 461-475), for any number
of callers and actors. An actor is the actor loop of `/repo/coerce/src/actor/lifecycle.rs` as in `Verif.Actor.Model`.

Of tokio two rules are taken over, and they are part of what is trusted. `tokio::spawn` panics on a thread that has
entered no runtime. `oneshot::Receiver::blocking_recv` panics on a thread that is running asynchronous tasks, before
looking at the channel.
-/

namespace Verif.Actor.Blocking

/-- Where a call is made from. `outside`: a thread that knows of no runtime. `entered`: a thread that has entered a
runtime and may block (`spawn_blocking`, `Handle::enter`, `block_in_place`). `inside`: a task of the runtime, such as a
message handler (`/repo/coerce/src/actor/lifecycle.rs` 111-116), or the future given to `block_on`. -/
inductive Thread where
  | outside | entered | inside
deriving DecidableEq, Repr

/-- does `tokio::spawn` (`/repo/coerce/src/actor/scheduler/mod.rs` 283) work on this thread? -/
def Thread.maySpawn : Thread → Bool
  | .outside => false
  | .entered => true
  | .inside => true

/-- does `blocking_recv` (`/repo/coerce/src/actor/blocking.rs` 37, 66, 86) work on this thread? -/
def Thread.mayBlock : Thread → Bool
  | .outside => true
  | .entered => true
  | .inside => false

/-- What is called. `send`: `send_blocking` or `send`, and `exec_blocking` or `exec`, whose message carries the function
(`/repo/coerce/src/actor/blocking.rs` 52-80 and 92-98). `stop`: `stop_blocking` or `stop` (82-90). `tell`: `notify`,
which waits for nothing (`/repo/coerce/src/actor/refs/mod.rs` 461-475). `create j`: `new_actor_blocking` or `new_actor`
for the actor that is to have number `j` (12-48). -/
inductive Kind (M : Type) where
  | send (a : Nat) (b : Body M)
  | stop (a : Nat)
  | tell (a : Nat) (b : Body M)
  | create (j : Nat)
deriving DecidableEq, Repr

/-- What a call returns: a result, `ResultChannelClosed`, `InvalidRef`, `Ok(())`, a reference to the new actor, or
`ActorStartFailed` (`/repo/coerce/src/actor/blocking.rs` 37-47, 66-78, 85-89). -/
inductive Outcome (R : Type) where
  | result (r : Reply R)
  | closed
  | invalid
  | ok
  | ref (j : Nat)
  | startFailed
deriving DecidableEq, Repr

/-- How far a call is. `answer`, `stopped`: waiting for actor `a` (`/repo/coerce/src/actor/blocking.rs` 66, 86).
`register`: waiting for the scheduler (31-34). `start`: waiting for the new actor to be up (37). -/
inductive Call (R : Type) where
  | idle
  | answer (a : Nat)
  | stopped (a : Nat)
  | register (j : Nat)
  | start (j : Nat)
  | returned (o : Outcome R)
  | panicked
deriving DecidableEq, Repr

/-- The actors that can be created: their code, the value they are created with, whether they are `Tracked`, and their
id (the parameters of `new_actor`, `/repo/coerce/src/actor/system/mod.rs` 139-144). -/
structure World (S M R : Type) where
  code : Nat → Behav S M R
  value : Nat → S
  tracked : Nat → Bool
  id : Nat → String

/-- The actors, the scheduler and the callers. `queue` is what is in the scheduler's mailbox, each entry with the call
that waits for it; `up` says that the scheduler runs; `reg` is `ActorScheduler.actors`
(`/repo/coerce/src/actor/scheduler/mod.rs` 23-29). Simplification: of the scheduler's messages only `RegisterActor` is
shown; what it answers to `DeregisterActor` is an input. -/
structure Sys (S M R : Type) where
  acts : Nat → Option (St S M R)
  queue : List (Nat × Nat)
  up : Bool
  reg : Assoc String Nat
  calls : Nat → Call R

variable {S M R : Type}

/-- nothing created, nothing called (`/repo/coerce/src/actor/scheduler/mod.rs` 32-48). -/
def Sys.init : Sys S M R := ⟨fun _ => none, [], true, [], fun _ => .idle⟩

/-- call `c` is now at `v` (`/repo/coerce/src/actor/blocking.rs` 12-98). -/
def Sys.at (σ : Sys S M R) (c : Nat) (v : Call R) : Sys S M R :=
  { σ with calls := fun k => if k = c then v else σ.calls k }

/-- actor `a` is now at `st` (`/repo/coerce/src/actor/lifecycle.rs` 50-175). -/
def Sys.actor (σ : Sys S M R) (a : Nat) (st : St S M R) : Sys S M R :=
  { σ with acts := fun k => if k = a then some st else σ.acts k }

/-- is the mailbox of the actor still there, so that `sender.send` succeeds
(`/repo/coerce/src/actor/refs/mod.rs` 397-400)? -/
def alive (st : St S M R) : Bool :=
  match st.phase with
  | .gone => false
  | _ => true

/-- `LocalActorRef::send`, `/repo/coerce/src/actor/refs/mod.rs` 382-416. -/
def Sys.send (σ : Sys S M R) (c a : Nat) (st : St S M R) (b : Body M) : Sys S M R :=
  let σ' := σ.actor a (enqueue st ⟨c, b, true⟩)
  if alive st then σ'.at c (.answer a) else σ'.at c (.returned .invalid)

/-- `LocalActorRef::send_blocking`, `/repo/coerce/src/actor/blocking.rs` 52-80: the message is in the mailbox before
`blocking_recv` (66) is called. -/
def Sys.sendBlocking (σ : Sys S M R) (t : Thread) (c a : Nat) (st : St S M R) (b : Body M) : Sys S M R :=
  let σ' := σ.actor a (enqueue st ⟨c, b, true⟩)
  if alive st then
    if t.mayBlock then σ'.at c (.answer a) else σ'.at c .panicked
  else σ'.at c (.returned .invalid)

/-- `LocalActorRef::stop`, `/repo/coerce/src/actor/refs/mod.rs` 498-506. -/
def Sys.stop (σ : Sys S M R) (c a : Nat) (st : St S M R) : Sys S M R :=
  let σ' := σ.actor a (enqueue st ⟨c, .stop true, false⟩)
  if alive st then σ'.at c (.stopped a) else σ'.at c (.returned .invalid)

/-- `LocalActorRef::stop_blocking`, `/repo/coerce/src/actor/blocking.rs` 82-90. -/
def Sys.stopBlocking (σ : Sys S M R) (t : Thread) (c a : Nat) (st : St S M R) : Sys S M R :=
  let σ' := σ.actor a (enqueue st ⟨c, .stop true, false⟩)
  if alive st then
    if t.mayBlock then σ'.at c (.stopped a) else σ'.at c .panicked
  else σ'.at c (.returned .invalid)

/-- `LocalActorRef::notify`, `/repo/coerce/src/actor/refs/mod.rs` 461-475. -/
def Sys.tell (σ : Sys S M R) (c a : Nat) (st : St S M R) (b : Body M) : Sys S M R :=
  let σ' := σ.actor a (enqueue st ⟨c, b, false⟩)
  if alive st then σ'.at c (.returned .ok) else σ'.at c (.returned .invalid)

/-- `RegisterActor` goes into the mailbox of the scheduler, with the call that waits for the answer
(`/repo/coerce/src/actor/system/mod.rs` 158-165, `/repo/coerce/src/actor/blocking.rs` 31-34). -/
def Sys.post (σ : Sys S M R) (c j : Nat) : Sys S M R := { σ with queue := σ.queue ++ [(c, j)] }

/-- `ActorSystem::new_actor`, `/repo/coerce/src/actor/system/mod.rs` 139-179. Its future is run by the runtime, so that
`start_actor` can spawn. The answer of the scheduler is ignored (158). -/
def Sys.create (W : World S M R) (σ : Sys S M R) (c j : Nat) : Sys S M R :=
  let σ := σ.actor j (Actor.init (W.value j))
  if W.tracked j then
    if σ.up then (σ.post c j).at c (.register j) else σ.at c (.start j)
  else σ.at c (.start j)

/-- `ActorSystem::new_actor_blocking`, `/repo/coerce/src/actor/blocking.rs` 12-48. `start_actor` (20) spawns the task of
the actor, or panics. With a tracked actor `send_blocking` (31) puts `RegisterActor` into the scheduler's mailbox and
blocks; with a mailbox that is gone it returns an error, which is ignored. Then `rx.blocking_recv()` (37). -/
def Sys.createBlocking (W : World S M R) (σ : Sys S M R) (t : Thread) (c j : Nat) : Sys S M R :=
  if t.maySpawn then
    let σ := σ.actor j (Actor.init (W.value j))
    if W.tracked j then
      if σ.up then
        let σ := σ.post c j
        if t.mayBlock then σ.at c (.register j) else σ.at c .panicked
      else if t.mayBlock then σ.at c (.start j) else σ.at c .panicked
    else if t.mayBlock then σ.at c (.start j) else σ.at c .panicked
  else σ.at c .panicked

/-- a call is made: a blocking one from thread `t`, or (`none`) one that is awaited. The number of a call is new, the
actor it is made to exists, the actor it creates does not (`/repo/coerce/src/actor/blocking.rs` 12-98,
`/repo/coerce/src/actor/system/mod.rs` 139-179, `/repo/coerce/src/actor/refs/mod.rs` 382-506). -/
def Sys.call (W : World S M R) (σ : Sys S M R) (c : Nat) (t : Option Thread) (k : Kind M) : Sys S M R :=
  match σ.calls c with
  | .idle =>
    match k with
    | .send a b =>
      match σ.acts a, t with
      | some st, some t => σ.sendBlocking t c a st b
      | some st, none => σ.send c a st b
      | none, _ => σ
    | .stop a =>
      match σ.acts a, t with
      | some st, some t => σ.stopBlocking t c a st
      | some st, none => σ.stop c a st
      | none, _ => σ
    | .tell a b =>
      match σ.acts a with
      | some st => σ.tell c a st b
      | none => σ
    | .create j =>
      match σ.acts j, t with
      | some _, _ => σ
      | none, some t => σ.createBlocking W t c j
      | none, none => σ.create W c j
  | _ => σ

/-- what has come through the oneshot channel of request `c`: the result, or that the sender was dropped
(`/repo/coerce/src/actor/blocking.rs` 66-76). -/
def answerOf (c : Nat) : List (Ev M R) → Option (Outcome R)
  | [] => none
  | .replied n r :: l => if n = c then some (.result r) else answerOf c l
  | .lost n :: l => if n = c then some .closed else answerOf c l
  | _ :: l => answerOf c l

/-- what has come through the oneshot channel inside `Stop` (`/repo/coerce/src/actor/blocking.rs` 86). -/
def stopAnswerOf (c : Nat) : List (Ev M R) → Option (Outcome R)
  | [] => none
  | .ack n :: l => if n = c then some .ok else stopAnswerOf c l
  | .ackLost n :: l => if n = c then some .invalid else stopAnswerOf c l
  | _ :: l => stopAnswerOf c l

/-- what has come through `on_start` (`/repo/coerce/src/actor/blocking.rs` 37-45). -/
def startAnswerOf (j : Nat) : List (Ev M R) → Option (Outcome R)
  | [] => none
  | .up :: _ => some (.ref j)
  | .startFailed :: _ => some .startFailed
  | _ :: l => startAnswerOf j l

/-- a waiting call returns if something has come (`/repo/coerce/src/actor/blocking.rs` 37-47, 66-77, 86). -/
def Sys.wake (σ : Sys S M R) (c : Nat) : Sys S M R :=
  match σ.calls c with
  | .answer a =>
    match (σ.acts a).bind fun st => answerOf c st.log with
    | some o => σ.at c (.returned o)
    | none => σ
  | .stopped a =>
    match (σ.acts a).bind fun st => stopAnswerOf c st.log with
    | some o => σ.at c (.returned o)
    | none => σ
  | .start j =>
    match (σ.acts j).bind fun st => startAnswerOf j st.log with
    | some o => σ.at c (.returned o)
    | none => σ
  | _ => σ

/-- the wait for the scheduler is over, whichever way (`let _ = …`, `/repo/coerce/src/actor/blocking.rs` 31). -/
def Call.past : Call R → Call R
  | .register j => .start j
  | v => v

/-- The scheduler takes a registration (`/repo/coerce/src/actor/scheduler/mod.rs` 192-219) and answers, if anybody still
waits. -/
def Sys.sched (W : World S M R) (σ : Sys S M R) : Sys S M R :=
  match σ.queue with
  | [] => σ
  | (c, j) :: q =>
    { σ with
      queue := q
      reg := σ.reg.insert (W.id j) j }.at c (σ.calls c).past

/-- The scheduler ends; its mailbox is dropped with the answer channels in it, so that whoever waits goes on
(`/repo/coerce/src/actor/scheduler/mod.rs` 57-86, `/repo/coerce/src/actor/blocking.rs` 76). -/
def Sys.schedEnds (σ : Sys S M R) : Sys S M R :=
  { σ with
    up := false
    queue := []
    calls := fun c => (σ.calls c).past }

/-- What can happen: a call, blocking or awaited; a call looks at its channel; the task of an actor goes on; the
scheduler answers an actor's `DeregisterActor`; the scheduler takes a registration, or ends
(`/repo/coerce/src/actor/blocking.rs` 12-98, `/repo/coerce/src/actor/lifecycle.rs` 50-175). -/
inductive Op (M : Type) where
  | call (c : Nat) (t : Option Thread) (k : Kind M)
  | wake (c : Nat)
  | tick (a : Nat) (down : Bool)
  | dereg (a : Nat) (ok : Bool)
  | sched
  | schedEnds
deriving DecidableEq, Repr

/-- one step (`/repo/coerce/src/actor/blocking.rs` 12-98, `/repo/coerce/src/actor/lifecycle.rs` 50-175). -/
def Sys.step (W : World S M R) (σ : Sys S M R) : Op M → Sys S M R
  | .call c t k => σ.call W c t k
  | .wake c => σ.wake c
  | .tick a down =>
    match σ.acts a with
    | some st => σ.actor a (Actor.step (W.code a) (W.tracked a) st (.tick down))
    | none => σ
  | .dereg a ok =>
    match σ.acts a with
    | some st => σ.actor a (Actor.step (W.code a) (W.tracked a) st (.deregAnswer ok))
    | none => σ
  | .sched => σ.sched W
  | .schedEnds => σ.schedEnds

/-- any history (`/repo/coerce/src/actor/blocking.rs` 12-98, `/repo/coerce/src/actor/lifecycle.rs` 50-175). -/
def run (W : World S M R) (ops : List (Op M)) : Sys S M R := ops.foldl (Sys.step W) Sys.init

end Verif.Actor.Blocking
