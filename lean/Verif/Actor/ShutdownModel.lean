import Verif.Assoc

/-! Shutting down an actor system: `ActorSystem::shutdown`, the scheduler's `stopped`, and what actors do when
they stop. Citations: `/repo/coerce/src/actor/system/mod.rs`, `/repo/coerce/src/actor/scheduler/mod.rs`,
`/repo/coerce/src/actor/lifecycle.rs`. -/

namespace Verif.Actor.Shutdown

/-- Where one actor's task (`ActorLoop::run`, `/repo/coerce/src/actor/lifecycle.rs` 50-175) is. -/
inductive Phase where
  | absent    -- not spawned
  | idle      -- awaiting its mailbox (82)
  | busy      -- inside `started` (66) or a message handler (111-116)
  | waiting   -- a handler awaiting the scheduler's answer
  | closing   -- inside `stopped` (145)
  | checked   -- found the system not terminated (151), about to send `DeregisterActor`
  | leaving   -- awaiting the answer to `DeregisterActor` (154-158)
  | done      -- `actor_stopped` returned, stop requests are answered
  | crashed   -- `expect("de-register actor")` (158) panicked
deriving DecidableEq, Repr

/-- the task has ended; whoever awaits its stop is released (with `Ok` or `Err`).
(`/repo/coerce/src/actor/lifecycle.rs` 163-167, or the senders are dropped in a panic.) -/
def Phase.gone : Phase → Bool
  | .done => true
  | .crashed => true
  | _ => false

/-- the task cannot go on without the scheduler. (`/repo/coerce/src/actor/lifecycle.rs` 154-158;
`/repo/coerce/src/actor/system/mod.rs` 156-165 and 230-243.) -/
def Phase.needsScheduler : Phase → Bool
  | .waiting => true
  | .checked => true
  | .leaving => true
  | _ => false

/-- One actor. `stopAsked`: the `Stop` sent by the scheduler is in its mailbox
(`/repo/coerce/src/actor/refs/mod.rs` 498-506). -/
structure Act where
  key : Nat
  tracked : Bool
  phase : Phase
  stopAsked : Bool
deriving DecidableEq, Repr

/-- Messages of the scheduler (`/repo/coerce/src/actor/scheduler/mod.rs` 111-176). `get` stands for every
request that only asks (`GetActor`, `ActorCount`). -/
inductive SMsg where
  | register (caller : Option Nat) (j : Nat)
  | dereg (i : Nat)
  | get (i : Nat)
  | stop
deriving DecidableEq, Repr

/-- The scheduler's task. `stopping ws`: inside `stopped` (`/repo/coerce/src/actor/scheduler/mod.rs` 57-86),
awaiting the actors `ws`. -/
inductive SPhase where
  | running
  | stopping (ws : List Nat)
  | done
deriving DecidableEq, Repr

/-- The actor system. Actors are numbered by instance; two instances can have the same id (`key`).
`reg` is `ActorScheduler.actors` (`/repo/coerce/src/actor/scheduler/mod.rs` 23-29). -/
structure Sys where
  terminated : Bool
  phase : SPhase
  mbox : List SMsg
  reg : Assoc Nat Nat
  acts : Nat → Act

/-- a system with nothing in it, `/repo/coerce/src/actor/system/mod.rs` 55-105. -/
def Sys.init : Sys := ⟨false, .running, [], [], fun _ => ⟨0, false, .absent, false⟩⟩

/-- the task of actor `i` goes on to phase `p` (`/repo/coerce/src/actor/lifecycle.rs` 50-175). -/
def Sys.setPhase (s : Sys) (i : Nat) (p : Phase) : Sys :=
  { s with acts := fun k => if k = i then { s.acts i with phase := p } else s.acts k }

/-- where the task of actor `i` is (`/repo/coerce/src/actor/lifecycle.rs` 50-175). -/
def Sys.phaseOf (s : Sys) (i : Nat) : Phase := (s.acts i).phase

/-- the caller is answered and goes on. (`rx.await` in `send`, `/repo/coerce/src/actor/refs/mod.rs` 402-413.) -/
def Sys.resume (s : Sys) : Option Nat → Sys
  | none => s
  | some i => if s.phaseOf i = .waiting then s.setPhase i .busy else s

/-- `Stop` is put into the mailboxes of the registered actors
(`/repo/coerce/src/actor/scheduler/mod.rs` 64-69). -/
def Sys.askAll (s : Sys) (ws : List Nat) : Sys :=
  { s with acts := fun k => if k ∈ ws then { s.acts k with stopAsked := true } else s.acts k }

/-- The scheduler takes its next message: `Handler<RegisterActor>` (188-219; an actor already registered
under the id is replaced), `Handler<DeregisterActor>` (222-230; by id, whoever is registered),
`Handler<GetActor>` (233-265), `Handler<Stop>` (`/repo/coerce/src/actor/lifecycle.rs` 41-45, then 125-134);
lines of `/repo/coerce/src/actor/scheduler/mod.rs`. Later messages stay in the mailbox. -/
def Sys.handle (s : Sys) : SMsg → Sys
  | .register caller j => { s with reg := s.reg.insert (s.acts j).key j }.resume caller
  | .dereg i =>
    let s := { s with reg := s.reg.erase (s.acts i).key }
    if s.phaseOf i = .leaving then s.setPhase i .done else s
  | .get i => s.resume (some i)
  | .stop => { s.askAll s.reg.vals with phase := .stopping s.reg.vals }

/-- When the scheduler's task ends its mailbox is dropped, and with it the answer channels of the messages in it:
callers get an error, and an actor deregistering panics. (A dropped answer channel:
`/repo/coerce/src/actor/refs/mod.rs` 402-413; `expect`: `/repo/coerce/src/actor/lifecycle.rs` 158.) -/
def Act.released (a : Act) : Act :=
  match a.phase with
  | .waiting => { a with phase := .busy }
  | .leaving => { a with phase := .crashed }
  | _ => a

/-- What can happen. Simplifications: a handler waiting for anything but the scheduler is just `busy`; the `stopped`
hook does not call the scheduler; the position of `Stop` among other messages in a mailbox is arbitrary. (Modelled:
`/repo/coerce/src/actor/system/mod.rs` 107-243, `/repo/coerce/src/actor/lifecycle.rs` 50-175,
`/repo/coerce/src/actor/scheduler/mod.rs` 57-86 and 188-265.) -/
inductive Op where
  | spawn (caller : Option Nat) (j key : Nat) (tracked : Bool)
  | beginMsg (i : Nat)
  | finish (i : Nat)
  | ask (i : Nat)
  | quit (i : Nat)
  | takeStop (i : Nat)
  | closed (i : Nat)
  | sendDereg (i : Nat)
  | setTerminated
  | sendStop
  | sched
  | schedDone
  | askStop (i : Nat)
deriving DecidableEq, Repr

/-- may this caller make a call now. (`/repo/coerce/src/actor/lifecycle.rs` 111-116: only a running handler can call.)
-/
def Sys.mayCall (s : Sys) : Option Nat → Bool
  | none => true
  | some i => s.phaseOf i = .busy

/-- the caller starts awaiting the scheduler. (`/repo/coerce/src/actor/refs/mod.rs` 402-413.) -/
def Sys.await (s : Sys) : Option Nat → Sys
  | none => s
  | some i => s.setPhase i .waiting

/-- a message is put into the mailbox of the scheduler (`/repo/coerce/src/actor/refs/mod.rs` 396-401). -/
def Sys.push (s : Sys) (m : SMsg) : Sys := { s with mbox := s.mbox ++ [m] }

/-- One step; an operation that is not possible changes nothing. (Lines are given at the cases; the others are
`/repo/coerce/src/actor/lifecycle.rs` 66 and 82-128.) -/
def Sys.step (s : Sys) : Op → Sys
  -- `new_actor` / `new_actor_deferred` / `new_supervised_actor`, `/repo/coerce/src/actor/system/mod.rs` 107-210
  | .spawn caller j key tracked =>
    if s.phaseOf j = .absent ∧ s.mayCall caller ∧ caller ≠ some j then
      let s := { s with acts := fun k => if k = j then ⟨key, tracked, .busy, false⟩ else s.acts k }
      if tracked ∧ s.phase ≠ .done then (s.push (.register caller j)).await caller else s
    else s
  | .beginMsg i => if s.phaseOf i = .idle then s.setPhase i .busy else s
  | .finish i => if s.phaseOf i = .busy then s.setPhase i .idle else s
  -- `get_tracked_actor`, `/repo/coerce/src/actor/system/mod.rs` 233-246
  | .ask i =>
    if s.phaseOf i = .busy ∧ s.phase ≠ .done then (s.push (.get i)).setPhase i .waiting else s
  | .quit i => if s.phaseOf i = .busy then s.setPhase i .closing else s
  | .takeStop i =>
    if s.phaseOf i = .idle ∧ (s.acts i).stopAsked = true then s.setPhase i .closing else s
  -- `actor_stopped`, `/repo/coerce/src/actor/lifecycle.rs` 138-175
  | .closed i =>
    if s.phaseOf i = .closing then
      if (s.acts i).tracked ∧ s.terminated = false then s.setPhase i .checked else s.setPhase i .done
    else s
  | .sendDereg i =>
    if s.phaseOf i = .checked then
      if s.phase = .done then s.setPhase i .crashed else (s.push (.dereg i)).setPhase i .leaving
    else s
  -- `shutdown`, `/repo/coerce/src/actor/system/mod.rs` 216-229
  | .setTerminated => { s with terminated := true }
  | .sendStop => if s.terminated ∧ s.phase ≠ .done then s.push .stop else s
  | .sched =>
    match s.phase, s.mbox with
    | .running, m :: ms => { s with mbox := ms }.handle m
    | _, _ => s
  | .schedDone =>
    match s.phase with
    | .stopping ws =>
      if ws.all fun i => (s.phaseOf i).gone then
        { s with phase := .done, mbox := [], acts := fun k => (s.acts k).released }
      else s
    | _ => s
  -- `stop` and `notify_stop`, `/repo/coerce/src/actor/refs/mod.rs` 498-506, 517-519; nothing comes of it if the actor has ended
  | .askStop i =>
    if s.phaseOf i = .absent ∨ (s.phaseOf i).gone then s
    else { s with acts := fun k => if k = i then { s.acts i with stopAsked := true } else s.acts k }

/-- `RemoteSystemCore::shutdown`, `/repo/coerce/src/remote/system/mod.rs` 56-69, stops the actors of the remote system one
after the other and waits for the end of each: heartbeat, clients, mediator, discovery, registry. This is the one it waits
for, `none` when it has returned. (`RemoteActorSystem::shutdown`, 50-53, is nothing more; `ActorSystem::shutdown`,
`/repo/coerce/src/actor/system/mod.rs` 222-225, calls it when the scheduler has ended.) -/
def Sys.remoteAwaits (s : Sys) (rs : List Nat) : Option Nat := rs.find? fun i => !(s.phaseOf i).gone

/-- any sequence of operations (`/repo/coerce/src/actor/lifecycle.rs` 50-175). -/
def Sys.run (s : Sys) (ops : List Op) : Sys := ops.foldl Sys.step s

end Verif.Actor.Shutdown
