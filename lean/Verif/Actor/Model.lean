/-!
# The actor loop

Models `/repo/coerce/src/actor/lifecycle.rs` (`ActorLoop::run`, `actor_stopped`), the parts of
`/repo/coerce/src/actor/context.rs` it uses (status, on-stopped handlers, watchers, `Drop`),
`LocalActorRef::{send, notify, stop}` in `/repo/coerce/src/actor/refs/mod.rs` and
`ActorMessage::handle` in `/repo/coerce/src/actor/message/mod.rs`.

The user's actor is a parameter (`Behav`): what its `started` / `handle` / `stopped` hooks do to its own
state, what they answer, and whether they call `ctx.stop` or panic. Senders are arbitrary: an execution
is any list of `Input`s, where sends from all senders and the progress of the actor's task interleave
freely. Everything an outside observer can see is appended to `log`.

Simplifications: a oneshot channel is the number of the request that owns it; waiting for a oneshot is
the appearance of the corresponding event in the log; the `HashMap` of watchers is an association list
with unique keys (order of notification is therefore not meaningful). The actor's own context holds a
sender (`boxed_ref`), so `receiver.recv()` never returns `None`; an empty mailbox means waiting.
-/

namespace Verif.Actor

/-- `ActorStatus`, `/repo/coerce/src/actor/context.rs` 24-29. -/
inductive Status where
  | starting | started | stopping | stopped
deriving DecidableEq, Repr

/-- What a message in the mailbox asks for: a user message, `Stop` with or without an on-stopped
sender (`/repo/coerce/src/actor/lifecycle.rs` 20), `Watch` / `Unwatch` (`/repo/coerce/src/actor/watch/mod.rs`), `Status`
(`/repo/coerce/src/actor/lifecycle.rs` 18). A watcher is an actor id and the receiver behind it. -/
inductive Body (M : Type) where
  | user (m : M)
  | stop (ack : Bool)
  | watch (id : String) (rcv : Nat)
  | unwatch (id : String)
  | status
deriving DecidableEq, Repr

/-- A mailbox entry, `ActorMessage` (`/repo/coerce/src/actor/message/mod.rs` 114-160): `num` is the
identity of this request, `wantsReply` says whether it came from `send` (has a result sender) or
from `notify`. -/
structure Item (M : Type) where
  num : Nat
  body : Body M
  wantsReply : Bool
deriving DecidableEq, Repr

/-- Does this item carry an on-stopped sender (`Stop(Some(tx))`, `/repo/coerce/src/actor/lifecycle.rs` 20)? -/
def Item.awaitsStop {M : Type} (i : Item M) : Bool :=
  match i.body with
  | .stop true => true
  | _ => false

/-- The value a handler returns. (`Message::Result`, `/repo/coerce/src/actor/message/mod.rs` 62; `Status` returns an
`ActorStatus`, `/repo/coerce/src/actor/lifecycle.rs` 22-24.) -/
inductive Reply (R : Type) where
  | user (r : R)
  | unit
  | status (s : Status)
deriving DecidableEq, Repr

/-- How a user hook ends: with a new actor state, a result, and whether it called `ctx.stop`; or by panicking. (the
hooks: `/repo/coerce/src/actor/mod.rs` 221-227; panics unwind the task spawned at
`/repo/coerce/src/actor/scheduler/mod.rs` 283-288.) -/
inductive Ret (S R : Type) where
  | done (s : S) (r : R) (stop : Bool)
  | panic
deriving DecidableEq, Repr

/-- The user's `Actor` implementation. (`/repo/coerce/src/actor/mod.rs` 206-256.) -/
structure Behav (S M R : Type) where
  started : S → Ret S Unit
  handle : S → M → Ret S R
  stopped : S → Ret S Unit

/-- Where the actor's task is in `ActorLoop::run`. `created`: up to and including the `started` hook
(`/repo/coerce/src/actor/lifecycle.rs` 59-66). `looping`: at `receiver.recv()` (82). `handling i`: inside `msg.handle`
(111-116). `ending`: inside `actor_stopped` before the `stopped` hook has returned (145). `deregistering`: waiting for
the scheduler (154-158). `gone`: task finished, mailbox dropped. -/
inductive Phase (M : Type) where
  | created
  | looping
  | handling (i : Item M)
  | ending
  | deregistering
  | gone
deriving DecidableEq, Repr

/-- Observable events. `lost` is a result sender dropped without a value (the sender sees `ResultChannelClosed`);
`refused` is a failed channel send (`InvalidRef`). (`/repo/coerce/src/actor/refs/mod.rs` 382-416; `deregister`, `ack`
and `told`: `/repo/coerce/src/actor/lifecycle.rs` 149-174; `parentTold`: `/repo/coerce/src/actor/context.rs` 426-428.)
-/
inductive Ev (M R : Type) where
  | accepted (i : Item M)
  | refused (i : Item M)
  | startedHook
  | up
  | startFailed
  | begin (i : Item M)
  | finish (i : Item M)
  | replied (n : Nat) (r : Reply R)
  | lost (n : Nat)
  | stoppedHook
  | deregister
  | ack (n : Nat)
  | ackLost (n : Nat)
  | told (id : String) (rcv : Nat)
  | parentTold
  | crashed
deriving DecidableEq, Repr

/-- State of one actor: its task, `ActorContext` and mailbox. `starter` is `on_start` still being
held (`/repo/coerce/src/actor/lifecycle.rs` 54). -/
structure St (S M R : Type) where
  phase : Phase M
  status : Status
  actor : S
  mailbox : List (Item M)
  starter : Bool
  stopSenders : List Nat
  watchers : List (String × Nat)
  log : List (Ev M R)

/-- What may happen next. `send`: somebody sends or notifies. `tick down`: the actor's task runs on to its next await
point; `down` is what `system.is_terminated()` returns if it is asked. `deregAnswer ok`: the scheduler answers the
`DeregisterActor` request. (`/repo/coerce/src/actor/refs/mod.rs` 382-475; `/repo/coerce/src/actor/lifecycle.rs`
50-161.) -/
inductive Input (M : Type) where
  | send (i : Item M)
  | tick (down : Bool)
  | deregAnswer (ok : Bool)
deriving DecidableEq, Repr

variable {S M R : Type}

/-- `start_actor` (`/repo/coerce/src/actor/scheduler/mod.rs` 267-291) and the context created in
`/repo/coerce/src/actor/lifecycle.rs` 59-62. -/
def init (s : S) : St S M R :=
  { phase := .created, status := .starting, actor := s, mailbox := [], starter := true,
    stopSenders := [], watchers := [], log := [] }

/-- `Watchers::add_watcher`, `/repo/coerce/src/actor/watch/watchers.rs` 15-17. -/
def addWatcher (ws : List (String × Nat)) (id : String) (rcv : Nat) : List (String × Nat) :=
  (id, rcv) :: ws.filter (fun w => w.1 ≠ id)

/-- `Watchers::remove_watcher`, `/repo/coerce/src/actor/watch/watchers.rs` 19-21. -/
def removeWatcher (ws : List (String × Nat)) (id : String) : List (String × Nat) :=
  ws.filter (fun w => w.1 ≠ id)

/-- the items still in the mailbox when the receiver is dropped: every result sender and every on-stopped sender
inside is dropped. (The senders: `/repo/coerce/src/actor/message/mod.rs` 114-122 and
`/repo/coerce/src/actor/lifecycle.rs` 20.) -/
def dropEvents (i : Item M) : List (Ev M R) :=
  (if i.wantsReply then [.lost i.num] else []) ++
    (if i.awaitsStop then [.ackLost i.num] else [])

/-- The task unwinds after a panic: `ctx` is dropped (`Drop for ActorContext`, `/repo/coerce/src/actor/context.rs` 347-366),
its parent is told (425-428), all senders it holds are dropped; `stopped`, de-registration, on-stopped
senders and watchers are skipped. `current` is the item being handled. -/
def crash (σ : St S M R) (current : Option (Item M)) : St S M R :=
  { σ with
    phase := .gone
    mailbox := []
    starter := false
    stopSenders := []
    watchers := []
    log := σ.log ++ [.crashed]
      ++ (match current with
          | some i => dropEvents i
          | none => [])
      ++ (if σ.starter then [.startFailed] else [])
      ++ σ.stopSenders.map .ackLost
      ++ σ.mailbox.flatMap dropEvents
      ++ [.parentTold] }

/-- End of `actor_stopped` (`/repo/coerce/src/actor/lifecycle.rs` 163-174) and the drops at the end of `run`: on-stopped
senders fire, each watcher is told, then `on_start` (if still held), the mailbox and `ctx` are
dropped. -/
def finalise (σ : St S M R) : St S M R :=
  { σ with
    phase := .gone
    mailbox := []
    starter := false
    stopSenders := []
    watchers := []
    log := σ.log
      ++ σ.stopSenders.map .ack
      ++ σ.watchers.map (fun w => .told w.1 w.2)
      ++ (if σ.starter then [.startFailed] else [])
      ++ σ.mailbox.flatMap dropEvents
      ++ [.parentTold] }

/-- After a handler returned: send the result if there is a result sender
(`/repo/coerce/src/actor/message/mod.rs` 162-191), then `if ctx.get_status() == &Stopping { break }`
(`/repo/coerce/src/actor/lifecycle.rs` 125-127). -/
def handled (σ : St S M R) (i : Item M) (r : Reply R) : St S M R :=
  { σ with
    phase := if σ.status = .stopping then .ending else .looping
    log := σ.log ++ [.finish i] ++ (if i.wantsReply then [.replied i.num r] else []) }

/-- `ActorContext::stop`, `/repo/coerce/src/actor/context.rs` 106-112. -/
def ctxStop (σ : St S M R) (ack : Option Nat) : St S M R :=
  { σ with
    stopSenders := σ.stopSenders ++ ack.toList
    status := .stopping }

/-- The handler of one message: user handler, `Stop` (`/repo/coerce/src/actor/lifecycle.rs` 41-45), `Watch` / `Unwatch`
(`/repo/coerce/src/actor/watch/mod.rs`), `Status` (`/repo/coerce/src/actor/lifecycle.rs` 35-37). -/
def handle (B : Behav S M R) (σ : St S M R) (i : Item M) : St S M R :=
  match i.body with
  | .user m =>
    match B.handle σ.actor m with
    | .panic => crash σ (some i)
    | .done s r stop =>
      let σ : St S M R := { σ with actor := s }
      let σ := if stop then ctxStop σ none else σ
      handled σ i (.user r)
  | .stop ack => handled (ctxStop σ (if ack then some i.num else none)) i .unit
  | .watch id rcv => handled { σ with watchers := addWatcher σ.watchers id rcv } i .unit
  | .unwatch id => handled { σ with watchers := removeWatcher σ.watchers id } i .unit
  | .status => handled σ i (.status σ.status)

/-- The actor's task runs on from where it is (`/repo/coerce/src/actor/lifecycle.rs` 50-175). -/
def tick (B : Behav S M R) (tracked : Bool) (σ : St S M R) (down : Bool) : St S M R :=
  match σ.phase with
  | .created =>
    match B.started σ.actor with
    | .panic => crash { σ with log := σ.log ++ [.startedHook] } none
    | .done s _ stop =>
      let σ : St S M R := { σ with actor := s, log := σ.log ++ [.startedHook] }
      if stop then { σ with status := .stopping, phase := .ending }
      else { σ with status := .started, starter := false, phase := .looping, log := σ.log ++ [.up] }
  | .looping =>
    match σ.mailbox with
    | [] => σ
    | i :: rest => { σ with mailbox := rest, phase := .handling i, log := σ.log ++ [.begin i] }
  | .handling i => handle B σ i
  | .ending =>
    match B.stopped σ.actor with
    | .panic => crash { σ with log := σ.log ++ [.stoppedHook] } none
    | .done s _ _ =>
      let σ : St S M R := { σ with actor := s, status := .stopped, log := σ.log ++ [.stoppedHook] }
      if tracked && !down then { σ with phase := .deregistering, log := σ.log ++ [.deregister] }
      else finalise σ
  | .deregistering => σ
  | .gone => σ

/-- `LocalActorRef::send` / `notify` up to the channel send (`/repo/coerce/src/actor/refs/mod.rs` 382-416, 461-475). -/
def enqueue (σ : St S M R) (i : Item M) : St S M R :=
  match σ.phase with
  | .gone => { σ with log := σ.log ++ [.refused i] }
  | _ => { σ with mailbox := σ.mailbox ++ [i], log := σ.log ++ [.accepted i] }

/-- One step of the whole: a send, progress of the task, or the scheduler's answer
(`.expect("de-register actor")`, `/repo/coerce/src/actor/lifecycle.rs` 158). -/
def step (B : Behav S M R) (tracked : Bool) (σ : St S M R) : Input M → St S M R
  | .send i => enqueue σ i
  | .tick down => tick B tracked σ down
  | .deregAnswer ok =>
    match σ.phase with
    | .deregistering => if ok then finalise σ else crash σ none
    | _ => σ

/-- Any execution. (`/repo/coerce/src/actor/lifecycle.rs` 50-175; the task is spawned at
`/repo/coerce/src/actor/scheduler/mod.rs` 283-288.) -/
def run (B : Behav S M R) (tracked : Bool) (s : S) (ins : List (Input M)) : St S M R :=
  ins.foldl (step B tracked) (init s)

end Verif.Actor
