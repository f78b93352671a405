/-!
# Who waits for whom

An actor handles one message at a time (`/repo/coerce/src/actor/lifecycle.rs` 82-128). A handler or hook that asks
another actor (`LocalActorRef::send`, `/repo/coerce/src/actor/refs/mod.rs` 382-416), stops one and waits for the end
(498-507) or starts one and waits for its `started` (`/repo/coerce/src/actor/supervised.rs` 71-91,
`/repo/coerce/src/actor/system/mod.rs` 139-179) keeps its own actor busy until the answer is there.
This file is about nothing but that waiting: what the messages say and compute is left out.

Simplifications.
* A request carries everything that will be asked while it is handled, in order: the choices the handlers make are
  made when the request arrives. Every finite run of handlers that choose as they go is a run of this model.
* Notifications, spawned tasks, timers and the network are requests from outside: nobody waits for them.
* A wait with a timeout is not a wait. A write to a socket is taken to end.
* An actor that stops itself does so as if it had sent itself a `Stop` from outside.
* The handlers do not panic.
-/

namespace Verif.Actor.Waits

/-- a request: the actor it goes to, the hook or handler that will run there, and what that one asks, in order,
waiting for each answer before it goes on. (`send` returns when the answer is there,
`/repo/coerce/src/actor/refs/mod.rs` 382-416; a handler is an `async fn` that is awaited,
`/repo/coerce/src/actor/lifecycle.rs` 111-116.) -/
inductive Req (α η : Type) where
  | mk (to : α) (hook : η) (calls : List (Req α η))

namespace Req

variable {α η : Type}

/-- the actor a request goes to. (`/repo/coerce/src/actor/refs/mod.rs` 382.) -/
def to : Req α η → α
  | mk a _ _ => a

/-- the hook or handler that runs. (`/repo/coerce/src/actor/lifecycle.rs` 66, 111-116 and 145.) -/
def hook : Req α η → η
  | mk _ h _ => h

/-- what is asked meanwhile. (`/repo/coerce/src/actor/refs/mod.rs` 402-413.) -/
def calls : Req α η → List (Req α η)
  | mk _ _ cs => cs

end Req

/-- which hooks are the first thing an actor does (`started`) and which are the last (`stopped`):
`/repo/coerce/src/actor/lifecycle.rs` 66-71 and 134. A `started` that stops the actor is both. -/
structure Hooks (η : Type) where
  first : η → Bool
  last : η → Bool

/-- where a request is: in the mailbox, being handled, or its handler waits for an answer.
(`/repo/coerce/src/actor/lifecycle.rs` 82-116; `/repo/coerce/src/actor/refs/mod.rs` 402.) -/
inductive Phase where
  | queued
  | running
  | waiting
  deriving DecidableEq, Repr

/-- who gets the answer: the handler of another job or somebody outside, under the tag they chose. (the result channel
of a message, `/repo/coerce/src/actor/message/mod.rs` 114-122.) -/
inductive Caller where
  | job (i : Nat)
  | outside (n : Nat)
  deriving DecidableEq, Repr

/-- a request that has arrived and is not yet answered. (`/repo/coerce/src/actor/message/mod.rs` 114-122.) -/
structure Job (α η : Type) where
  id : Nat
  to : α
  hook : η
  caller : Caller
  /-- what is still to be asked. -/
  calls : List (Req α η)
  phase : Phase

/-- all mailboxes and handlers. (every actor has one mailbox and one loop: `/repo/coerce/src/actor/scheduler/mod.rs`
267-291.) -/
structure St (α η : Type) where
  /-- the jobs in the order of their arrival; the jobs of one actor, in this order, are its current job and its
  mailbox (`unbounded_channel`, `/repo/coerce/src/actor/scheduler/mod.rs` 279). -/
  jobs : List (Job α η) := []
  next : Nat := 0
  /-- the actors that have been started. -/
  born : List α := []
  /-- the actors that have ended. -/
  dead : List α := []
  /-- the tags of the outside requests that have been answered, oldest first. -/
  answered : List Nat := []

/-- what happens next. (`/repo/coerce/src/actor/lifecycle.rs` 82-116, `/repo/coerce/src/actor/refs/mod.rs` 396-413.)
-/
inductive Op (α η : Type) where
  /-- a request from outside arrives. -/
  | ask (n : Nat) (r : Req α η)
  /-- an idle actor takes the oldest message of its mailbox. -/
  | take (i : Nat)
  /-- a handler asks the next thing it has to ask. -/
  | call (i : Nat)
  /-- a handler ends and answers. -/
  | finish (i : Nat)

/-- an op that is not a new request from outside. (`/repo/coerce/src/actor/lifecycle.rs` 82-116.) -/
def Op.inner {α η : Type} : Op α η → Bool
  | ask _ _ => false
  | _ => true

variable {α η : Type} [DecidableEq α]

/-- can the request be put in the mailbox? An actor is started once; a message needs an actor whose receiver
is there (`/repo/coerce/src/actor/refs/mod.rs` 396-415: `sender.send` fails otherwise and the caller gets an error
at once). Starting an actor under a taken id is refused at once (`/repo/coerce/src/actor/supervised.rs` 67-69). -/
def accepts (H : Hooks η) (s : St α η) (r : Req α η) : Bool :=
  if H.first r.hook then decide (r.to ∉ s.born) else decide (r.to ∈ s.born) && decide (r.to ∉ s.dead)

/-- the actors started once the request is in the mailbox. (`/repo/coerce/src/actor/scheduler/mod.rs` 279-288: the
mailbox of a new actor is there at once.) -/
def bornWith (H : Hooks η) (s : St α η) (r : Req α η) : List α :=
  if H.first r.hook then s.born ++ [r.to] else s.born

/-- the request as a job. (`/repo/coerce/src/actor/message/mod.rs` 148-160.) -/
def jobOf (i : Nat) (c : Caller) (r : Req α η) : Job α η :=
  ⟨i, r.to, r.hook, c, r.calls, .queued⟩

/-- change one job. (every message is handled by itself, `/repo/coerce/src/actor/lifecycle.rs` 82-116.) -/
def upd (i : Nat) (f : Job α η → Job α η) (l : List (Job α η)) : List (Job α η) :=
  l.map fun j => if j.id = i then f j else j

/-- the job goes on. (`/repo/coerce/src/actor/lifecycle.rs` 111-116.) -/
def Job.run (j : Job α η) : Job α η := { j with phase := .running }

/-- the job has asked its next question. (`/repo/coerce/src/actor/refs/mod.rs` 396-402.) -/
def Job.asked (rest : List (Req α η)) (p : Phase) (j : Job α η) : Job α η :=
  { j with calls := rest, phase := p }

/-- the jobs answered when a job ends: itself and, when its actor ends, all that is left in the mailbox: the
receiver is dropped and with it the result channels (`/repo/coerce/src/actor/lifecycle.rs` 53 and 134,
`/repo/coerce/src/actor/refs/mod.rs` 402-413: the waiting caller gets an error). -/
def gone (H : Hooks η) (j k : Job α η) : Bool :=
  k.id == j.id || (H.last j.hook && decide (k.to = j.to))

/-- the tag of an outside request. (the result channel, `/repo/coerce/src/actor/refs/mod.rs` 396.) -/
def Job.tag? (j : Job α η) : Option Nat :=
  match j.caller with
  | .outside n => some n
  | .job _ => none

/-- the handlers that get their answer when the jobs `l` are answered go on. (`/repo/coerce/src/actor/message/mod.rs`
181-189.) -/
def release (l : List (Job α η)) (j : Job α η) : Job α η :=
  if l.any (fun k => k.caller == .job j.id) then j.run else j

/-- the state after job `j` has ended. (`/repo/coerce/src/actor/lifecycle.rs` 111-134.) -/
def finished (H : Hooks η) (s : St α η) (j : Job α η) : St α η :=
  { s with
    jobs := (s.jobs.filter fun k => !gone H j k).map (release (s.jobs.filter (gone H j)))
    dead := if H.last j.hook then s.dead ++ [j.to] else s.dead
    answered := s.answered ++ (s.jobs.filter (gone H j)).filterMap Job.tag? }

/-- the state after job `j` has asked `r`; `rest` is what it asks afterwards. (`/repo/coerce/src/actor/refs/mod.rs`
396-402.) -/
def called (H : Hooks η) (s : St α η) (j : Job α η) (r : Req α η) (rest : List (Req α η)) : St α η :=
  if accepts H s r then
    { s with
      jobs := upd j.id (Job.asked rest .waiting) s.jobs ++ [jobOf s.next (.job j.id) r]
      next := s.next + 1
      born := bornWith H s r }
  else { s with jobs := upd j.id (Job.asked rest .running) s.jobs }

/-- the state after a request from outside. (`/repo/coerce/src/actor/refs/mod.rs` 396-401.) -/
def arrived (H : Hooks η) (s : St α η) (n : Nat) (r : Req α η) : St α η :=
  if accepts H s r then
    { s with
      jobs := s.jobs ++ [jobOf s.next (.outside n) r], next := s.next + 1, born := bornWith H s r }
  else { s with answered := s.answered ++ [n] }

/-- job `j` is the oldest of its actor. (the mailbox is a queue: `receiver.recv()`,
`/repo/coerce/src/actor/lifecycle.rs` 82.) -/
def oldest (s : St α η) (j : Job α η) : Bool :=
  match s.jobs.find? (fun k => decide (k.to = j.to)) with
  | some k => k.id == j.id
  | none => false

/-- one step; `none` if it cannot happen. (`/repo/coerce/src/actor/lifecycle.rs` 82-128;
`/repo/coerce/src/actor/refs/mod.rs` 382-416.) -/
def step (H : Hooks η) (s : St α η) : Op α η → Option (St α η)
  | .ask n r => some (arrived H s n r)
  | .take i =>
    match s.jobs.find? (fun j => j.id == i) with
    | none => none
    | some j => if j.phase = .queued ∧ oldest s j then some { s with jobs := upd i Job.run s.jobs } else none
  | .call i =>
    match s.jobs.find? (fun j => j.id == i) with
    | none => none
    | some j =>
      match j.phase, j.calls with
      | .running, r :: rest => some (called H s j r rest)
      | _, _ => none
  | .finish i =>
    match s.jobs.find? (fun j => j.id == i) with
    | none => none
    | some j =>
      match j.phase, j.calls with
      | .running, [] => some (finished H s j)
      | _, _ => none

/-- a history. (`/repo/coerce/src/actor/lifecycle.rs` 50-135.) -/
def run (H : Hooks η) : St α η → List (Op α η) → Option (St α η)
  | s, [] => some s
  | s, op :: ops => (step H s op).bind fun s' => run H s' ops

/-- at the beginning some actors exist and nothing is asked. (`/repo/coerce/src/actor/scheduler/mod.rs` 267-291.) -/
def init (actors : List α) : St α η := { born := actors }

end Verif.Actor.Waits
