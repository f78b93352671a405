import Verif.Util

/-!
# The singleton manager

`/repo/coerce/src/singleton/manager/`. One `Manager` actor per node, and the singleton actors of that
node. Instances of the singleton actor are numbered.

Simplifications. `ActorRef`s to other managers are node ids; sending to another node is an output and
always succeeds (`RemoteActorRef::notify` fails only for messages whose type is not registered, so the
retry in `notify`, `/repo/coerce/src/singleton/manager/mod.rs` 184-191, is not modelled). The start of
the actor is a task of its own (`pipe_to`): `starts` counts those under way, `results` are their results
not yet handled. `into_actor` with an id that is in use starts a second actor (see the actor model), so
nothing stops two instances on one node. `on_child_stopped` is a handler like the others; whether it is
ever called is a matter of the whole system, see `Verif.Singleton.ClusterModel`.
-/

namespace Verif.Singleton

/-- messages between managers, `/repo/coerce/src/singleton/manager/lease.rs` 12-76 and
`/repo/coerce/src/singleton/manager/mod.rs` 391-399; each carries the node it comes from. -/
inductive MMsg where
  | request (src : Nat)
  | ack (src : Nat)
  | started (src : Nat)
  | stopped (src : Nat)
deriving DecidableEq, Repr

/-- `State`, `/repo/coerce/src/singleton/manager/mod.rs` 74-89. `acked`: a `HashSet`, without
duplicates. -/
inductive MState where
  | joining (pending : Option Nat)
  | idle
  | starting (acked : List Nat)
  | running (a : Nat)
  | stopping (a by_ : Nat)
deriving DecidableEq, Repr

/-- `is_running`, `/repo/coerce/src/singleton/manager/mod.rs` 120-122. -/
def MState.isRunning : MState → Bool
  | .running _ => true
  | .starting _ => true
  | _ => false

/-- `is_joining`, `/repo/coerce/src/singleton/manager/mod.rs` 124-126. -/
def MState.isJoining : MState → Bool
  | .joining _ => true
  | _ => false

/-- `get_actor`, `/repo/coerce/src/singleton/manager/mod.rs` 128-135. -/
def MState.actor : MState → Option Nat
  | .running a => some a
  | .stopping a _ => some a
  | _ => none

/-- `Manager`, `/repo/coerce/src/singleton/manager/mod.rs` 25-38, and the singleton actors of its node.
`managers`: the keys of the map of other managers, in the order of iteration. `live`: instances running.
`ended`: instances whose end the manager has still to be told. -/
structure Mgr where
  self : Nat
  st : MState := .joining none
  managers : List Nat := []
  starts : Nat := 0
  results : List Nat := []
  fresh : Nat := 0
  live : List Nat := []
  ended : List Nat := []
deriving DecidableEq, Repr

/-- what a manager does: sends a message to another manager, tells the proxy of its own node, or sends a stop
notification to the singleton actor. (`/repo/coerce/src/singleton/manager/mod.rs` 139-222,
`/repo/coerce/src/singleton/manager/start.rs` 34-69.) -/
inductive MOut where
  | send (n : Nat) (m : MMsg)
  | proxyStarted (node a : Nat)
  | proxyRemote (node : Nat)
  | proxyStopping
  | stopActor (a : Nat)
deriving DecidableEq, Repr

/-- `notify_manager`, `/repo/coerce/src/singleton/manager/mod.rs` 139-156. -/
def Mgr.notifyManager (σ : Mgr) (n : Nat) (m : MMsg) : List MOut := if n ∈ σ.managers then [.send n m] else []

/-- `notify_managers`, `/repo/coerce/src/singleton/manager/mod.rs` 158-166. -/
def Mgr.notifyManagers (σ : Mgr) (m : MMsg) : List MOut := σ.managers.map fun n => .send n m

/-- `start_actor`, `/repo/coerce/src/singleton/manager/start.rs` 18-31, called by
`on_all_managers_acknowledged`, `/repo/coerce/src/singleton/manager/lease.rs` 182-185. -/
def Mgr.startActor (σ : Mgr) : Mgr := { σ with starts := σ.starts + 1 }

/-- `begin_starting`, `/repo/coerce/src/singleton/manager/mod.rs` 194-200, and `request_lease`,
`/repo/coerce/src/singleton/manager/lease.rs` 108-125. -/
def Mgr.beginStarting (σ : Mgr) : Mgr × List MOut :=
  if σ.managers.length = 0 then (({ σ with st := .starting [] }).startActor, [])
  else ({ σ with st := .starting [] }, σ.notifyManagers (.request σ.self))

/-- `begin_stopping`, `/repo/coerce/src/singleton/manager/mod.rs` 202-222. -/
def Mgr.beginStopping (σ : Mgr) (n : Nat) : Mgr × List MOut :=
  match σ.st.actor with
  | none => (σ, [])
  | some a => ({ σ with st := .stopping a n }, .stopActor a :: σ.notifyManagers (.stopped σ.self))

/-- `on_leader_changed`, `/repo/coerce/src/singleton/manager/mod.rs` 224-228. -/
def Mgr.onLeaderChanged (σ : Mgr) (n : Nat) : Mgr × List MOut :=
  if n = σ.self ∧ σ.st.isRunning = false then σ.beginStarting else (σ, [])

/-- `grant_lease`, `/repo/coerce/src/singleton/manager/lease.rs` 127-152. -/
def Mgr.grantLease (σ : Mgr) (n : Nat) : Mgr × List MOut :=
  match σ.st with
  | .joining _ => ({ σ with st := .joining (some n) }, [])
  | _ => (σ, σ.notifyManager n (.ack σ.self))

/-- `Handler<RequestLease>`, `/repo/coerce/src/singleton/manager/lease.rs` 78-98. -/
def Mgr.onRequest (σ : Mgr) (n : Nat) : Mgr × List MOut :=
  if σ.st.isRunning then σ.beginStopping n else σ.grantLease n

/-- insertion into a `HashSet`. (`/repo/coerce/src/singleton/manager/lease.rs` 154-180.) -/
def setInsert (l : List Nat) (n : Nat) : List Nat := if n ∈ l then l else l ++ [n]

/-- the check made after an acknowledgement or a removal, `/repo/coerce/src/singleton/manager/lease.rs`
167 and `/repo/coerce/src/singleton/manager/mod.rs` 379. -/
def Mgr.checkAcks (σ : Mgr) (acked : List Nat) : Mgr :=
  if acked.length = σ.managers.length then ({ σ with st := .starting acked }).startActor
  else { σ with st := .starting acked }

/-- `on_lease_ack`, `/repo/coerce/src/singleton/manager/lease.rs` 154-180. -/
def Mgr.onAck (σ : Mgr) (n : Nat) : Mgr :=
  match σ.st with
  | .starting acked => σ.checkAcks (setInsert acked n)
  | _ => σ

/-- the loop over the members in `MemberUp`, `/repo/coerce/src/singleton/manager/mod.rs` 292-306; `sel`
is the node selector. -/
def addManagers (sel : Nat → Bool) (self : Nat) (managers : List Nat) (nodes : List Nat) : List Nat :=
  nodes.foldl (fun ms n => if n = self ∨ sel n = false then ms else setInsert ms n) managers

/-- the acknowledgement due when joining ends, `/repo/coerce/src/singleton/manager/mod.rs` 308-320. -/
def Mgr.dueAck (σ : Mgr) : List MOut :=
  match σ.st with
  | .joining (some n) => σ.notifyManager n (.ack σ.self)
  | _ => []

/-- `MemberUp`, `/repo/coerce/src/singleton/manager/mod.rs` 280-325. -/
def Mgr.onMemberUp (σ : Mgr) (sel : Nat → Bool) (leader : Nat) (nodes : List Nat) : Mgr × List MOut :=
  let τ := { σ with managers := addManagers sel σ.self σ.managers nodes }
  if leader = σ.self then
    (({ τ with st := .idle }).beginStarting.1, τ.dueAck ++ ({ τ with st := .idle }).beginStarting.2)
  else ({ τ with st := .idle }, τ.dueAck)

/-- what a manager that learns of a new node sends it, `/repo/coerce/src/singleton/manager/mod.rs`
346-361. -/
def Mgr.greeting (σ : Mgr) (n : Nat) : List MOut :=
  match σ.st with
  | .starting _ => [.send n (.request σ.self)]
  | .running _ => [.send n (.started σ.self)]
  | _ => []

/-- `NodeAdded`, `/repo/coerce/src/singleton/manager/mod.rs` 333-368. -/
def Mgr.onNodeAdded (σ : Mgr) (sel : Nat → Bool) (n : Nat) : Mgr × List MOut :=
  if n ≠ σ.self ∧ sel n = true ∧ n ∉ σ.managers then ({ σ with managers := σ.managers ++ [n] }, σ.greeting n)
  else (σ, [])

/-- `NodeRemoved`, `/repo/coerce/src/singleton/manager/mod.rs` 370-383. -/
def Mgr.onNodeRemoved (σ : Mgr) (n : Nat) : Mgr :=
  match σ.st with
  | .starting acked => ({ σ with managers := σ.managers.filter (· ≠ n) }).checkAcks (acked.filter (· ≠ n))
  | _ => { σ with managers := σ.managers.filter (· ≠ n) }

/-- `Handler<ActorStartResult>`, `/repo/coerce/src/singleton/manager/start.rs` 35-69, for a started
actor. -/
def Mgr.onStarted (σ : Mgr) (a : Nat) : Mgr × List MOut :=
  ({ σ with st := .running a }, .proxyStarted σ.self a :: σ.notifyManagers (.started σ.self))

/-- `on_child_stopped` for the singleton actor, `/repo/coerce/src/singleton/manager/mod.rs` 250-271. -/
def Mgr.onChildStopped (σ : Mgr) : Mgr × List MOut :=
  match σ.st with
  | .stopping _ n => ({ (σ.grantLease n).1 with st := .idle }, (σ.grantLease n).2)
  | _ => (σ, [])

/-- handlers of the messages of other managers; the last two:
`/repo/coerce/src/singleton/manager/mod.rs` 402-430. -/
def Mgr.recv (σ : Mgr) : MMsg → Mgr × List MOut
  | .request n => σ.onRequest n
  | .ack n => (σ.onAck n, [])
  | .started n => (σ, [.proxyRemote n])
  | .stopped _ => (σ, [.proxyStopping])

/-- the start task succeeds: a new instance runs, and the result is under way to the manager.
(`/repo/coerce/src/singleton/manager/start.rs` 18-31.) -/
def Mgr.boot (σ : Mgr) : Mgr :=
  { σ with
      starts := σ.starts - 1
      fresh := σ.fresh + 1
      live := σ.live ++ [σ.fresh]
      results := σ.results ++ [σ.fresh] }

/-- What can happen at one manager. `boot`, `startFails`, `started a`, `exits a`, `childStopped a` need a start under
way, a result under way, an instance that runs, or an end not yet told. `exits a child`: an instance ends; `child`
tells whether the manager will be told of it. (`/repo/coerce/src/singleton/manager/mod.rs` 232-430,
`/repo/coerce/src/singleton/manager/lease.rs` 78-105, `/repo/coerce/src/singleton/manager/start.rs` 34-69.) -/
inductive MOp where
  | memberUp (leader : Nat) (nodes : List Nat)
  | leaderChanged (n : Nat)
  | nodeAdded (n : Nat)
  | nodeRemoved (n : Nat)
  | recv (m : MMsg)
  | boot
  | startFails
  | started (a : Nat)
  | exits (a : Nat) (child : Bool)
  | childStopped (a : Nat)
deriving DecidableEq, Repr

/-- one of them (`/repo/coerce/src/singleton/manager/mod.rs` 232-430, `/repo/coerce/src/singleton/manager/lease.rs`
78-105, `/repo/coerce/src/singleton/manager/start.rs` 34-69). -/
def Mgr.step (sel : Nat → Bool) (σ : Mgr) : MOp → Mgr × List MOut
  | .memberUp l ns => σ.onMemberUp sel l ns
  | .leaderChanged n => if σ.st.isJoining then (σ, []) else σ.onLeaderChanged n
  | .nodeAdded n => σ.onNodeAdded sel n
  | .nodeRemoved n => (σ.onNodeRemoved n, [])
  | .recv m => σ.recv m
  | .boot => if σ.starts = 0 then (σ, []) else (σ.boot, [])
  | .startFails => ({ σ with starts := σ.starts - 1 }, [])
  | .started a => if a ∈ σ.results then ({ σ with results := σ.results.erase a }).onStarted a else (σ, [])
  | .exits a child =>
    if a ∈ σ.live then
      ({ σ with live := σ.live.erase a, ended := if child then σ.ended ++ [a] else σ.ended }, [])
    else (σ, [])
  | .childStopped a => if a ∈ σ.ended then ({ σ with ended := σ.ended.erase a }).onChildStopped else (σ, [])

/-- the state after it (`/repo/coerce/src/singleton/manager/mod.rs` 232-430). -/
def Mgr.next (sel : Nat → Bool) (σ : Mgr) (op : MOp) : Mgr := (σ.step sel op).1

/-- the state after any number of them (`/repo/coerce/src/singleton/manager/mod.rs` 232-430). -/
def Mgr.run (sel : Nat → Bool) (σ : Mgr) (ops : List MOp) : Mgr := ops.foldl (Mgr.next sel) σ

/-- a manager when it starts. (`/repo/coerce/src/singleton/manager/mod.rs` 41-63.) -/
def Mgr.init (n : Nat) : Mgr := { self := n }

end Verif.Singleton
