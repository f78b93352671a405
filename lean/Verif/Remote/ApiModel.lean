import Verif.Remote.HealthModel
import Verif.Remote.HeartbeatModel
import Verif.Actor.DescribeModel
import Verif.Sort

/-!
# What the HTTP interface of a node shows

`/repo/coerce/src/remote/api`: the nodes of the cluster, the health of the node, the actors and the sharded entity
types. The statistics of sharding are C85. HTTP itself (`axum`), the JSON text of a reply and the version fields, which
are constants, are not modelled. Requests are handled by many tasks at once: a request is a sequence of steps, between
which anything else may happen.
-/

namespace Verif.Remote.Api

/-- `RemoteNodeState`, `/repo/coerce/src/remote/cluster/node.rs` 41-51: durations in nanoseconds, times as numbers. -/
structure NodeFacts where
  id : Nat
  addr : String
  tag : String
  ping : Option Nat := none
  heartbeat : Option Int := none
  started : Option Int := none
  status : NodeStatus := .joining
  attributes : Assoc String String := []
deriving DecidableEq, Repr

/-- `NodeStatus` of the interface, `/repo/coerce/src/remote/api/cluster/mod.rs` 49-55. -/
inductive Shown where
  | joining
  | healthy
  | unhealthy
  | terminated
deriving DecidableEq, Repr

/-- `From<NodeStatus>`, `/repo/coerce/src/remote/api/cluster/mod.rs` 57-66. -/
def showStatus : NodeStatus → Shown
  | .joining => .joining
  | .healthy => .healthy
  | .unhealthy => .unhealthy
  | .terminated => .terminated

/-- `ClusterNode`, `/repo/coerce/src/remote/api/cluster/mod.rs` 29-39. -/
structure ClusterNode where
  id : Nat
  addr : String
  tag : String
  ping : Option Nat
  heartbeat : Option String
  started : Option Int
  status : Shown
  attributes : Assoc String String
deriving DecidableEq, Repr

/-- `From<RemoteNodeState> for ClusterNode`, `/repo/coerce/src/remote/api/cluster/mod.rs` 106-123; `fmt` is how `chrono`
writes a time (`{:?}`). -/
def showNode (fmt : Int → String) (n : NodeFacts) : ClusterNode where
  id := n.id
  addr := n.addr
  tag := n.tag
  ping := n.ping
  heartbeat := n.heartbeat.map fmt
  started := n.started
  status := showStatus n.status
  attributes := n.attributes.foldl (fun m p => m.insert p.1 p.2) []

/-- `ClusterNodes`, `/repo/coerce/src/remote/api/cluster/mod.rs` 41-47. -/
structure ClusterNodes where
  node : Nat
  leader : Option Nat
  leaderTag : Option String
  nodes : List ClusterNode
deriving DecidableEq, Repr

/-- `get_nodes` once the directory has answered, `/repo/coerce/src/remote/api/cluster/mod.rs` 79-103. -/
def clusterNodes (fmt : Int → String) (me : Nat) (tag : String) (leader : Option Nat) (all : List NodeFacts) :
    ClusterNodes :=
  let nodes := isort (fun a b => decide (a.id ≤ b.id)) (all.map (showNode fmt))
  { node := me
    leader := leader
    leaderTag := if leader = some me then some tag else (nodes.find? fun n => decide (some n.id = leader)).map (·.tag)
    nodes := nodes }

/-- `SystemHealth`, `/repo/coerce/src/remote/api/system/mod.rs` 76-87 (conversion 100-124, field by field), without the
versions and the start time, which do not change. -/
structure HealthView where
  status : Health
  node : Nat
  tag : String
  times : Assoc String (Option Nat)
  leader : Option Nat
  nodes : List ClusterNode
deriving DecidableEq, Repr

/-- the path under which a check is reported, `/repo/coerce/src/remote/heartbeat/health.rs` 65-66. -/
def checkPath (a : HcActor) : String := a.path ++ "/" ++ a.id

/-- the reply to `GetHealth`, `/repo/coerce/src/remote/heartbeat/health.rs` 75-105, and its conversion,
`/repo/coerce/src/remote/api/system/mod.rs` 100-114: `checks` are the results in the order of registration, later
entries of the map replace earlier ones. -/
def healthView (fmt : Int → String) (me : Nat) (tag : String) (checks : List (HcActor × Option Nat))
    (nodes : List NodeFacts) (leader : Option Nat) : HealthView where
  status :=
    let (errors, slow) := checkLoop (checks.map (·.2)) false
    if errors then .unhealthy else if slow then .degraded else .healthy
  node := me
  tag := tag
  times := checks.foldl (fun m c => m.insert (checkPath c.1) c.2) []
  leader := leader
  nodes := nodes.map (showNode fmt)

/-- how far a request for the health has come: `/repo/coerce/src/remote/heartbeat/health.rs` 57-105. -/
inductive Stage where
  /-- the actors to be asked have been copied (57), they are being asked (60-73). -/
  | probing (actors : List HcActor)
  /-- all have answered; the directory is being asked (103). -/
  | nodes (checks : List (HcActor × Option Nat))
  /-- the directory has answered; the leader has not been read (104). -/
  | leader (checks : List (HcActor × Option Nat)) (nodes : List NodeFacts)
deriving DecidableEq, Repr

/-- a node, as far as it is shown: the atomic `current_leader` (`/repo/coerce/src/remote/system/mod.rs` 47), the nodes of
the directory (`/repo/coerce/src/remote/cluster/node.rs` 16-19) and whether its actor runs, the registered health checks
(`/repo/coerce/src/remote/heartbeat/health.rs` 110-134), and the requests under way: of those for the nodes the leader
read at first (`/repo/coerce/src/remote/api/cluster/mod.rs` 78), by number; of those for the health the stage. -/
structure Sys where
  me : Nat
  tag : String
  cell : Int := -1
  dir : Assoc Nat NodeFacts := []
  up : Bool := true
  checks : List HcActor := []
  asked : Nat := 0
  asking : Assoc Nat (Option Nat) := []
  healthAsked : Nat := 0
  healthAsking : Assoc Nat Stage := []
deriving DecidableEq, Repr

/-- `current_leader`, `/repo/coerce/src/remote/system/cluster.rs` 41-48. -/
def Sys.leader (σ : Sys) : Option Nat := if 0 ≤ σ.cell then some σ.cell.toNat else none

/-- what happens: changes by the rest of the node (`/repo/coerce/src/remote/system/cluster.rs` 50-60,
`/repo/coerce/src/remote/cluster/node.rs` 113-163, `/repo/coerce/src/remote/heartbeat/health.rs` 111-134) and the steps
of requests (`/repo/coerce/src/remote/api/cluster/mod.rs` 76-104, `/repo/coerce/src/remote/heartbeat/health.rs`
54-106). -/
inductive Op where
  /-- `update_leader`. -/
  | elect (n : Nat)
  /-- `RegisterNode`: a node becomes known, its measurements are forgotten. -/
  | join (n : NodeFacts)
  /-- `UpdateNodes`, for one node. -/
  | update (n : NodeFacts)
  /-- `NodeTerminated`. -/
  | terminated (id : Nat)
  /-- the actor of the directory ends. -/
  | down
  | register (a : HcActor)
  | unregister (id : String)
  /-- a request for `/cluster/nodes` reads the leader and asks the directory. -/
  | ask
  /-- the directory answers request `r`. -/
  | answer (r : Nat)
  /-- `GetHealth` is handled. -/
  | askHealth
  /-- the last of the actors asked for request `r` has answered; the results in order. -/
  | probed (r : Nat) (results : List (Option Nat))
  /-- the directory answers request `r` for the health. -/
  | healthNodes (r : Nat)
  /-- request `r` for the health reads the leader and replies. -/
  | reply (r : Nat)
deriving DecidableEq, Repr

/-- what a step gives to somebody outside: a reply of `/repo/coerce/src/remote/api/cluster/mod.rs` 98-103 or
`/repo/coerce/src/remote/api/system/mod.rs` 96-98, or a panic of the task that handles the request (`unwrap`,
`/repo/coerce/src/remote/system/cluster.rs` 22, `/repo/coerce/src/remote/heartbeat/mod.rs` 83). -/
inductive Out where
  | nothing
  | nodes (r : Nat) (a : ClusterNodes)
  | health (r : Nat) (h : HealthView)
  | panicked (r : Nat)
deriving DecidableEq, Repr

/-- one step: `/repo/coerce/src/remote/system/cluster.rs` 41-60, `/repo/coerce/src/remote/cluster/node.rs` 113-168,
`/repo/coerce/src/remote/heartbeat/health.rs` 54-134, `/repo/coerce/src/remote/api/cluster/mod.rs` 76-104. The directory
handles nothing once it has ended; a question to it then fails. -/
def Sys.step (fmt : Int → String) (σ : Sys) : Op → Sys × Out
  | .elect n => ({ σ with cell := asI64 n }, .nothing)
  | .join n =>
    if σ.up then
      ({ σ with dir := σ.dir.insert n.id { n with ping := none, heartbeat := none, status := .joining } }, .nothing)
    else (σ, .nothing)
  | .update n => if σ.up then ({ σ with dir := σ.dir.insert n.id n }, .nothing) else (σ, .nothing)
  | .terminated id =>
    if σ.up then ({ σ with dir := σ.dir.update id fun n => { n with status := .terminated } }, .nothing)
    else (σ, .nothing)
  | .down => ({ σ with up := false }, .nothing)
  | .register a => ({ σ with checks := hcStep σ.checks (.register a) }, .nothing)
  | .unregister id => ({ σ with checks := hcStep σ.checks (.remove id) }, .nothing)
  | .ask => ({ σ with asked := σ.asked + 1, asking := σ.asking.insert σ.asked σ.leader }, .nothing)
  | .answer r =>
    match σ.asking.get r with
    | none => (σ, .nothing)
    | some l =>
      if σ.up then
        ({ σ with asking := σ.asking.erase r }, .nodes r (clusterNodes fmt σ.me σ.tag l σ.dir.vals))
      else ({ σ with asking := σ.asking.erase r }, .panicked r)
  | .askHealth =>
    ({ σ with healthAsked := σ.healthAsked + 1,
              healthAsking := σ.healthAsking.insert σ.healthAsked (.probing σ.checks) }, .nothing)
  | .probed r results =>
    match σ.healthAsking.get r with
    | some (.probing actors) =>
      if results.length = actors.length then
        ({ σ with healthAsking := σ.healthAsking.insert r (.nodes (actors.zip results)) }, .nothing)
      else (σ, .nothing)
    | _ => (σ, .nothing)
  | .healthNodes r =>
    match σ.healthAsking.get r with
    | some (.nodes checks) =>
      if σ.up then ({ σ with healthAsking := σ.healthAsking.insert r (.leader checks σ.dir.vals) }, .nothing)
      else ({ σ with healthAsking := σ.healthAsking.erase r }, .panicked r)
    | _ => (σ, .nothing)
  | .reply r =>
    match σ.healthAsking.get r with
    | some (.leader checks nodes) =>
      ({ σ with healthAsking := σ.healthAsking.erase r },
       .health r (healthView fmt σ.me σ.tag checks nodes σ.leader))
    | _ => (σ, .nothing)

/-- any sequence of steps of a node with id `me` and tag `tag`, as started by
`/repo/coerce/src/remote/system/builder.rs` 199-203 (`single`: a cluster of one node, which leads from the start). -/
def run (fmt : Int → String) (me : Nat) (tag : String) (single : Bool) (ops : List Op) : Sys :=
  ops.foldl (fun σ o => (σ.step fmt o).1) { me := me, tag := tag, cell := if single then asI64 me else -1 }

/-! ## Actors -/

/-- `ActorTags`, `/repo/coerce/src/actor/mod.rs` 521-525, and `/repo/coerce/src/remote/api/system/actors.rs` 36-41. -/
inductive Tags where
  | none
  | tag (t : String)
  | tags (ts : List String)
deriving DecidableEq, Repr

/-- what is known of an actor by its reference (`/repo/coerce/src/actor/refs/mod.rs` 182-197: id, path of its parent,
type) and by its context (`/repo/coerce/src/actor/context.rs` 31-45: number, tags). -/
structure Facts where
  id : String
  path : String
  type : String
  ctx : Nat
  tags : Tags
deriving DecidableEq, Repr

/-- `DescribeResult`, `ActorDescription` and `SupervisedDescription`, `/repo/coerce/src/actor/describe/mod.rs` 43-57 and
65-83; the time taken is left out. -/
inductive Result where
  | ok (id path type : String) (ctx : Nat) (tags : Tags) (supervised : Option (List Result))
  | err (error id path type : String)
  | timeout (id path type : String)

/-- `Status`, `/repo/coerce/src/remote/api/system/actors.rs` 29-34. -/
inductive Status where
  | ok
  | err (error : String)
  | timeout
deriving DecidableEq, Repr

/-- `ActorDescription` and `SupervisedDescription` of the interface, `/repo/coerce/src/remote/api/system/actors.rs`
43-58. -/
inductive ActorView where
  | mk (id path type : String) (status : Status) (ctx : Option Nat) (tags : Option Tags)
      (supervised : Option (List ActorView))

open Verif.Actor.Describe in
mutual
/-- what a description (C71, where actors are numbers) says of each actor: `/repo/coerce/src/actor/describe/mod.rs`
89-97 (the context's own `full_path`, `/repo/coerce/src/actor/context.rs` 61-62) and 265-283. The error of an actor
whose reply channel is closed is `ResultChannelClosed` (187), else the one of `notify` (195); `error` gives the text. -/
def result (who : Nat → Facts) (error : Bool → String) : Desc → Result
  | .ok i none =>
    .ok (who i).id ((who i).path ++ "/" ++ (who i).id) (who i).type (who i).ctx (who i).tags none
  | .ok i (some ds) =>
    .ok (who i).id ((who i).path ++ "/" ++ (who i).id) (who i).type (who i).ctx (who i).tags
      (some (results who error ds))
  | .err i e => .err (error e) (who i).id (who i).path (who i).type
  | .timeout i => .timeout (who i).id (who i).path (who i).type
/-- the same for a list, `/repo/coerce/src/actor/describe/mod.rs` 159-200. -/
def results (who : Nat → Facts) (error : Bool → String) : List Desc → List Result
  | [] => []
  | d :: ds => result who error d :: results who error ds
end

mutual
/-- `From<DescribeResult> for ActorDescription`, `/repo/coerce/src/remote/api/system/actors.rs` 119-159, with
`Default`, 60-73. -/
def view : Result → ActorView
  | .ok id path type ctx tags none => .mk id path type .ok (some ctx) (some tags) none
  | .ok id path type ctx tags (some rs) => .mk id path type .ok (some ctx) (some tags) (some (views rs))
  | .err error id path type => .mk id (path ++ "/" ++ id) type (.err error) none none none
  | .timeout id path type => .mk id (path ++ "/" ++ id) type .timeout none none none
/-- `From<SupervisedDescription>`, `/repo/coerce/src/remote/api/system/actors.rs` 161-167, and the list of the reply,
103-105. -/
def views : List Result → List ActorView
  | [] => []
  | r :: rs => view r :: views rs
end

/-- the query of `/actors/all`, `/repo/coerce/src/remote/api/system/actors.rs` 10-22: `attached` is `none` if the query
does not say. -/
structure Query where
  maxDepth : Option Nat := none
  maxChildren : Option Nat := none
  timeout : Option Nat := none
  attached : Option Bool := none
deriving DecidableEq, Repr

/-- `From<GetAll> for DescribeOptions`, `/repo/coerce/src/remote/api/system/actors.rs` 108-117, with the default of
16-22. -/
def Query.options (q : Query) : Actor.Describe.Options where
  maxDepth := q.maxDepth
  maxChildren := q.maxChildren
  childDescribeTimeout := q.timeout
  childDescribeAttached := q.attached.getD true

/-- `get_all`, `/repo/coerce/src/remote/api/system/actors.rs` 86-106: nothing (a panic, 102) if the scheduler does not
run, else what the scheduler says of its actors and itself. -/
def getAll (who : Nat → Facts) (error : Bool → String) (running tie : Bool) (q : Query)
    (actors : List Actor.Describe.Tree) (scheduler : Actor.Describe.Tree) : Option (List ActorView) :=
  if running then some (views (results who error (Actor.Describe.describeAll q.options tie actors scheduler).2))
  else none

/-! ## Sharded entity types -/

/-- `ShardingApi::attach`, `/repo/coerce/src/remote/api/sharding/mod.rs` 15-29, any number of times: entity types and
the hosts (numbers) attached for them. -/
def attach (sharding : List (String × Nat)) : Assoc String Nat :=
  sharding.foldl (fun m p => m.insert p.1 p.2) []

/-- `Handler<GetShardTypes>`, `/repo/coerce/src/remote/api/sharding/mod.rs` 45-51. -/
def shardTypes (hosts : Assoc String Nat) : List String := hosts.keys

/-- the host asked for the statistics of a type: `/repo/coerce/src/remote/api/sharding/cluster.rs` 91-96 and 124-130,
`/repo/coerce/src/remote/api/sharding/node.rs` 46; `none` gives `null` (`/repo/coerce/src/remote/api/sharding/cluster.rs`
227 and 242). -/
def hostAsked (hosts : Assoc String Nat) (type : String) : Option Nat := hosts.get type

/-- the loop of `Handler<GetAllStats>`, `/repo/coerce/src/remote/api/sharding/node.rs` 82-105, from a map `m`: what each
host that answers says it holds (`none`: it does not answer), as the number of its shards. -/
def allStatsFrom (hosts : Assoc String Nat) (ask : Nat → Option Nat) (m : Assoc String Nat) : Assoc String Nat :=
  hosts.foldl (fun m p => match ask p.2 with | some k => m.insert p.1 k | none => m) m

/-- `Handler<GetAllStats>`, `/repo/coerce/src/remote/api/sharding/node.rs` 75-109. -/
def allStats (hosts : Assoc String Nat) (ask : Nat → Option Nat) : Assoc String Nat := allStatsFrom hosts ask []

end Verif.Remote.Api
