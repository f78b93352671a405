import Verif.Remote.HeartbeatModel

/-!
# A cluster of heartbeats

Every node runs its own heartbeat actor (`HeartbeatModel`). Here they are put together, with what the single
heartbeat cannot say: which nodes really run, what time it really is, and that an answer to a ping must have
been sent by a node that ran.
-/

namespace Verif.Remote.OneLeader

open Verif.Remote

/-- The surroundings: what is taken from chrono, the configuration (the same on every node), how far the clock of each
node is off, when each node says it was started, and which nodes were built with `single_node_cluster`.
(`/repo/coerce/src/remote/heartbeat/mod.rs` 43-49; `single_node_cluster`: `/repo/coerce/src/remote/system/builder.rs`
199-203.) -/
structure Conf where
  env : Chrono
  hb : HbConfig
  skew : Nat → Int
  /-- `RemoteActorSystem::started_at`, which is sent along with the identity of the node in every handshake and
  kept as it is by the nodes that hear of it (`/repo/coerce/src/remote/net/server/session/mod.rs` 458-494,
  `/repo/coerce/src/remote/cluster/node.rs` 202-217, 271-288). -/
  born : Nat → Int
  single : Nat → Bool

/-- all heartbeats, `/repo/coerce/src/remote/heartbeat/mod.rs` 31-40, the processes that run, and the time. -/
structure Clu where
  /-- the heartbeat actor and the registry of every node. -/
  hb : Nat → Hb
  /-- when the process of a node ended, if it has. -/
  ended : Nat → Option Int := fun _ => none
  /-- the true time. -/
  clock : Int := 0

/-- what can happen: time passes, nodes are registered (`/repo/coerce/src/remote/cluster/node.rs` 149-163), ping
results arrive (`/repo/coerce/src/remote/net/client/ping.rs` 29-110), ticks
(`/repo/coerce/src/remote/heartbeat/mod.rs` 204-306), and processes end. -/
inductive Op where
  /-- time passes. -/
  | pass (d : Nat)
  /-- the process of a node ends. -/
  | stop (j : Nat)
  /-- node `i` hears the answer of `j` to one of its pings: `PingResult::Ok(pong, elapsed, now)`. The answer was
  sent at `sent` and came in at `received` (true times), `latency` after the ping was written. -/
  | answer (i j : Nat) (latency : Nat) (sent received : Int)
  /-- a ping of `i` to `j` is given up after `ping_timeout`, or failed, or the client is not connected. -/
  | missed (i j : Nat) (p : Ping)
  /-- the timer of `i`. -/
  | tick (i : Nat)
  /-- `i` hears of `j`, with the start time `j` gave. -/
  | learn (i j : Nat)
  /-- `i` is told that `j` leaves. -/
  | notice (i j : Nat)

/-- an answer can only come from a node that ran when it was sent, before it came in, and after the ping.
(`/repo/coerce/src/remote/net/client/ping.rs` 76-95.) -/
def Clu.possible (c : Clu) (j latency : Nat) (sent received : Int) : Bool :=
  (match c.ended j with
    | none => true
    | some t => decide (sent ≤ t)) &&
  decide (sent ≤ received) && decide (received ≤ c.clock) && decide (received - sent ≤ latency)

/-- the clock of node `i`. (`Utc::now()` of that node, `/repo/coerce/src/remote/heartbeat/mod.rs` 228-245.) -/
def Clu.time (C : Conf) (c : Clu) (i : Nat) : Int := c.clock + C.skew i

/-- one node's heartbeat has changed (`/repo/coerce/src/remote/heartbeat/mod.rs` 31-40). -/
def Clu.put (c : Clu) (i : Nat) (σ : Hb) : Clu := { c with hb := fun k => if k = i then σ else c.hb k }

/-- one heartbeat actor handles a message, if the process runs. (`/repo/coerce/src/remote/heartbeat/mod.rs` 177-306.)
-/
def Clu.act (C : Conf) (c : Clu) (i : Nat) (op : HbOp) : Clu :=
  if (c.ended i).isSome then c else c.put i ((c.hb i).step C.env C.hb i op)

/-- One step of the cluster. Results of pings: `Handler<PingTick>`,
`/repo/coerce/src/remote/net/client/ping.rs` 29-110 (lines 36-56: not connected; 78-104: the result of a ping,
with the clock of the node for the time of the answer, is handed to the heartbeat, whatever other pings have
done meanwhile); the timer: `Handler<SetRemote>`, `/repo/coerce/src/remote/heartbeat/mod.rs` 88-121. A tick
takes no time. -/
def Clu.step (C : Conf) (c : Clu) : Op → Clu
  | .pass d => { c with clock := c.clock + d }
  | .stop j => if (c.ended j).isSome then c
      else { c with ended := fun k => if k = j then some c.clock else c.ended k }
  | .answer i j latency sent received =>
    if c.possible j latency sent received then c.act C i (.ping j (.ok latency (received + C.skew i))) else c
  | .missed i j p =>
    match p with
    | .ok _ _ => c
    | p => c.act C i (.ping j p)
  | .tick i => c.act C i (.tick fun _ => c.time C i)
  | .learn i j => c.act C i (.learn j (some (C.born j)))
  | .notice i j => c.act C i (.nodeTerminated j fun _ => c.time C i)

/-- before anything has happened, `/repo/coerce/src/remote/system/builder.rs` 199-203. -/
def Clu.init (C : Conf) : Clu := { hb := fun i => Hb.init i (C.single i) }

/-- a history from a given state (`/repo/coerce/src/remote/heartbeat/mod.rs` 177-306). -/
def runFrom (C : Conf) (c : Clu) (ops : List Op) : Clu := ops.foldl (Clu.step C) c

/-- a history from the beginning (`/repo/coerce/src/remote/heartbeat/mod.rs` 177-306). -/
def run (C : Conf) (ops : List Op) : Clu := runFrom C (Clu.init C) ops

/-- the leader as node `i` has it. (`/repo/coerce/src/remote/system/cluster.rs` 41-48.) -/
def Clu.leader (c : Clu) (i : Nat) : Option Nat := leaderOf (c.hb i).cell

end Verif.Remote.OneLeader
