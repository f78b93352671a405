import Verif.Remote.RpcModel
import Verif.Remote.HeartbeatModel

/-!
# The pings of one connection and what they report

`Handler<PingTick>` of `RemoteClient` (`/repo/coerce/src/remote/net/client/ping.rs`), the table of requests it uses,
and the task that waits for each answer.
-/

namespace Verif.Remote
open Verif.Proto Verif.Proto.Network

/-- A `NodePing` sent to the heartbeat. `id`: the ping it is about (not part of the message); `time`: when it was
sent. (`/repo/coerce/src/remote/net/client/ping.rs` 97-103.) -/
structure Report where
  id : Option Nat
  res : Ping
  time : Nat
deriving DecidableEq, Repr

/-- One client. Message ids are drawn from a counter: `Uuid::new_v4` never repeats. One clock stands for both
`Instant::now()` and `Utc::now()`. `tasks`: the tasks spawned at `/repo/coerce/src/remote/net/client/ping.rs` 79, with
the id and the start of their ping. `heartbeat.notify` puts the reports into one mailbox, in the order of `reports`.
-/
structure Pinger where
  now : Nat := 0
  next : Nat := 0
  rpc : Rpc Nat Unit := Rpc.init
  tasks : List (Nat × Nat) := []
  reports : List Report := []
deriving Repr

/-- what can happen: the ticks of the timer (`/repo/coerce/src/remote/net/client/ping.rs` 29-110), answers
(`/repo/coerce/src/remote/net/client/receive.rs` 109-154), and time. -/
inductive PingOp where
  /-- time passes. -/
  | wait (d : Nat)
  /-- `PingTick` while connected; `writeOk`: the ping could be written. -/
  | tick (writeOk : Bool)
  /-- `PingTick` while not connected; `known`: the client has once been identified. -/
  | tickDown (known : Bool)
  /-- the receive loop takes request `u` from the table and sends it an answer,
  `/repo/coerce/src/remote/net/client/receive.rs` 109-154 (`Rpc.onClientEvent`). -/
  | answer (u : Nat) (a : Answer)
  /-- the task waiting for ping `u` is run. -/
  | poll (u : Nat)

/-- the answer sent to request `u`, if any. (`/repo/coerce/src/remote/system/rpc.rs` 193-201.) -/
def Rpc.got (σ : Rpc Nat Unit) (u : Nat) : Option Answer :=
  (σ.done.find? fun p => p.1 == u).map (·.2.2)

/-- the ping is over, with this result or, if the task panicked, without one.
(`/repo/coerce/src/remote/net/client/ping.rs` 81-103.) -/
def Pinger.finish (σ : Pinger) (u s : Nat) (r : Option Ping) : Pinger :=
  { σ with tasks := σ.tasks.erase (u, s)
           reports := σ.reports ++ r.toList.map fun p => ⟨some u, p, σ.now⟩ }

/-- the result of an answer, `/repo/coerce/src/remote/net/client/ping.rs` 82-93; `none`: `unwrap` at 85 panics. -/
def pingResult (s now : Nat) : Answer → Option Ping
  | .ok bs => (PongEvent.read bs).map fun _ => .ok (now - s) now
  | .err _ => some .err
  | .closed => some .err

/-- the spawned task, `/repo/coerce/src/remote/net/client/ping.rs` 79-104. `tokio::time::timeout` looks at the answer
before it looks at the time. -/
def Pinger.pollTask (limit : Nat) (σ : Pinger) (u s : Nat) : Pinger :=
  match σ.rpc.got u with
  | some a => σ.finish u s (pingResult s σ.now a)
  | none => if s + limit ≤ σ.now then σ.finish u s (some .timeout) else σ

/-- `Handler<PingTick>`, connected, `/repo/coerce/src/remote/net/client/ping.rs` 65-108. If the ping cannot be written
its entry stays in the table. -/
def Pinger.tick (σ : Pinger) (writeOk : Bool) : Pinger :=
  { σ with next := σ.next + 1, rpc := σ.rpc.push σ.next (),
           tasks := if writeOk then σ.tasks ++ [(σ.next, σ.now)] else σ.tasks }

/-- `Handler<PingTick>`, not connected, `/repo/coerce/src/remote/net/client/ping.rs` 39-55. -/
def Pinger.tickDown (σ : Pinger) (known : Bool) : Pinger :=
  { σ with reports := σ.reports ++ if known then [⟨none, .disconnected, σ.now⟩] else [] }

/-- `limit` is `ping_timeout`. (`/repo/coerce/src/remote/net/client/ping.rs` 29-110.) -/
def Pinger.step (limit : Nat) (σ : Pinger) : PingOp → Pinger
  | .wait d => { σ with now := σ.now + d }
  | .tick w => σ.tick w
  | .tickDown k => σ.tickDown k
  | .answer u a => { σ with rpc := σ.rpc.answer u a }
  | .poll u =>
    match σ.tasks.find? (fun t => t.1 == u) with
    | none => σ
    | some t => σ.pollTask limit u t.2

/-- any sequence of steps (`/repo/coerce/src/remote/net/client/ping.rs` 29-110). -/
def Pinger.run (limit : Nat) (ops : List PingOp) : Pinger := ops.foldl (Pinger.step limit) {}

/-- what the heartbeat has in `node_pings` for the node: the last report
(`/repo/coerce/src/remote/heartbeat/mod.rs` 177-181). -/
def Pinger.heard (σ : Pinger) : Option Ping := σ.reports.getLast?.map (·.res)

end Verif.Remote
