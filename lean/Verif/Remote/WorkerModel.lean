/-!
# Starting a worker and joining through a seed

`/repo/coerce/src/remote/cluster/builder/worker.rs`. Name resolution (`lookup_host`) and the discovery actor's answer are
parameters; binding the server's socket is assumed to succeed (it panics otherwise, 82-85).
-/

namespace Verif.Remote

/-- `ClusterWorkerBuilder`, `/repo/coerce/src/remote/cluster/builder/worker.rs` 12-17. -/
structure WorkerCfg where
  listen : String
  external : Option String := none
  seed : Option String := none
deriving DecidableEq, Repr

/-- what is done, in order. (`/repo/coerce/src/remote/cluster/builder/worker.rs` 49-151.) -/
inductive WEvent where
  | register (addr : String)
  | serve (listen addr : String)
  | resolve (attempt : Nat)
  | sleep
  | discover (seed : String)
  | gaveUp
  | answered (found : Bool)
  | panicked
deriving DecidableEq, Repr

/-- `cluster_node_addr`, `/repo/coerce/src/remote/cluster/builder/worker.rs` 99-103. -/
def WorkerCfg.nodeAddr (w : WorkerCfg) : String := w.external.getD w.listen

/-- the resolve loop of `discover_peers`, `/repo/coerce/src/remote/cluster/builder/worker.rs` 113-135. `resolves k`: whether
the `k`-th attempt succeeds. Returns what was done and whether the name resolved. -/
def resolveLoop (resolves : Nat → Bool) (attempts : Nat) : List WEvent × Bool :=
  if attempts ≥ 12 then ([.gaveUp], false)
  else if resolves attempts then ([.resolve attempts], true)
  else
    let r := resolveLoop resolves (attempts + 1)
    (.resolve attempts :: .sleep :: r.1, r.2)
termination_by 12 - attempts

/-- `discover_peers`, `/repo/coerce/src/remote/cluster/builder/worker.rs` 106-151. `answer`: what comes through the completion
channel, `none` when its sender is dropped. -/
def discoverPeersOf (resolves : Nat → Bool) (answer : Option Bool) (seed : String) : List WEvent :=
  let r := resolveLoop resolves 1
  if r.2 then
    r.1 ++ [.discover seed] ++ (match answer with | some b => [.answered b] | none => [.panicked])
  else r.1

/-- `ClusterWorkerBuilder::start`, `/repo/coerce/src/remote/cluster/builder/worker.rs` 49-97. The seed is taken out of the
builder (87) before it is compared with the node's own address (91), so nothing is left to compare. -/
def WorkerCfg.start (resolves : Nat → Bool) (answer : Option Bool) (w : WorkerCfg) : List WEvent :=
  let base := [WEvent.register w.nodeAddr, .serve w.listen w.nodeAddr]
  match w.seed with
  | none => base
  | some seed =>
    let taken : WorkerCfg := { w with seed := none }
    if taken.seed ≠ some w.nodeAddr then base ++ discoverPeersOf resolves answer seed else base

/-- what the caller of `start` gets: the server, or a panic. (`/repo/coerce/src/remote/cluster/builder/worker.rs` 96
and 146-148.) -/
def startReturns (es : List WEvent) : Bool := !es.contains .panicked

end Verif.Remote
