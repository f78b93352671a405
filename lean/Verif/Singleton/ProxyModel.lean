import Verif.Singleton.ManagerModel

/-!
# The singleton proxy

`/repo/coerce/src/singleton/proxy/` and `Singleton::send`, `Singleton::notify`,
`/repo/coerce/src/singleton/mod.rs` 87-106. `deliver` hands a message to a task of its own
(`tokio::spawn`), which sends it to the singleton; such tasks run in any order. A panic in a handler ends
the proxy actor. Messages and references to instances are numbered.
-/

namespace Verif.Singleton

/-- `Deliver`, `/repo/coerce/src/singleton/proxy/send.rs` 8-20: with a result channel if it comes from
`send`, without one if it comes from `notify`. -/
structure PMsg where
  id : Nat
  channel : Bool
deriving DecidableEq, Repr

/-- `ProxyState`, `/repo/coerce/src/singleton/proxy/mod.rs` 9-17; `dead`: the handler has panicked. -/
inductive PState where
  | buffered (q : List PMsg)
  | active (r : Nat)
  | dead
deriving DecidableEq, Repr

/-- The proxy; `spawned`: all the messages handed to tasks, with the instance they go to, in that order; `tasks`:
those whose task has still to run; `arrived`: what the instances received, in that order.
(`/repo/coerce/src/singleton/proxy/mod.rs` 9-30.) -/
structure Proxy where
  st : PState := .buffered []
  spawned : List (Nat × Nat) := []
  tasks : List (Nat × Nat) := []
  arrived : List (Nat × Nat) := []
deriving DecidableEq, Repr

/-- `deliver`, `/repo/coerce/src/singleton/proxy/send.rs` 23-35: `result_channel.take().unwrap()` panics if
there is no channel; `none` is that panic. -/
def Proxy.deliver (p : Proxy) (r : Nat) (m : PMsg) : Option Proxy :=
  if m.channel then some { p with spawned := p.spawned ++ [(r, m.id)], tasks := p.tasks ++ [(r, m.id)] } else none

/-- the loop over the queue, `/repo/coerce/src/singleton/proxy/mod.rs` 75-78. A panic loses the rest of
the queue. -/
def Proxy.flush (p : Proxy) (r : Nat) : List PMsg → Proxy
  | [] => { p with st := .active r }
  | m :: q => match p.deliver r m with
    | some p' => p'.flush r q
    | none => { p with st := .dead }

/-- `Handler<SingletonStarted>`, `/repo/coerce/src/singleton/proxy/mod.rs` 62-90. -/
def Proxy.onStarted (p : Proxy) (r : Nat) : Proxy :=
  match p.st with
  | .buffered q => p.flush r q
  | .active _ => { p with st := .active r }
  | .dead => p

/-- `Handler<SingletonStopping>`, `/repo/coerce/src/singleton/proxy/mod.rs` 92-103. -/
def Proxy.onStopping (p : Proxy) : Proxy :=
  match p.st with
  | .active _ => { p with st := .buffered [] }
  | _ => p

/-- `Handler<Deliver>`, `/repo/coerce/src/singleton/proxy/send.rs` 55-77. A dead proxy gets nothing:
`notify` on its reference fails. -/
def Proxy.onDeliver (p : Proxy) (m : PMsg) : Proxy :=
  match p.st with
  | .buffered q => { p with st := .buffered (q ++ [m]) }
  | .active r => match p.deliver r m with
    | some p' => p'
    | none => { p with st := .dead }
  | .dead => p

/-- what can happen: the proxy handles a message, or the `i`-th waiting task sends its message.
(`/repo/coerce/src/singleton/proxy/mod.rs` 62-103, `/repo/coerce/src/singleton/proxy/send.rs` 55-77.) -/
inductive POp where
  | deliver (m : PMsg)
  | started (r : Nat)
  | stopping
  | task (i : Nat)
deriving DecidableEq, Repr

/-- a task sends its message, `/repo/coerce/src/singleton/proxy/send.rs` 29-34. -/
def Proxy.runTask (p : Proxy) (i : Nat) : Proxy :=
  match p.tasks[i]? with
  | some t => { p with tasks := p.tasks.eraseIdx i, arrived := p.arrived ++ [t] }
  | none => p

/-- one of them (`/repo/coerce/src/singleton/proxy/mod.rs` 62-103, `/repo/coerce/src/singleton/proxy/send.rs` 55-77).
-/
def Proxy.next (p : Proxy) : POp → Proxy
  | .deliver m => p.onDeliver m
  | .started r => p.onStarted r
  | .stopping => p.onStopping
  | .task i => p.runTask i

/-- any number of them (`/repo/coerce/src/singleton/proxy/mod.rs` 62-103, `/repo/coerce/src/singleton/proxy/send.rs`
55-77). -/
def Proxy.run (p : Proxy) (ops : List POp) : Proxy := ops.foldl Proxy.next p

end Verif.Singleton
