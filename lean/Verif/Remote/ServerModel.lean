import Verif.Remote.AuthModel
import Verif.Util

/-!
# The listening side of a node: accept loop, session store, sessions

Who waits for whom when connections are accepted, refused and closed.
-/

namespace Verif.Remote

/-- `server_loop`, `/repo/coerce/src/remote/net/server/mod.rs` 111-149: it accepts a connection, sends
`NewSession` to the store and waits for the answer before it accepts again. -/
inductive AcceptSt where
  | free
  | waiting (sid : Nat)
deriving DecidableEq, Repr

/-- `RemoteSessionStore`, `/repo/coerce/src/remote/net/server/session/store.rs` 9-73: an actor, so one
message at a time. `starting`: in the handler of `NewSession`, waiting in `ctx.spawn(..).await` for the
session's `on_start` signal. `dead`: its handler panicked. -/
inductive StoreSt where
  | idle
  | starting (sid : Nat)
  | dead
deriving DecidableEq, Repr

/-- `NewSession` and `SessionClosed`, `/repo/coerce/src/remote/net/server/session/store.rs` 23-27. -/
inductive StoreMsg where
  | newSession (sid : Nat)
  | closed (sid : Nat)
deriving DecidableEq, Repr

/-- A session actor. `validating`: in `started`, waiting for the first frame. `closing`: in `stopped`, waiting for the
store to answer `SessionClosed`. (`/repo/coerce/src/remote/net/server/session/mod.rs` 73-144.) -/
inductive SessSt where
  | none | validating | running | closing | gone
deriving DecidableEq, Repr

/-- the accept loop, the store (`/repo/coerce/src/remote/net/server/session/store.rs` 9-11) and the sessions. -/
structure Server where
  accept : AcceptSt
  store : StoreSt
  /-- the mailbox of the store. -/
  inbox : List StoreMsg
  sess : Nat → SessSt
  /-- `session_count`. -/
  count : Nat
  /-- ghost: the connections that became sessions. -/
  established : List Nat

/-- after `RemoteServer::start`, `/repo/coerce/src/remote/net/server/mod.rs` 58-85. -/
def Server.init : Server := ⟨.free, .idle, [], fun _ => .none, 0, []⟩

/-- what can happen: `/repo/coerce/src/remote/net/server/mod.rs` 96-149,
`/repo/coerce/src/remote/net/server/session/store.rs` 42-73, `/repo/coerce/src/remote/net/server/session/mod.rs`
73-144. -/
inductive ServerOp where
  /-- a connection is waiting at the listener and the accept loop looks. -/
  | connect
  /-- the store takes the next message from its mailbox. -/
  | storeStep
  /-- the first frame (or the end) of the connection of a session in `started`, with the verdict of
  `validate_session_token` (`AuthModel.lean`, `gate`). -/
  | firstFrame (sid : Nat) (v : Verdict)
  /-- the connection of a running session ends (or the session is stopped). -/
  | sessionEnds (sid : Nat)
deriving DecidableEq, Repr

/-- a session goes on (`/repo/coerce/src/remote/net/server/session/mod.rs` 73-144). -/
def setSess (f : Nat → SessSt) (sid : Nat) (s : SessSt) : Nat → SessSt :=
  fun x => if x = sid then s else f x

/-- `RemoteSession::stopped`, `/repo/coerce/src/remote/net/server/session/mod.rs` 133-144: send
`SessionClosed` to the store and wait for the answer; if the store is dead the send fails at once. -/
def Server.closeSession (σ : Server) (sid : Nat) : Server :=
  match σ.store with
  | .dead => { σ with sess := setSess σ.sess sid .gone }
  | _ => { σ with sess := setSess σ.sess sid .closing, inbox := σ.inbox ++ [.closed sid] }

/-- one of the operations (`/repo/coerce/src/remote/net/server/mod.rs` 96-149,
`/repo/coerce/src/remote/net/server/session/store.rs` 42-73). -/
def Server.step (σ : Server) : ServerOp → Server
  | .connect => match σ.accept with
    | .waiting _ => σ
    | .free => match σ.store with
      -- `session_store.send` fails: logged, the connection is dropped
      | .dead => { σ with count := σ.count + 1 }
      | _ => { σ with accept := .waiting (σ.count + 1), count := σ.count + 1,
                      inbox := σ.inbox ++ [.newSession (σ.count + 1)] }
  | .storeStep => match σ.store, σ.inbox with
    | .idle, .newSession sid :: r =>
      { σ with store := .starting sid, inbox := r, sess := setSess σ.sess sid .validating }
    | .idle, .closed sid :: r => { σ with inbox := r, sess := setSess σ.sess sid .gone }
    | _, _ => σ
  | .firstFrame sid v =>
    if σ.sess sid = .validating then
      match v with
      -- `started` ends, `on_start` is signalled, the store answers the accept loop
      | .yes => { σ with sess := setSess σ.sess sid .running, store := .idle, accept := .free,
                         established := σ.established ++ [sid] }
      -- `ctx.stop(None)`; `ActorLoop::run` calls `stopped` before `on_start` is dropped
      -- (`/repo/coerce/src/actor/lifecycle.rs` 68-70)
      | .no => σ.closeSession sid
      -- the session task dies, `on_start` is dropped, `expect("unable to create session actor")`
      -- (`/repo/coerce/src/remote/net/server/session/store.rs` 56) kills the store; everyone waiting for the store gets an error
      | .panic =>
        { σ with store := .dead, accept := .free, inbox := [],
                 sess := fun x => if x = sid ∨ σ.sess x = .closing then .gone else σ.sess x }
    else σ
  | .sessionEnds sid => if σ.sess sid = .running then σ.closeSession sid else σ

/-- any sequence of operations (`/repo/coerce/src/remote/net/server/mod.rs` 96-149,
`/repo/coerce/src/remote/net/server/session/store.rs` 42-73). -/
def Server.run (σ : Server) (ops : List ServerOp) : Server := ops.foldl Server.step σ

end Verif.Remote
