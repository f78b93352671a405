import Verif.Util

/-!
# The order of messages to an actor of another node

The client keeps the order in which messages are written (C24) and the connection keeps the order of frames (C20). The
session starts a task for each message and does not wait for it.
-/

namespace Verif.Remote

/-- The way from the senders on one node to one actor on another. (`/repo/coerce/src/remote/actor_ref.rs` 52-99,
`/repo/coerce/src/remote/net/client/send.rs` 74-133, `/repo/coerce/src/remote/net/server/session/mod.rs` 527-564.) -/
structure Line (M : Type) where
  /-- ghost: everything sent, in order. -/
  sent : List M := []
  /-- written to the client or the connection, not yet read by the session. -/
  wire : List M := []
  /-- `session_handle_message` tasks that have not yet put their message into the mailbox: they look the actor up, up to
  nine times (`/repo/coerce/src/remote/handler.rs` 247-306). -/
  tasks : List M := []
  /-- what the actor's mailbox was given, in order. -/
  mailbox : List M := []
deriving DecidableEq, Repr

/-- the steps of a message on that way: `/repo/coerce/src/remote/actor_ref.rs` 52-99,
`/repo/coerce/src/remote/net/mod.rs` 89-109, `/repo/coerce/src/remote/handler.rs` 247-306. -/
inductive LineOp (M : Type) where
  /-- a message is sent or notified: `notify_node`, `/repo/coerce/src/remote/system/cluster.rs` 33-39. -/
  | send (m : M)
  /-- the session reads the next frame: `tokio::spawn(session_handle_message(..))`,
  `/repo/coerce/src/remote/net/server/session/mod.rs` 316-323. -/
  | arrive
  /-- the `i`-th waiting task delivers its message. The scheduler may run the tasks in any order. -/
  | deliver (i : Nat)
deriving DecidableEq, Repr

variable {M : Type}

/-- `/repo/coerce/src/remote/net/server/session/mod.rs` 316-323. -/
def Line.arrive (σ : Line M) : Line M :=
  match σ.wire with
  | [] => σ
  | m :: r => { σ with wire := r, tasks := σ.tasks ++ [m] }

/-- the end of one task, `/repo/coerce/src/remote/net/server/session/mod.rs` 527-564: the handler puts the message into
the actor's mailbox. -/
def Line.deliver (σ : Line M) (i : Nat) : Line M :=
  match σ.tasks[i]? with
  | none => σ
  | some m => { σ with tasks := σ.tasks.eraseIdx i, mailbox := σ.mailbox ++ [m] }

/-- one step (`/repo/coerce/src/remote/net/server/session/mod.rs` 260-408, 527-564). -/
def Line.step (σ : Line M) : LineOp M → Line M
  | .send m => { σ with sent := σ.sent ++ [m], wire := σ.wire ++ [m] }
  | .arrive => σ.arrive
  | .deliver i => σ.deliver i

/-- any sequence of steps (`/repo/coerce/src/remote/net/server/session/mod.rs` 260-408, 527-564). -/
def Line.run (σ : Line M) (ops : List (LineOp M)) : Line M := ops.foldl Line.step σ

end Verif.Remote
