import Verif.Singleton.ManagerModel
import Verif.Singleton.CodecModel

/-!
# The status of a singleton manager

`/repo/coerce/src/singleton/manager/status.rs`: `GetStatus` asks a manager what it is at.
-/

namespace Verif.Singleton.Status

open Verif.Singleton.Wire
open Verif.Remote (ReadRes)

/-- the `match` of `Handler<GetStatus>`, `/repo/coerce/src/singleton/manager/status.rs` 35-41. -/
def statusOf : MState → SingletonState
  | .joining _ => .joining
  | .idle => .idle
  | .starting _ => .starting
  | .running _ => .running
  | .stopping _ _ => .stopping

/-- `Handler<GetStatus>`, `/repo/coerce/src/singleton/manager/status.rs` 29-44: the manager stays as it is. -/
def onGetStatus (σ : Mgr) : Mgr × SingletonState := (σ, statusOf σ.st)

/-- what a caller on another node would read: the answer written (`write_remote_result`) and read
(`read_remote_result`), `/repo/coerce/src/singleton/manager/status.rs` 58-70. -/
def statusRead (σ : Mgr) : ReadRes SingletonState := SingletonState.read (onGetStatus σ).2.write

/-- the errors of `MessageUnwrapErr`, `/repo/coerce/src/actor/message/mod.rs` 251-255. -/
inductive UnwrapErr where
  | unknown
  | notTransmittable
  | deserialization
deriving DecidableEq, Repr

/-- `GetStatus::from_bytes`: not overridden in `/repo/coerce/src/singleton/manager/status.rs` 47-71, so that it is the one of
the trait, `/repo/coerce/src/actor/message/mod.rs` 82-84, which refuses all bytes.
(Nor is a handler for it registered: `/repo/coerce/src/singleton/mod.rs` 112-125.) -/
def getStatusFromBytes (_ : List UInt8) : Except UnwrapErr Nat := .error .notTransmittable

end Verif.Singleton.Status
