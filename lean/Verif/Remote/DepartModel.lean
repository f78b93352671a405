import Verif.Remote.ClientModel
import Verif.Remote.AuthModel
import Verif.Remote.HeartbeatModel

/-!
# A node leaving in good order

On the leaving node the scheduler stops all actors, the outgoing connections among them; the parting word of a
connection makes the session at its other end tell the heartbeat.
-/

namespace Verif.Remote
open Verif.Proto

/-- what `RemoteClient::stopped` writes, `/repo/coerce/src/remote/net/client/mod.rs` 204-242: `terminated` is
`is_terminated()` of the system, set by `ActorSystem::shutdown` (`/repo/coerce/src/actor/system/mod.rs` 216-228) before
any actor is stopped; `uuid` is the fresh id. A `stuck` client never gets as far as `stopped`. -/
def parting (st : CState) (terminated : Bool) (self : UInt64) (uuid : String) : Option SessionEvent :=
  match st with
  | .connected =>
    if terminated then some (.ping { messageId := uuid, nodeId := self, systemTerminated := true }) else none
  | .idle _ => none
  | .terminated => none
  | .stuck => none

/-- what the effects of a session are to the heartbeat of its node,
`/repo/coerce/src/remote/net/server/session/mod.rs` 334-335. -/
def Effect.toHeartbeat (now : Nat → Int) : Effect → Option HbOp
  | .nodeTerminated n => some (.nodeTerminated n.toNat now)
  | _ => none

end Verif.Remote
