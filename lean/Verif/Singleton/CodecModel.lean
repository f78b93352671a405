import Verif.Proto.Singleton
import Verif.Sharding.CodecModel

/-!
# Singleton messages as bytes

The messages the singleton managers of different nodes exchange. Decoding ends in a message, in
`DeserializationErr` (`.rejected`) or in a panic of the decoding task (`.panic`).
-/

namespace Verif.Singleton.Wire
open Verif.Proto Verif.Sharding.Wire
open Verif.Remote (ReadRes)

/-- `RequestLease`, `/repo/coerce/src/singleton/manager/lease.rs` 11-14; the message is the id of the node
that sends it. -/
structure RequestLease where
  src : UInt64
deriving DecidableEq, Repr

/-- `as_bytes`, `/repo/coerce/src/singleton/manager/lease.rs` 20-26. -/
def RequestLease.write (m : RequestLease) : Bytes := Singleton.RequestLease.write { sourceNodeId := m.src }

/-- `from_bytes`, `/repo/coerce/src/singleton/manager/lease.rs` 28-32. -/
def RequestLease.read (b : Bytes) : ReadRes RequestLease := mapOk (fun l => ⟨l.sourceNodeId⟩) (Singleton.RequestLease.read b)

/-- `LeaseAck`, `/repo/coerce/src/singleton/manager/lease.rs` 42-45. -/
structure LeaseAck where
  src : UInt64
deriving DecidableEq, Repr

/-- `as_bytes`, `/repo/coerce/src/singleton/manager/lease.rs` 51-57. -/
def LeaseAck.write (m : LeaseAck) : Bytes := Singleton.LeaseAck.write { sourceNodeId := m.src }

/-- `from_bytes`, `/repo/coerce/src/singleton/manager/lease.rs` 59-63. -/
def LeaseAck.read (b : Bytes) : ReadRes LeaseAck := mapOk (fun l => ⟨l.sourceNodeId⟩) (Singleton.LeaseAck.read b)

/-- `SingletonStarted`, `/repo/coerce/src/singleton/manager/mod.rs` 391-394. -/
structure SingletonStarted where
  src : UInt64
deriving DecidableEq, Repr

/-- `as_bytes`, `/repo/coerce/src/singleton/manager/mod.rs` 435-441. -/
def SingletonStarted.write (m : SingletonStarted) : Bytes := Singleton.SingletonStarted.write { sourceNodeId := m.src }

/-- `from_bytes`, `/repo/coerce/src/singleton/manager/mod.rs` 443-447. -/
def SingletonStarted.read (b : Bytes) : ReadRes SingletonStarted :=
  mapOk (fun l => ⟨l.sourceNodeId⟩) (Singleton.SingletonStarted.read b)

/-- `SingletonStopped`, `/repo/coerce/src/singleton/manager/mod.rs` 396-399. -/
structure SingletonStopped where
  src : UInt64
deriving DecidableEq, Repr

/-- `as_bytes`, `/repo/coerce/src/singleton/manager/mod.rs` 461-467. -/
def SingletonStopped.write (m : SingletonStopped) : Bytes := Singleton.SingletonStopped.write { sourceNodeId := m.src }

/-- `from_bytes`, `/repo/coerce/src/singleton/manager/mod.rs` 469-473. -/
def SingletonStopped.read (b : Bytes) : ReadRes SingletonStopped :=
  mapOk (fun l => ⟨l.sourceNodeId⟩) (Singleton.SingletonStopped.read b)

/-- `SingletonState`, `/repo/coerce/src/singleton/manager/status.rs` 19-25. -/
inductive SingletonState where
  | joining
  | idle
  | starting
  | running
  | stopping
deriving DecidableEq, Repr

/-- `Into<proto::SingletonState>`, `/repo/coerce/src/singleton/manager/status.rs` 73-83; numbers:
`/repo/coerce/src/protocol/singleton.proto` 13-19. -/
def SingletonState.num : SingletonState → Int32
  | .joining => 0
  | .idle => 1
  | .starting => 2
  | .running => 3
  | .stopping => 4

/-- `EnumOrUnknown::unwrap` and `From<proto::SingletonState>`,
`/repo/coerce/src/singleton/manager/status.rs` 60 and 85-95; `none`: the `unwrap` panics. -/
def SingletonState.ofNum (n : Int32) : Option SingletonState :=
  if n = 0 then some .joining else if n = 1 then some .idle else if n = 2 then some .starting
  else if n = 3 then some .running else if n = 4 then some .stopping else none

/-- `write_remote_result`, `/repo/coerce/src/singleton/manager/status.rs` 64-70. -/
def SingletonState.write (s : SingletonState) : Bytes := Singleton.ManagerStatus.write { singletonState := s.num }

/-- `read_remote_result`, `/repo/coerce/src/singleton/manager/status.rs` 58-62. -/
def SingletonState.read (b : Bytes) : ReadRes SingletonState :=
  mapUnwrap (fun m => SingletonState.ofNum m.singletonState) (Singleton.ManagerStatus.read b)

end Verif.Singleton.Wire
