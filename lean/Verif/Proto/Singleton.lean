import Verif.Proto.Msg

/-!
# Generated messages of `/repo/coerce/src/protocol/singleton.proto`

One structure per message with `fields` (what the generated `write_to_with_cached_sizes` emits),
`write`, `merge` (one round of the generated `merge_from` loop) and `read` (`parse_from_bytes`, `none`
= error). Enum fields are the raw `i32` (`EnumOrUnknown`). Unknown fields are skipped; the generated
code keeps them in `special_fields`, which nothing in the repository reads. A sub-message that occurs
twice replaces the first one.
-/

namespace Verif.Proto.Singleton
open Verif.Proto

/-- `/repo/coerce/src/protocol/singleton.proto` 5-7. -/
structure GetStatus where
  sourceNodeId : UInt64 := 0
deriving DecidableEq, Repr, Inhabited

/-- generated `write_to_with_cached_sizes`, `/repo/coerce/src/singleton/proto/singleton.rs` 99-105. -/
def GetStatus.fields (m : GetStatus) : List Field :=
  fVarint 1 m.sourceNodeId.toNat

/-- all of them, one after the other, `/repo/coerce/src/singleton/proto/singleton.rs` 99-105. -/
def GetStatus.write (m : GetStatus) : Bytes := encodeFields m.fields

/-- generated `merge_from`, one field, `/repo/coerce/src/singleton/proto/singleton.rs` 73-85. -/
def GetStatus.merge (m : GetStatus) : Field → Option GetStatus
  | (1, .varint n) => some { m with sourceNodeId := UInt64.ofNat n }
  | _ => some m

/-- `parse_from_bytes`. (The loop: `/repo/coerce/src/singleton/proto/singleton.rs` 73-85.) -/
def GetStatus.read (bs : Bytes) : Option GetStatus :=
  (parseFields bs).bind fun fs => fs.foldlM GetStatus.merge {}

/-- `/repo/coerce/src/protocol/singleton.proto` 9-11. -/
structure ManagerStatus where
  singletonState : Int32 := 0
deriving DecidableEq, Repr, Inhabited

/-- generated `write_to_with_cached_sizes`, `/repo/coerce/src/singleton/proto/singleton.rs` 221-227. -/
def ManagerStatus.fields (m : ManagerStatus) : List Field :=
  fEnum 1 m.singletonState

/-- all of them, one after the other, `/repo/coerce/src/singleton/proto/singleton.rs` 221-227. -/
def ManagerStatus.write (m : ManagerStatus) : Bytes := encodeFields m.fields

/-- generated `merge_from`, one field, `/repo/coerce/src/singleton/proto/singleton.rs` 195-207. -/
def ManagerStatus.merge (m : ManagerStatus) : Field → Option ManagerStatus
  | (1, .varint n) => some { m with singletonState := readEnum n }
  | _ => some m

/-- `parse_from_bytes`. (The loop: `/repo/coerce/src/singleton/proto/singleton.rs` 195-207.) -/
def ManagerStatus.read (bs : Bytes) : Option ManagerStatus :=
  (parseFields bs).bind fun fs => fs.foldlM ManagerStatus.merge {}

/-- `/repo/coerce/src/protocol/singleton.proto` 21-23. -/
structure RequestLease where
  sourceNodeId : UInt64 := 0
deriving DecidableEq, Repr, Inhabited

/-- generated `write_to_with_cached_sizes`, `/repo/coerce/src/singleton/proto/singleton.rs` 343-349. -/
def RequestLease.fields (m : RequestLease) : List Field :=
  fVarint 1 m.sourceNodeId.toNat

/-- all of them, one after the other, `/repo/coerce/src/singleton/proto/singleton.rs` 343-349. -/
def RequestLease.write (m : RequestLease) : Bytes := encodeFields m.fields

/-- generated `merge_from`, one field, `/repo/coerce/src/singleton/proto/singleton.rs` 317-329. -/
def RequestLease.merge (m : RequestLease) : Field → Option RequestLease
  | (1, .varint n) => some { m with sourceNodeId := UInt64.ofNat n }
  | _ => some m

/-- `parse_from_bytes`. (The loop: `/repo/coerce/src/singleton/proto/singleton.rs` 317-329.) -/
def RequestLease.read (bs : Bytes) : Option RequestLease :=
  (parseFields bs).bind fun fs => fs.foldlM RequestLease.merge {}

/-- `/repo/coerce/src/protocol/singleton.proto` 25-27. -/
structure LeaseAck where
  sourceNodeId : UInt64 := 0
deriving DecidableEq, Repr, Inhabited

/-- generated `write_to_with_cached_sizes`, `/repo/coerce/src/singleton/proto/singleton.rs` 465-471. -/
def LeaseAck.fields (m : LeaseAck) : List Field :=
  fVarint 1 m.sourceNodeId.toNat

/-- all of them, one after the other, `/repo/coerce/src/singleton/proto/singleton.rs` 465-471. -/
def LeaseAck.write (m : LeaseAck) : Bytes := encodeFields m.fields

/-- generated `merge_from`, one field, `/repo/coerce/src/singleton/proto/singleton.rs` 439-451. -/
def LeaseAck.merge (m : LeaseAck) : Field → Option LeaseAck
  | (1, .varint n) => some { m with sourceNodeId := UInt64.ofNat n }
  | _ => some m

/-- `parse_from_bytes`. (The loop: `/repo/coerce/src/singleton/proto/singleton.rs` 439-451.) -/
def LeaseAck.read (bs : Bytes) : Option LeaseAck :=
  (parseFields bs).bind fun fs => fs.foldlM LeaseAck.merge {}

/-- `/repo/coerce/src/protocol/singleton.proto` 29-31. -/
structure LeaseNack where
  sourceNodeId : UInt64 := 0
deriving DecidableEq, Repr, Inhabited

/-- generated `write_to_with_cached_sizes`, `/repo/coerce/src/singleton/proto/singleton.rs` 587-593. -/
def LeaseNack.fields (m : LeaseNack) : List Field :=
  fVarint 1 m.sourceNodeId.toNat

/-- all of them, one after the other, `/repo/coerce/src/singleton/proto/singleton.rs` 587-593. -/
def LeaseNack.write (m : LeaseNack) : Bytes := encodeFields m.fields

/-- generated `merge_from`, one field, `/repo/coerce/src/singleton/proto/singleton.rs` 561-573. -/
def LeaseNack.merge (m : LeaseNack) : Field → Option LeaseNack
  | (1, .varint n) => some { m with sourceNodeId := UInt64.ofNat n }
  | _ => some m

/-- `parse_from_bytes`. (The loop: `/repo/coerce/src/singleton/proto/singleton.rs` 561-573.) -/
def LeaseNack.read (bs : Bytes) : Option LeaseNack :=
  (parseFields bs).bind fun fs => fs.foldlM LeaseNack.merge {}

/-- `/repo/coerce/src/protocol/singleton.proto` 33-35. -/
structure SingletonStarted where
  sourceNodeId : UInt64 := 0
deriving DecidableEq, Repr, Inhabited

/-- generated `write_to_with_cached_sizes`, `/repo/coerce/src/singleton/proto/singleton.rs` 709-715. -/
def SingletonStarted.fields (m : SingletonStarted) : List Field :=
  fVarint 1 m.sourceNodeId.toNat

/-- all of them, one after the other, `/repo/coerce/src/singleton/proto/singleton.rs` 709-715. -/
def SingletonStarted.write (m : SingletonStarted) : Bytes := encodeFields m.fields

/-- generated `merge_from`, one field, `/repo/coerce/src/singleton/proto/singleton.rs` 683-695. -/
def SingletonStarted.merge (m : SingletonStarted) : Field → Option SingletonStarted
  | (1, .varint n) => some { m with sourceNodeId := UInt64.ofNat n }
  | _ => some m

/-- `parse_from_bytes`. (The loop: `/repo/coerce/src/singleton/proto/singleton.rs` 683-695.) -/
def SingletonStarted.read (bs : Bytes) : Option SingletonStarted :=
  (parseFields bs).bind fun fs => fs.foldlM SingletonStarted.merge {}

/-- `/repo/coerce/src/protocol/singleton.proto` 37-39. -/
structure SingletonStopping where
  sourceNodeId : UInt64 := 0
deriving DecidableEq, Repr, Inhabited

/-- generated `write_to_with_cached_sizes`, `/repo/coerce/src/singleton/proto/singleton.rs` 831-837. -/
def SingletonStopping.fields (m : SingletonStopping) : List Field :=
  fVarint 1 m.sourceNodeId.toNat

/-- all of them, one after the other, `/repo/coerce/src/singleton/proto/singleton.rs` 831-837. -/
def SingletonStopping.write (m : SingletonStopping) : Bytes := encodeFields m.fields

/-- generated `merge_from`, one field, `/repo/coerce/src/singleton/proto/singleton.rs` 805-817. -/
def SingletonStopping.merge (m : SingletonStopping) : Field → Option SingletonStopping
  | (1, .varint n) => some { m with sourceNodeId := UInt64.ofNat n }
  | _ => some m

/-- `parse_from_bytes`. (The loop: `/repo/coerce/src/singleton/proto/singleton.rs` 805-817.) -/
def SingletonStopping.read (bs : Bytes) : Option SingletonStopping :=
  (parseFields bs).bind fun fs => fs.foldlM SingletonStopping.merge {}

/-- `/repo/coerce/src/protocol/singleton.proto` 41-43. -/
structure SingletonStopped where
  sourceNodeId : UInt64 := 0
deriving DecidableEq, Repr, Inhabited

/-- generated `write_to_with_cached_sizes`, `/repo/coerce/src/singleton/proto/singleton.rs` 953-959. -/
def SingletonStopped.fields (m : SingletonStopped) : List Field :=
  fVarint 1 m.sourceNodeId.toNat

/-- all of them, one after the other, `/repo/coerce/src/singleton/proto/singleton.rs` 953-959. -/
def SingletonStopped.write (m : SingletonStopped) : Bytes := encodeFields m.fields

/-- generated `merge_from`, one field, `/repo/coerce/src/singleton/proto/singleton.rs` 927-939. -/
def SingletonStopped.merge (m : SingletonStopped) : Field → Option SingletonStopped
  | (1, .varint n) => some { m with sourceNodeId := UInt64.ofNat n }
  | _ => some m

/-- `parse_from_bytes`. (The loop: `/repo/coerce/src/singleton/proto/singleton.rs` 927-939.) -/
def SingletonStopped.read (bs : Bytes) : Option SingletonStopped :=
  (parseFields bs).bind fun fs => fs.foldlM SingletonStopped.merge {}

end Verif.Proto.Singleton
