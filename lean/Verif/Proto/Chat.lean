import Verif.Proto.Msg

/-!
# Generated messages of `/repo/examples/coerce-sharded-chat-example/src/protocol/chat.proto`

One structure per message with `fields` (what the generated `write_to_with_cached_sizes` emits),
`write`, `merge` (one round of the generated `merge_from` loop) and `read` (`parse_from_bytes`, `none`
= error). Enum fields are the raw `i32` (`EnumOrUnknown`). Unknown fields are skipped; the generated
code keeps them in `special_fields`, which nothing in the repository reads. A sub-message that occurs
twice replaces the first one.
-/

namespace Verif.Proto.Chat
open Verif.Proto

/-- `google.protobuf.UInt64Value` (rust-protobuf well known type; `uint64 value = 1`). (Used in
`/repo/examples/coerce-sharded-chat-example/src/protocol/chat.proto` 28.) -/
structure UInt64Value where
  value : UInt64 := 0
deriving DecidableEq, Repr, Inhabited

/-- fields in the order of their numbers. (Used in
`/repo/examples/coerce-sharded-chat-example/src/protocol/chat.proto` 28.) -/
def UInt64Value.fields (m : UInt64Value) : List Field :=
  fVarint 1 m.value.toNat

/-- all of them, one after the other (used in `/repo/examples/coerce-sharded-chat-example/src/protocol/chat.proto`
28). -/
def UInt64Value.write (m : UInt64Value) : Bytes := encodeFields m.fields

/-- one field of the `merge_from` loop. (Used in `/repo/examples/coerce-sharded-chat-example/src/protocol/chat.proto`
28.) -/
def UInt64Value.merge (m : UInt64Value) : Field → Option UInt64Value
  | (1, .varint n) => some { m with value := UInt64.ofNat n }
  | _ => some m

/-- `parse_from_bytes`. (Used in `/repo/examples/coerce-sharded-chat-example/src/protocol/chat.proto` 28.) -/
def UInt64Value.read (bs : Bytes) : Option UInt64Value :=
  (parseFields bs).bind fun fs => fs.foldlM UInt64Value.merge {}

/-- `google.protobuf.StringValue` (rust-protobuf well known type; `string value = 1`). (Used in
`/repo/examples/coerce-sharded-chat-example/src/protocol/chat.proto` 14-30.) -/
structure StringValue where
  value : String := ""
deriving DecidableEq, Repr, Inhabited

/-- fields in the order of their numbers. (Used in
`/repo/examples/coerce-sharded-chat-example/src/protocol/chat.proto` 14-30.) -/
def StringValue.fields (m : StringValue) : List Field :=
  fString 1 m.value

/-- all of them, one after the other (used in `/repo/examples/coerce-sharded-chat-example/src/protocol/chat.proto`
14-30). -/
def StringValue.write (m : StringValue) : Bytes := encodeFields m.fields

/-- one field of the `merge_from` loop. (Used in `/repo/examples/coerce-sharded-chat-example/src/protocol/chat.proto`
14-30.) -/
def StringValue.merge (m : StringValue) : Field → Option StringValue
  | (1, .len b) => (bytesStr b).map fun x => { m with value := x }
  | _ => some m

/-- `parse_from_bytes`. (Used in `/repo/examples/coerce-sharded-chat-example/src/protocol/chat.proto` 14-30.) -/
def StringValue.read (bs : Bytes) : Option StringValue :=
  (parseFields bs).bind fun fs => fs.foldlM StringValue.merge {}

/-- `/repo/examples/coerce-sharded-chat-example/src/protocol/chat.proto` 7-9. -/
structure Handshake where
  name : String := ""
deriving DecidableEq, Repr, Inhabited

/-- generated `write_to_with_cached_sizes`, `/repo/examples/coerce-sharded-chat-example/src/protocol/chat.rs` 99-105. -/
def Handshake.fields (m : Handshake) : List Field :=
  fString 1 m.name

/-- all of them, one after the other, `/repo/examples/coerce-sharded-chat-example/src/protocol/chat.rs` 99-105. -/
def Handshake.write (m : Handshake) : Bytes := encodeFields m.fields

/-- generated `merge_from`, one field, `/repo/examples/coerce-sharded-chat-example/src/protocol/chat.rs` 73-85. -/
def Handshake.merge (m : Handshake) : Field → Option Handshake
  | (1, .len b) => (bytesStr b).map fun x => { m with name := x }
  | _ => some m

/-- `parse_from_bytes`. (The loop: `/repo/examples/coerce-sharded-chat-example/src/protocol/chat.rs` 73-85.) -/
def Handshake.read (bs : Bytes) : Option Handshake :=
  (parseFields bs).bind fun fs => fs.foldlM Handshake.merge {}

/-- `/repo/examples/coerce-sharded-chat-example/src/protocol/chat.proto` 11-15. -/
structure JoinChat where
  chatStreamId : String := ""
  joinToken : Option StringValue := none
deriving DecidableEq, Repr, Inhabited

/-- generated `write_to_with_cached_sizes`, `/repo/examples/coerce-sharded-chat-example/src/protocol/chat.rs` 235-244. -/
def JoinChat.fields (m : JoinChat) : List Field :=
  fString 1 m.chatStreamId ++
  fMsg 2 (m.joinToken.map StringValue.write)

/-- all of them, one after the other, `/repo/examples/coerce-sharded-chat-example/src/protocol/chat.rs` 235-244. -/
def JoinChat.write (m : JoinChat) : Bytes := encodeFields m.fields

/-- generated `merge_from`, one field, `/repo/examples/coerce-sharded-chat-example/src/protocol/chat.rs` 202-217. -/
def JoinChat.merge (m : JoinChat) : Field → Option JoinChat
  | (1, .len b) => (bytesStr b).map fun x => { m with chatStreamId := x }
  | (2, .len b) => (StringValue.read b).map fun x => { m with joinToken := some x }
  | _ => some m

/-- `parse_from_bytes`. (The loop: `/repo/examples/coerce-sharded-chat-example/src/protocol/chat.rs` 202-217.) -/
def JoinChat.read (bs : Bytes) : Option JoinChat :=
  (parseFields bs).bind fun fs => fs.foldlM JoinChat.merge {}

/-- `/repo/examples/coerce-sharded-chat-example/src/protocol/chat.proto` 17-19. -/
structure LeaveChat where
  chatStreamId : String := ""
deriving DecidableEq, Repr, Inhabited

/-- generated `write_to_with_cached_sizes`, `/repo/examples/coerce-sharded-chat-example/src/protocol/chat.rs` 362-368. -/
def LeaveChat.fields (m : LeaveChat) : List Field :=
  fString 1 m.chatStreamId

/-- all of them, one after the other, `/repo/examples/coerce-sharded-chat-example/src/protocol/chat.rs` 362-368. -/
def LeaveChat.write (m : LeaveChat) : Bytes := encodeFields m.fields

/-- generated `merge_from`, one field, `/repo/examples/coerce-sharded-chat-example/src/protocol/chat.rs` 336-348. -/
def LeaveChat.merge (m : LeaveChat) : Field → Option LeaveChat
  | (1, .len b) => (bytesStr b).map fun x => { m with chatStreamId := x }
  | _ => some m

/-- `parse_from_bytes`. (The loop: `/repo/examples/coerce-sharded-chat-example/src/protocol/chat.rs` 336-348.) -/
def LeaveChat.read (bs : Bytes) : Option LeaveChat :=
  (parseFields bs).bind fun fs => fs.foldlM LeaveChat.merge {}

/-- `/repo/examples/coerce-sharded-chat-example/src/protocol/chat.proto` 25-33. -/
structure ChatMessage where
  chatStreamId : String := ""
  messageId : Option UInt64Value := none
  sender : Option StringValue := none
  message : String := ""
deriving DecidableEq, Repr, Inhabited

/-- generated `write_to_with_cached_sizes`, `/repo/examples/coerce-sharded-chat-example/src/protocol/chat.rs` 648-663. -/
def ChatMessage.fields (m : ChatMessage) : List Field :=
  fString 1 m.chatStreamId ++
  fMsg 2 (m.messageId.map UInt64Value.write) ++
  fMsg 3 (m.sender.map StringValue.write) ++
  fString 4 m.message

/-- all of them, one after the other, `/repo/examples/coerce-sharded-chat-example/src/protocol/chat.rs` 648-663. -/
def ChatMessage.write (m : ChatMessage) : Bytes := encodeFields m.fields

/-- generated `merge_from`, one field, `/repo/examples/coerce-sharded-chat-example/src/protocol/chat.rs` 602-623. -/
def ChatMessage.merge (m : ChatMessage) : Field → Option ChatMessage
  | (1, .len b) => (bytesStr b).map fun x => { m with chatStreamId := x }
  | (2, .len b) => (UInt64Value.read b).map fun x => { m with messageId := some x }
  | (3, .len b) => (StringValue.read b).map fun x => { m with sender := some x }
  | (4, .len b) => (bytesStr b).map fun x => { m with message := x }
  | _ => some m

/-- `parse_from_bytes`. (The loop: `/repo/examples/coerce-sharded-chat-example/src/protocol/chat.rs` 602-623.) -/
def ChatMessage.read (bs : Bytes) : Option ChatMessage :=
  (parseFields bs).bind fun fs => fs.foldlM ChatMessage.merge {}

/-- `/repo/examples/coerce-sharded-chat-example/src/protocol/chat.proto` 21-23. -/
structure SendChatMessage where
  message : Option ChatMessage := none
deriving DecidableEq, Repr, Inhabited

/-- generated `write_to_with_cached_sizes`, `/repo/examples/coerce-sharded-chat-example/src/protocol/chat.rs` 485-491. -/
def SendChatMessage.fields (m : SendChatMessage) : List Field :=
  fMsg 1 (m.message.map ChatMessage.write)

/-- all of them, one after the other, `/repo/examples/coerce-sharded-chat-example/src/protocol/chat.rs` 485-491. -/
def SendChatMessage.write (m : SendChatMessage) : Bytes := encodeFields m.fields

/-- generated `merge_from`, one field, `/repo/examples/coerce-sharded-chat-example/src/protocol/chat.rs` 458-470. -/
def SendChatMessage.merge (m : SendChatMessage) : Field → Option SendChatMessage
  | (1, .len b) => (ChatMessage.read b).map fun x => { m with message := some x }
  | _ => some m

/-- `parse_from_bytes`. (The loop: `/repo/examples/coerce-sharded-chat-example/src/protocol/chat.rs` 458-470.) -/
def SendChatMessage.read (bs : Bytes) : Option SendChatMessage :=
  (parseFields bs).bind fun fs => fs.foldlM SendChatMessage.merge {}

end Verif.Proto.Chat
