/-!
# Protobuf wire format

Model of the part of the protobuf encoding that the generated code of the repository relies on
(`/repo/coerce/src/persistent/journal/proto/journal.rs` 87-138, `/repo/coerce/src/remote/net/proto/network.rs`,
`/repo/coerce/src/sharding/proto/sharding.rs`, `/repo/coerce/src/singleton/proto/singleton.rs`):
every generated `write_to_with_cached_sizes` emits a list of fields (`write_int64(1, …)`,
`write_string(2, …)`, …) and every generated `merge_from` is a loop
`while let Some(tag) = is.read_raw_tag_or_eof()? { match tag { … } }`.

The runtime crate (rust-protobuf 3.2.0) is external; its byte format is the documented one.
Simplifications: deprecated groups (wire types 3 and 4) are rejected instead of skipped; varints are
limited to ten bytes and a too large tenth byte is not masked.
-/

namespace Verif.Proto

/-- bytes, as in `/repo/coerce/src/persistent/journal/proto/journal.rs` 87-138. -/
abbrev Bytes := List UInt8

/-- `CodedOutputStream::write_raw_varint64`: base-128, low group first, top bit = "more follows". (As called from
`/repo/coerce/src/persistent/journal/proto/journal.rs` 126-138.) -/
def varint (n : Nat) : Bytes :=
  if n < 128 then [UInt8.ofNat n] else UInt8.ofNat (n % 128 + 128) :: varint (n / 128)
termination_by n

/-- `CodedInputStream::read_raw_varint64`; `fuel` is the number of bytes still allowed (10 at the start). (As called
from `/repo/coerce/src/persistent/journal/proto/journal.rs` 87-105.) -/
def readVarint : Nat → Bytes → Option (Nat × Bytes)
  | 0, _ => none
  | _, [] => none
  | f + 1, b :: bs =>
    if b.toNat < 128 then some (b.toNat, bs)
    else match readVarint f bs with
      | some (v, rest) => some (b.toNat - 128 + 128 * v, rest)
      | none => none

/-- A field value as it appears on the wire. (`/repo/coerce/src/persistent/journal/proto/journal.rs` 87-138.) -/
inductive WireVal where
  | varint (n : Nat)
  | fixed64 (bs : Bytes)
  | len (bs : Bytes)
  | fixed32 (bs : Bytes)
deriving DecidableEq, Repr

/-- One field: number and value. (`/repo/coerce/src/persistent/journal/proto/journal.rs` 87-138.) -/
abbrev Field := Nat × WireVal

/-- wire type number of a value. (As called from `/repo/coerce/src/persistent/journal/proto/journal.rs` 126-138.) -/
def WireVal.wireType : WireVal → Nat
  | .varint _ => 0
  | .fixed64 _ => 1
  | .len _ => 2
  | .fixed32 _ => 5

/-- body of a value: varint, or length prefix and bytes. (As called from
`/repo/coerce/src/persistent/journal/proto/journal.rs` 126-138.) -/
def WireVal.body : WireVal → Bytes
  | .varint n => Proto.varint n
  | .fixed64 bs => bs
  | .len bs => Proto.varint bs.length ++ bs
  | .fixed32 bs => bs

/-- `write_tag(field, wire_type)` followed by the value. (As called from
`/repo/coerce/src/persistent/journal/proto/journal.rs` 126-138.) -/
def encodeField (f : Field) : Bytes :=
  Proto.varint (f.1 * 8 + f.2.wireType) ++ f.2.body

/-- `write_to_with_cached_sizes`: the fields one after the other.
(`/repo/coerce/src/persistent/journal/proto/journal.rs` 126-138.) -/
def encodeFields (fs : List Field) : Bytes := fs.flatMap encodeField

/-- take exactly `n` bytes. (As called from `/repo/coerce/src/persistent/journal/proto/journal.rs` 87-105.) -/
def takeN (n : Nat) (bs : Bytes) : Option (Bytes × Bytes) :=
  if n ≤ bs.length then some (bs.take n, bs.drop n) else none

/-- read the value that follows a tag of the given wire type. (As called from
`/repo/coerce/src/persistent/journal/proto/journal.rs` 87-105.) -/
def readVal (wt : Nat) (bs : Bytes) : Option (WireVal × Bytes) :=
  match wt with
  | 0 => (readVarint 10 bs).map fun (n, r) => (.varint n, r)
  | 1 => (takeN 8 bs).map fun (v, r) => (.fixed64 v, r)
  | 2 => (readVarint 10 bs).bind fun (n, r) => (takeN n r).map fun (v, r') => (.len v, r')
  | 5 => (takeN 4 bs).map fun (v, r) => (.fixed32 v, r)
  | _ => none

/-- One tag and its value. Field number 0 is illegal. (As called from
`/repo/coerce/src/persistent/journal/proto/journal.rs` 87-105.) -/
def readField (bs : Bytes) : Option (Field × Bytes) :=
  (readVarint 10 bs).bind fun (tag, r) =>
    if tag / 8 = 0 then none
    else (readVal (tag % 8) r).map fun (v, r') => ((tag / 8, v), r')

/-- The `merge_from` loop: read fields until the end of the input (`fuel` bounds the number of iterations; the input
length always suffices since every field takes at least two bytes).
(`/repo/coerce/src/persistent/journal/proto/journal.rs` 87-105.) -/
def parseLoop : Nat → Bytes → Option (List Field)
  | _, [] => some []
  | 0, _ :: _ => none
  | f + 1, b :: bs =>
    (readField (b :: bs)).bind fun (fld, r) => (parseLoop f r).map fun rest => fld :: rest

/-- the whole loop (`/repo/coerce/src/persistent/journal/proto/journal.rs` 87-105). -/
def parseFields (bs : Bytes) : Option (List Field) := parseLoop bs.length bs

/-! ### Scalar conversions -/

/-- `value as u64` for an `i64` (`write_int64`). (As called from
`/repo/coerce/src/persistent/journal/proto/journal.rs` 126-138.) -/
def ofInt64 (i : Int) : Nat := (i % 2 ^ 64).toNat

/-- `as i64` (`read_int64`). (As called from `/repo/coerce/src/persistent/journal/proto/journal.rs` 87-105.) -/
def toInt64 (n : Nat) : Int :=
  let m : Int := ((n % 2 ^ 64 : Nat) : Int)
  if m < 2 ^ 63 then m else m - 2 ^ 64

/-- UTF-8 bytes of a string (`write_string`). (As called from `/repo/coerce/src/persistent/journal/proto/journal.rs`
126-138.) -/
def strBytes (s : String) : Bytes := s.toUTF8.data.toList

/-- `read_string`: fails on invalid UTF-8. (As called from `/repo/coerce/src/persistent/journal/proto/journal.rs`
87-105.) -/
def bytesStr (bs : Bytes) : Option String := String.fromUTF8? ⟨bs.toArray⟩

/-! ### Field emission: proto3 omits default values (`if self.x != 0 { os.write_…(n, self.x)? }`). -/

/-- a number, left out if it is 0 (`/repo/coerce/src/persistent/journal/proto/journal.rs` 126-138;
`/repo/coerce/src/remote/net/proto/network.rs` 167-191). -/
def fVarint (no n : Nat) : List Field := if n = 0 then [] else [(no, .varint n)]
/-- an `i64`, left out if it is 0 (`/repo/coerce/src/persistent/journal/proto/journal.rs` 126-138). -/
def fInt64 (no : Nat) (i : Int) : List Field := if i = 0 then [] else [(no, .varint (ofInt64 i))]
/-- bytes, left out if there are none (`/repo/coerce/src/persistent/journal/proto/journal.rs` 126-138). -/
def fBytes (no : Nat) (bs : Bytes) : List Field := if bs = [] then [] else [(no, .len bs)]
/-- a string, left out if it is empty (`/repo/coerce/src/persistent/journal/proto/journal.rs` 126-138). -/
def fString (no : Nat) (s : String) : List Field := if s = "" then [] else [(no, .len (strBytes s))]
/-- a `bool`, left out if it is false (`/repo/coerce/src/sharding/proto/sharding.rs` 112-121). -/
def fBool (no : Nat) (b : Bool) : List Field := if b then [(no, .varint 1)] else []
/-- optional sub-message: tag, length, body (`write_message_field_with_cached_size`).
(`/repo/coerce/src/remote/net/proto/network.rs` 167-191.) -/
def fMsg (no : Nat) (m : Option Bytes) : List Field :=
  match m with | none => [] | some b => [(no, .len b)]
/-- repeated string / message: one field per element. (`/repo/coerce/src/remote/net/proto/network.rs` 167-191.) -/
def fRepeated (no : Nat) (bs : List Bytes) : List Field := bs.map fun b => (no, .len b)

end Verif.Proto
