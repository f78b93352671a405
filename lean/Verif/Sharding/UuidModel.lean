import Verif.Sharding.CodecModel

/-!
# The text of a UUID

The ids of requests are UUIDs (`uuid` 1.x, `/repo/coerce/Cargo.toml` 83). They are written with `to_string` and read with
`from_str` and `parse_str`. The crate is not in `/repo`; what is here is what its documentation says of the two functions:
`to_string` writes 32 lower-case hexadecimal digits in groups of 8, 4, 4, 4 and 12 with hyphens between; `parse_str` reads
that form and the one without hyphens, the one in braces and the one that begins with `urn:uuid:`, with digits of either case.
-/

namespace Verif.Uuid

/-- a UUID: 16 bytes. (`Uuid`, used in `/repo/coerce/src/remote/system/rpc.rs` 20-120.) -/
structure Uuid where
  bytes : List UInt8
  size : bytes.length = 16
deriving DecidableEq

/-- a hexadecimal digit, lower case. (`to_string`, used in `/repo/coerce/src/sharding/host/request.rs` 202-242.) -/
def digit (n : Nat) : Char := if n < 10 then Char.ofNat (48 + n) else Char.ofNat (87 + n)

/-- what a hexadecimal digit of either case stands for.
(`from_str`, used in `/repo/coerce/src/sharding/host/request.rs` 202-242.) -/
def value (c : Char) : Option Nat :=
  if 48 ≤ c.toNat ∧ c.toNat ≤ 57 then some (c.toNat - 48)
  else if 97 ≤ c.toNat ∧ c.toNat ≤ 102 then some (c.toNat - 87)
  else if 65 ≤ c.toNat ∧ c.toNat ≤ 70 then some (c.toNat - 55)
  else none

/-- the digits of some bytes. (`to_string`, used in `/repo/coerce/src/sharding/host/request.rs` 202-242.) -/
def hex : List UInt8 → List Char
  | [] => []
  | b :: bs => digit (b.toNat / 16) :: digit (b.toNat % 16) :: hex bs

/-- the bytes some digits stand for. (`from_str`, used in `/repo/coerce/src/sharding/host/request.rs` 202-242.) -/
def unhex : List Char → Option (List UInt8)
  | [] => some []
  | [_] => none
  | c :: d :: cs => match value c, value d, unhex cs with
    | some x, some y, some bs => some (UInt8.ofNat (16 * x + y) :: bs)
    | _, _, _ => none

/-- `Uuid::to_string`. (used in `/repo/coerce/src/sharding/host/request.rs` 204 and `/repo/coerce/src/remote/actor_ref.rs`
121.) -/
def Uuid.text (u : Uuid) : String :=
  String.ofList (hex (u.bytes.take 4) ++ '-' :: hex ((u.bytes.drop 4).take 2) ++ '-' :: hex ((u.bytes.drop 6).take 2) ++
    '-' :: hex ((u.bytes.drop 8).take 2) ++ '-' :: hex (u.bytes.drop 10))

/-- the digits of the form with hyphens, which stand at four places and nowhere else.
(`from_str`, used in `/repo/coerce/src/sharding/host/request.rs` 230.) -/
def unhyphen (cs : List Char) : Option (List Char) :=
  if cs[8]? = some '-' ∧ cs[13]? = some '-' ∧ cs[18]? = some '-' ∧ cs[23]? = some '-' then
    some (cs.take 8 ++ (cs.drop 9).take 4 ++ (cs.drop 14).take 4 ++ (cs.drop 19).take 4 ++ cs.drop 24)
  else none

/-- the digits, in whatever form they are. (`from_str`, used in `/repo/coerce/src/sharding/host/request.rs` 230.) -/
def digits (cs : List Char) : Option (List Char) :=
  if cs.length = 32 then some cs
  else if cs.length = 36 then unhyphen cs
  else if cs.length = 38 ∧ cs[0]? = some '{' ∧ cs[37]? = some '}' then unhyphen ((cs.drop 1).take 36)
  else if cs.length = 45 ∧ cs.take 9 = "urn:uuid:".toList then unhyphen (cs.drop 9)
  else none

/-- `Uuid::from_str` and `Uuid::parse_str`. (used in `/repo/coerce/src/sharding/host/request.rs` 230,
`/repo/coerce/src/sharding/host/mod.rs` 458, `/repo/coerce/src/remote/net/client/receive.rs` 110-138.) -/
def Uuid.parse (s : String) : Option Uuid :=
  match (digits s.toList).bind unhex with
  | some bs => if h : bs.length = 16 then some ⟨bs, h⟩ else none
  | none => none

end Verif.Uuid
