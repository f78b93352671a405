import Verif.Proto.Wire

/-!
# JSON as text

The text format that messages, results and snapshots derived with `#[derive(JsonMessage)]` and
`#[derive(JsonSnapshot)]` use: the generated code calls `serde_json::to_vec` and `serde_json::from_slice`
(`/repo/coerce/macros/src/message/json.rs` 40-55, `/repo/coerce/macros/src/snapshot/json.rs` 10-18). serde_json
is external; its format is modelled here as documented: compact output, escapes of its `ESCAPE` table, a limit of 128 on
the nesting when reading.

Simplifications: numbers are integers (a fraction, an exponent or `-0` is refused); text is read into a tree first and
converted to the type afterwards, where serde_json does both at once.
-/

namespace Verif.Json

/-- bytes (serde_json, called from `/repo/coerce/macros/src/message/json.rs` 40-55). -/
abbrev Bytes := Proto.Bytes

/-- a JSON value. (serde_json, called from `/repo/coerce/macros/src/message/json.rs` 40-55.) -/
inductive Json where
  | null
  | bool (b : Bool)
  | num (i : Int)
  | str (s : List Char)
  | arr (xs : List Json)
  | obj (ms : List (List Char × Json))

/-! ### Writing -/

/-- decimal digits, `itoa`. (serde_json, called from `/repo/coerce/macros/src/message/json.rs` 40-55.) -/
def digit (n : Nat) : Char := Char.ofNat (48 + n)

/-- a number in decimal (serde_json, called from `/repo/coerce/macros/src/message/json.rs` 40-55). -/
def digits (n : Nat) : List Char :=
  if n < 10 then [digit n] else digits (n / 10) ++ [digit (n % 10)]
termination_by n

/-- an integer (serde_json, called from `/repo/coerce/macros/src/message/json.rs` 40-55). -/
def printInt (i : Int) : List Char :=
  if i < 0 then '-' :: digits i.natAbs else digits i.natAbs

/-- lower case hexadecimal digit. (serde_json, called from `/repo/coerce/macros/src/message/json.rs` 40-55.) -/
def hexDigit (n : Nat) : Char := if n < 10 then Char.ofNat (48 + n) else Char.ofNat (87 + n)

/-- `ESCAPE` table and `write_char_escape` of serde_json. (serde_json, called from
`/repo/coerce/macros/src/message/json.rs` 40-55.) -/
def escape (c : Char) : List Char :=
  if c = '"' then ['\\', '"']
  else if c = '\\' then ['\\', '\\']
  else if c.toNat = 8 then ['\\', 'b']
  else if c.toNat = 12 then ['\\', 'f']
  else if c.toNat = 10 then ['\\', 'n']
  else if c.toNat = 13 then ['\\', 'r']
  else if c.toNat = 9 then ['\\', 't']
  else if c.toNat < 32 then ['\\', 'u', '0', '0', hexDigit (c.toNat / 16), hexDigit (c.toNat % 16)]
  else [c]

/-- a string in quotes (serde_json, called from `/repo/coerce/macros/src/message/json.rs` 40-55). -/
def printStr (s : List Char) : List Char := '"' :: (s.flatMap escape ++ ['"'])

mutual
/-- `CompactFormatter`: no white space. (serde_json, called from `/repo/coerce/macros/src/message/json.rs` 40-55.) -/
def print : Json → List Char
  | .null => ['n', 'u', 'l', 'l']
  | .bool true => ['t', 'r', 'u', 'e']
  | .bool false => ['f', 'a', 'l', 's', 'e']
  | .num i => printInt i
  | .str s => printStr s
  | .arr [] => ['[', ']']
  | .arr (x :: xs) => '[' :: (print x ++ printElems xs)
  | .obj [] => ['{', '}']
  | .obj ((k, x) :: ms) => '{' :: (printStr k ++ ':' :: (print x ++ printMembers ms))

/-- the elements after the first, and the closing bracket. (serde_json, called from
`/repo/coerce/macros/src/message/json.rs` 40-55.) -/
def printElems : List Json → List Char
  | [] => [']']
  | x :: xs => ',' :: (print x ++ printElems xs)

/-- the members after the first, and the closing brace (serde_json, called from
`/repo/coerce/macros/src/message/json.rs` 40-55). -/
def printMembers : List (List Char × Json) → List Char
  | [] => ['}']
  | (k, x) :: ms => ',' :: (printStr k ++ ':' :: (print x ++ printMembers ms))
end

/-! ### Reading -/

/-- `parse_whitespace`. (serde_json, called from `/repo/coerce/macros/src/message/json.rs` 40-55.) -/
def skipWs : List Char → List Char
  | [] => []
  | c :: cs => if c = ' ' ∨ c = '\n' ∨ c = '\t' ∨ c = '\r' then skipWs cs else c :: cs

/-- a decimal digit (serde_json, called from `/repo/coerce/macros/src/message/json.rs` 40-55). -/
def isDigit (c : Char) : Bool := 48 ≤ c.toNat && c.toNat ≤ 57

/-- the digits at the front, as a number, continuing with `acc`. (serde_json, called from
`/repo/coerce/macros/src/message/json.rs` 40-55.) -/
def readDigits (acc : Nat) : List Char → Nat × List Char
  | [] => (acc, [])
  | c :: cs => if isDigit c then readDigits (acc * 10 + (c.toNat - 48)) cs else (acc, c :: cs)

/-- an unsigned integer: no leading zeros, nothing that would make it a float. (serde_json, called from
`/repo/coerce/macros/src/message/json.rs` 40-55.) -/
def readNat : List Char → Option (Nat × List Char)
  | [] => none
  | c :: cs =>
    if isDigit c then
      let (n, r) := readDigits 0 (c :: cs)
      if c = '0' ∧ (cs.head?.any isDigit) then none
      else if r.head?.any (fun x => x = '.' ∨ x = 'e' ∨ x = 'E') then none
      else some (n, r)
    else none

/-- the value of a hexadecimal digit (serde_json, called from `/repo/coerce/macros/src/message/json.rs` 40-55). -/
def hexVal (c : Char) : Option Nat :=
  if 48 ≤ c.toNat ∧ c.toNat ≤ 57 then some (c.toNat - 48)
  else if 97 ≤ c.toNat ∧ c.toNat ≤ 102 then some (c.toNat - 87)
  else if 65 ≤ c.toNat ∧ c.toNat ≤ 70 then some (c.toNat - 55)
  else none

/-- `decode_hex_escape`: four hexadecimal digits. (serde_json, called from `/repo/coerce/macros/src/message/json.rs`
40-55.) -/
def readHex4 : List Char → Option (Nat × List Char)
  | a :: b :: c :: d :: r =>
    match hexVal a, hexVal b, hexVal c, hexVal d with
    | some a, some b, some c, some d => some (((a * 16 + b) * 16 + c) * 16 + d, r)
    | _, _, _, _ => none
  | _ => none

/-- what follows `\u`: one code unit, or two that form a surrogate pair. (serde_json, called from
`/repo/coerce/macros/src/message/json.rs` 40-55.) -/
def readUnicode (cs : List Char) : Option (Char × List Char) :=
  match readHex4 cs with
  | none => none
  | some (n, r) =>
    if 0xDC00 ≤ n ∧ n ≤ 0xDFFF then none
    else if 0xD800 ≤ n ∧ n ≤ 0xDBFF then
      match r with
      | '\\' :: 'u' :: r' =>
        match readHex4 r' with
        | some (m, r'') =>
          if 0xDC00 ≤ m ∧ m ≤ 0xDFFF then some (Char.ofNat (0x10000 + (n - 0xD800) * 0x400 + (m - 0xDC00)), r'') else none
        | none => none
      | _ => none
    else some (Char.ofNat n, r)

/-- `parse_escape`, after the backslash. (serde_json, called from `/repo/coerce/macros/src/message/json.rs` 40-55.) -/
def readEscape : List Char → Option (Char × List Char)
  | '"' :: r => some ('"', r)
  | '\\' :: r => some ('\\', r)
  | '/' :: r => some ('/', r)
  | 'b' :: r => some (Char.ofNat 8, r)
  | 'f' :: r => some (Char.ofNat 12, r)
  | 'n' :: r => some (Char.ofNat 10, r)
  | 'r' :: r => some (Char.ofNat 13, r)
  | 't' :: r => some (Char.ofNat 9, r)
  | 'u' :: r => readUnicode r
  | _ => none

/-- the rest of a string, after the opening quote; control characters are refused. `fuel` bounds the number of
characters. (serde_json, called from `/repo/coerce/macros/src/message/json.rs` 40-55.) -/
def readStr : Nat → List Char → Option (List Char × List Char)
  | 0, _ => none
  | _, [] => none
  | f + 1, c :: cs =>
    if c = '"' then some ([], cs)
    else if c = '\\' then
      match readEscape cs with
      | none => none
      | some (x, r) => (readStr f r).map fun (s, r') => (x :: s, r')
    else if c.toNat < 32 then none
    else (readStr f cs).map fun (s, r') => (c :: s, r')

/-- the text at the front, if it is `w`. (serde_json, called from `/repo/coerce/macros/src/message/json.rs` 40-55.) -/
def expect (w : List Char) (cs : List Char) : Option (List Char) :=
  if w.isPrefixOf cs then some (cs.drop w.length) else none

mutual
/-- `Deserializer::parse_any_value`; `depth` is `remaining_depth`, 128 at the start: entering an array or an object
takes one, and with none left the text is refused. `fuel` bounds the recursion; the length of the text suffices.
(serde_json, called from `/repo/coerce/macros/src/message/json.rs` 40-55.) -/
def readValue : Nat → Nat → List Char → Option (Json × List Char)
  | 0, _, _ => none
  | f + 1, depth, cs =>
    match skipWs cs with
    | 'n' :: r => (expect ['u', 'l', 'l'] r).map fun r => (.null, r)
    | 't' :: r => (expect ['r', 'u', 'e'] r).map fun r => (.bool true, r)
    | 'f' :: r => (expect ['a', 'l', 's', 'e'] r).map fun r => (.bool false, r)
    | '"' :: r => (readStr (r.length + 1) r).map fun (s, r) => (.str s, r)
    | '-' :: r => (readNat r).bind fun (n, r) => if n = 0 then none else some (.num (-(n : Int)), r)
    | '[' :: r =>
      if depth ≤ 1 then none else
      match skipWs r with
      | ']' :: r => some (.arr [], r)
      | r => (readValue f (depth - 1) r).bind fun (x, r) =>
        (readElems f (depth - 1) r).map fun (xs, r) => (.arr (x :: xs), r)
    | '{' :: r =>
      if depth ≤ 1 then none else
      match skipWs r with
      | '}' :: r => some (.obj [], r)
      | r => (readMember f (depth - 1) r).bind fun (m, r) =>
        (readMembers f (depth - 1) r).map fun (ms, r) => (.obj (m :: ms), r)
    | r => (readNat r).map fun (n, r) => (.num n, r)

/-- what follows an element of an array. (serde_json, called from `/repo/coerce/macros/src/message/json.rs` 40-55.) -/
def readElems : Nat → Nat → List Char → Option (List Json × List Char)
  | 0, _, _ => none
  | f + 1, depth, cs =>
    match skipWs cs with
    | ']' :: r => some ([], r)
    | ',' :: r => (readValue f depth r).bind fun (x, r) =>
      (readElems f depth r).map fun (xs, r) => (x :: xs, r)
    | _ => none

/-- name, colon, value. (serde_json, called from `/repo/coerce/macros/src/message/json.rs` 40-55.) -/
def readMember : Nat → Nat → List Char → Option ((List Char × Json) × List Char)
  | 0, _, _ => none
  | f + 1, depth, cs =>
    match skipWs cs with
    | '"' :: r => (readStr (r.length + 1) r).bind fun (k, r) =>
      match skipWs r with
      | ':' :: r => (readValue f depth r).map fun (x, r) => ((k, x), r)
      | _ => none
    | _ => none

/-- what follows a member of an object. (serde_json, called from `/repo/coerce/macros/src/message/json.rs` 40-55.) -/
def readMembers : Nat → Nat → List Char → Option (List (List Char × Json) × List Char)
  | 0, _, _ => none
  | f + 1, depth, cs =>
    match skipWs cs with
    | '}' :: r => some ([], r)
    | ',' :: r => (readMember f depth r).bind fun (m, r) =>
      (readMembers f depth r).map fun (ms, r) => (m :: ms, r)
    | _ => none
end

/-- `from_slice`: one value and nothing after it (`Deserializer::end`). (serde_json, called from
`/repo/coerce/macros/src/message/json.rs` 40-55.) -/
def parse (cs : List Char) : Option Json :=
  (readValue (2 * cs.length + 2) 128 cs).bind fun (j, r) => if skipWs r = [] then some j else none

/-- the bytes of a text, and back. (serde_json, called from `/repo/coerce/macros/src/message/json.rs` 40-55.) -/
def toBytes (cs : List Char) : Bytes := Proto.strBytes (String.ofList cs)

/-- text from bytes, if they are UTF-8 (serde_json, called from `/repo/coerce/macros/src/message/json.rs` 40-55). -/
def ofBytes (bs : Bytes) : Option (List Char) := (Proto.bytesStr bs).map String.toList

end Verif.Json
