import Verif.Json.Text
import Verif.Remote.RefModel

/-!
# Types and their JSON

What `#[derive(Serialize, Deserialize)]` and serde_json make of the types that messages are built from. serde is
external; its data format is modelled as documented. A type is described by `Ty` and its values are those of the Lean type
`Ty.den`, so that a value always fits its type.

Simplifications: no floating point numbers, maps or attributes (`#[serde(…)]`); members of an object that are not fields
are read like all others, where serde_json skips them (and there accepts any number, any depth and lone surrogates).
-/

namespace Verif.Json

mutual
/-- the types of messages and results (serde, called from `/repo/coerce/macros/src/message/json.rs` 40-55). -/
inductive Ty where
  | unit
  | bool
  /-- an integer type by its range. -/
  | int (lo hi : Int)
  | str
  | opt (t : Ty)
  | seq (t : Ty)
  | tuple (ts : Row)
  | record (fs : Row)
  | choice (vs : Vars)

/-- fields by name (the names of a tuple's components are not used). (serde, called from
`/repo/coerce/macros/src/message/json.rs` 40-55.) -/
inductive Row where
  | nil
  | cons (name : List Char) (t : Ty) (rest : Row)

/-- variants of an `enum`; a variant with several fields carries a tuple or record. (serde, called from
`/repo/coerce/macros/src/message/json.rs` 40-55.) -/
inductive Vars where
  | nil
  | plain (name : List Char) (rest : Vars)
  | carrying (name : List Char) (t : Ty) (rest : Vars)
end

mutual
/-- the values of a type. (serde, called from `/repo/coerce/macros/src/message/json.rs` 40-55.) -/
def Ty.den : Ty → Type
  | .unit => Unit
  | .bool => Bool
  | .int lo hi => { i : Int // lo ≤ i ∧ i ≤ hi }
  | .str => List Char
  | .opt t => Option t.den
  | .seq t => List t.den
  | .tuple ts => ts.den
  | .record fs => fs.den
  | .choice vs => vs.den

/-- the values of a tuple or a record (serde, called from `/repo/coerce/macros/src/message/json.rs` 40-55). -/
def Row.den : Row → Type
  | .nil => Unit
  | .cons _ t r => t.den × r.den

/-- the values of an `enum` (serde, called from `/repo/coerce/macros/src/message/json.rs` 40-55). -/
def Vars.den : Vars → Type
  | .nil => Empty
  | .plain _ r => Unit ⊕ r.den
  | .carrying _ t r => t.den ⊕ r.den
end

mutual
/-- `Serialize`. (serde, called from `/repo/coerce/macros/src/message/json.rs` 40-55.) -/
def ser : (t : Ty) → t.den → Json
  | .unit, _ => .null
  | .bool, b => .bool b
  | .int _ _, i => .num i.1
  | .str, s => .str s
  | .opt _, none => .null
  | .opt t, some x => ser t x
  | .seq t, xs => .arr (xs.map (ser t))
  | .tuple ts, v => .arr (serTuple ts v)
  | .record fs, v => .obj (serFields fs v)
  | .choice vs, v => serVars vs v

/-- the components of a tuple (serde, called from `/repo/coerce/macros/src/message/json.rs` 40-55). -/
def serTuple : (ts : Row) → ts.den → List Json
  | .nil, _ => []
  | .cons _ t r, (x, v) => ser t x :: serTuple r v

/-- the fields of a record (serde, called from `/repo/coerce/macros/src/message/json.rs` 40-55). -/
def serFields : (fs : Row) → fs.den → List (List Char × Json)
  | .nil, _ => []
  | .cons n t r, (x, v) => (n, ser t x) :: serFields r v

/-- externally tagged: a plain variant is its name, another an object with one member. (serde, called from
`/repo/coerce/macros/src/message/json.rs` 40-55.) -/
def serVars : (vs : Vars) → vs.den → Json
  | .nil, v => nomatch v
  | .plain n _, .inl _ => .str n
  | .plain _ r, .inr v => serVars r v
  | .carrying n t _, .inl x => .obj [(n, ser t x)]
  | .carrying _ _ r, .inr v => serVars r v
end

/-- the members of an object that have a name. (serde, called from `/repo/coerce/macros/src/message/json.rs` 40-55.)
-/
def members (n : List Char) (ms : List (List Char × Json)) : List Json :=
  (ms.filter fun m => decide (m.1 = n)).map Prod.snd

/-- `missing_field`: only an `Option` may be left out. (serde, called from `/repo/coerce/macros/src/message/json.rs`
40-55.) -/
def missing : (t : Ty) → Option t.den
  | .opt _ => some none
  | _ => none

/-- `null` (serde, called from `/repo/coerce/macros/src/message/json.rs` 40-55). -/
def Json.isNull : Json → Bool
  | .null => true
  | _ => false

/-- a Boolean (serde, called from `/repo/coerce/macros/src/message/json.rs` 40-55). -/
def Json.asBool : Json → Option Bool
  | .bool b => some b
  | _ => none

/-- an integer (serde, called from `/repo/coerce/macros/src/message/json.rs` 40-55). -/
def Json.asInt : Json → Option Int
  | .num i => some i
  | _ => none

/-- a string (serde, called from `/repo/coerce/macros/src/message/json.rs` 40-55). -/
def Json.asStr : Json → Option (List Char)
  | .str s => some s
  | _ => none

/-- an array (serde, called from `/repo/coerce/macros/src/message/json.rs` 40-55). -/
def Json.asArr : Json → Option (List Json)
  | .arr xs => some xs
  | _ => none

/-- an object (serde, called from `/repo/coerce/macros/src/message/json.rs` 40-55). -/
def Json.asObj : Json → Option (List (List Char × Json))
  | .obj ms => some ms
  | _ => none

/-- name and data of a variant: a string, or an object with one member. (serde, called from
`/repo/coerce/macros/src/message/json.rs` 40-55.) -/
def tagged : Json → Option (List Char × Option Json)
  | .str s => some (s, none)
  | .obj [(k, x)] => some (k, some x)
  | _ => none

mutual
/-- `Deserialize`. A struct may come as an array too (`visit_seq`): then all its fields must be there, in order. (serde,
called from `/repo/coerce/macros/src/message/json.rs` 40-55.) -/
def de : (t : Ty) → Json → Option t.den
  | .unit, j => if j.isNull then some () else none
  | .bool, j => j.asBool
  | .int lo hi, j => j.asInt.bind fun i => if h : lo ≤ i ∧ i ≤ hi then some ⟨i, h⟩ else none
  | .str, j => j.asStr
  | .opt t, j => if j.isNull then some none else (de t j).map some
  | .seq t, j => j.asArr.bind fun xs => xs.mapM (de t)
  | .tuple ts, j => j.asArr.bind (deTuple ts)
  | .record fs, j => match j.asArr with
    | some xs => deTuple fs xs
    | none => j.asObj.bind (deFields fs)
  | .choice vs, j => deVars vs j

/-- as many elements as the tuple has. (serde, called from `/repo/coerce/macros/src/message/json.rs` 40-55.) -/
def deTuple : (ts : Row) → List Json → Option ts.den
  | .nil, [] => some ()
  | .cons _ t r, x :: xs => (de t x).bind fun a => (deTuple r xs).map fun v => (a, v)
  | _, _ => none

/-- each field is looked up by name: given twice is an error, members of other names are ignored. (serde, called from
`/repo/coerce/macros/src/message/json.rs` 40-55.) -/
def deFields : (fs : Row) → List (List Char × Json) → Option fs.den
  | .nil, _ => some ()
  | .cons n t r, ms =>
    match members n ms with
    | [] => (missing t).bind fun a => (deFields r ms).map fun v => (a, v)
    | [x] => (de t x).bind fun a => (deFields r ms).map fun v => (a, v)
    | _ => none

/-- the variant of that name (serde, called from `/repo/coerce/macros/src/message/json.rs` 40-55). -/
def deVars : (vs : Vars) → Json → Option vs.den
  | .nil, _ => none
  | .plain n r, j => match tagged j with
    | some (k, x) => if k = n then (if (x.getD .null).isNull then some (.inl ()) else none) else (deVars r j).map .inr
    | none => none
  | .carrying n t r, j => match tagged j with
    | some (k, x) => if k = n then (x.bind (de t)).map .inl else (deVars r j).map .inr
    | none => none
end

/-! ### The derived functions -/

/-- `serde_json::to_vec`; it does not fail for these types. (serde, called from
`/repo/coerce/macros/src/message/json.rs` 40-55.) -/
def toVec (t : Ty) (v : t.den) : Bytes := toBytes (print (ser t v))

/-- `serde_json::from_slice`. (serde, called from `/repo/coerce/macros/src/message/json.rs` 40-55.) -/
def fromSlice (t : Ty) (bs : Bytes) : Option t.den := ((ofBytes bs).bind parse).bind (de t)

/-- `map_err(|_e| DeserializationErr)`. (serde, called from `/repo/coerce/macros/src/message/json.rs` 40-55.) -/
def orErr {α : Type} : Option α → Except Remote.UnwrapErr α
  | some x => .ok x
  | none => .error .deserializationErr

/-- `#[derive(JsonMessage)] #[result(r)]` on a message of type `t`, `/repo/coerce/macros/src/message/json.rs` 36-57:
`as_bytes` 40-43, `from_bytes` 45-47, `read_remote_result` 49-51, `write_remote_result` 53-55. -/
def jsonMessage (t r : Ty) : Remote.MsgType t.den r.den where
  asBytes v := .ok (toVec t v)
  fromBytes bs := orErr (fromSlice t bs)
  writeResult v := .ok (toVec r v)
  readResult bs := orErr (fromSlice r bs)

/-- `into_remote_envelope` of `#[derive(JsonSnapshot)]`, `/repo/coerce/macros/src/snapshot/json.rs` 10-14. -/
def writeSnapshot (t : Ty) (v : t.den) : Bytes := toVec t v

/-- `from_remote_envelope`, `/repo/coerce/macros/src/snapshot/json.rs` 16-18. -/
def readSnapshot (t : Ty) (bs : Bytes) : Except Remote.UnwrapErr t.den := orErr (fromSlice t bs)

end Verif.Json
