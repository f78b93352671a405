/-!
# The result type of a derived message

`#[derive(JsonMessage)]` takes the result type of the message from the attribute `#[result(…)]`. The syntax trees are
those of the crate syn (external); `parseTy` is `syn::parse_str::<syn::Type>`.
-/

namespace Verif.Json

/-- a literal; only strings matter. (`/repo/coerce/macros/src/lib.rs` 66-92.) -/
inductive Lit where
  | str (s : String)
  | other

mutual
/-- `syn::Meta`; a path by its segments. (`/repo/coerce/macros/src/lib.rs` 28-92.) -/
inductive Meta where
  | path (segs : List String)
  | nameValue (segs : List String) (lit : Lit)
  | list (segs : List String) (nested : List Nested)

/-- `syn::NestedMeta`. (`/repo/coerce/macros/src/lib.rs` 66-92.) -/
inductive Nested where
  | tree (m : Meta)
  | lit (l : Lit)
end

/-- the errors of `/repo/coerce/macros/src/lib.rs` 28-92. -/
inductive AttrErr where
  | expected
  | syntaxErr
  | count (n : Nat)
deriving DecidableEq

/-- the path of a `Meta`, `/repo/coerce/macros/src/lib.rs` 32-47. -/
def Meta.segs : Meta → List String
  | .path s => s
  | .nameValue s _ => s
  | .list s _ => s

/-- `Path::get_ident`: a path of one segment. (`/repo/coerce/macros/src/lib.rs` 32-47.) -/
def getIdent : List String → Option String
  | [x] => some x
  | _ => none

variable {T : Type}

/-- `meta_item_to_ty`, `/repo/coerce/macros/src/lib.rs` 66-92; `none`: an error. -/
def metaItemToTy (parseTy : String → Option T) : Nested → Option T
  | .tree (.path segs) => match getIdent segs with
    | some x => parseTy x
    | none => none
  | .tree (.nameValue segs l) => match getIdent segs with
    | some "result" => match l with
      | .str s => parseTy s
      | .other => none
    | _ => none
  | .lit (.str s) => parseTy s
  | _ => none

/-- the first attribute with the name; one that cannot be parsed is passed over
(`/repo/coerce/macros/src/lib.rs` 32-47). -/
def findAttr (name : String) : List (Option Meta) → Option Meta
  | [] => none
  | some m :: r => if getIdent m.segs = some name then some m else findAttr name r
  | none :: r => findAttr name r

/-- `get_attribute_type_multiple`, `/repo/coerce/macros/src/lib.rs` 28-64. -/
def getAttributeTypeMultiple (parseTy : String → Option T) (attrs : List (Option Meta)) (name : String) :
    Except AttrErr (List (Option T)) :=
  match findAttr name attrs with
  | none => .error .expected
  | some (.list _ nested) => .ok (nested.map (metaItemToTy parseTy))
  | some _ => .error .syntaxErr

/-- the choice of the result type in `expand`, `/repo/coerce/macros/src/message/json.rs` 9-27 and 32-34; an error is a
compile error. `unit` is the type `()`. -/
def resultType (parseTy : String → Option T) (unit : T) (attrs : List (Option Meta)) : Except AttrErr T :=
  match getAttributeTypeMultiple parseTy attrs "result" with
  | .error e => .error e
  | .ok [t] => .ok (t.getD unit)
  | .ok ts => .error (.count ts.length)

/-! ### What the author of a message wrote -/

/-- the text of a type inside the attribute: a path with its `::`, or the string. (`/repo/coerce/macros/src/lib.rs`
66-92.) -/
def Nested.text : Nested → Option String
  | .tree (.path segs) => some ("::".intercalate segs)
  | .tree (.nameValue ["result"] (.str s)) => some s
  | .lit (.str s) => some s
  | _ => none

/-- the types that the first `#[result(…)]` of a declaration names, `none` for something that is not a type. (What
`/repo/coerce/macros/src/lib.rs` 28-64 is for.) -/
def declared (parseTy : String → Option T) (attrs : List (Option Meta)) : Option (List (Option T)) :=
  match attrs.filterMap id |>.find? (fun m => m.segs = ["result"]) with
  | some (.list _ ns) => some (ns.map fun n => n.text.bind parseTy)
  | _ => none

end Verif.Json
