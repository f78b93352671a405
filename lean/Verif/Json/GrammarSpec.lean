import Verif.Json.TypesSpec
import Verif.Json.TextLemmas

/-!
# What a JSON text means, and what a type makes of it

The grammar of JSON (RFC 8259, with integers as the only numbers), written down as a relation between values and the
texts that stand for them, and a relation between types, values of them and JSON. Nothing here is taken from the reader.
-/

namespace Verif.Json

/-- white space. -/
def Blank (w : List Char) : Prop := ∀ c ∈ w, c = ' ' ∨ c = '\t' ∨ c = '\n' ∨ c = '\r'

/-- the number that a sequence of digits stands for. -/
def decimal (ds : List Char) : Nat := ds.foldl (fun a c => 10 * a + (c.toNat - 48)) 0

/-- digits without a leading zero. -/
def NatText (n : Nat) (cs : List Char) : Prop :=
  cs ≠ [] ∧ (∀ c ∈ cs, 48 ≤ c.toNat ∧ c.toNat ≤ 57) ∧ (cs.head? = some '0' → cs = ['0']) ∧ decimal cs = n

/-- an integer; `-0` is none. -/
def NumText (i : Int) (cs : List Char) : Prop :=
  (∃ n : Nat, i = n ∧ NatText n cs) ∨ (∃ (n : Nat) (r : List Char), i = -(n : Int) ∧ n ≠ 0 ∧ cs = '-' :: r ∧ NatText n r)

/-- a hexadecimal digit in either case. -/
def HexText (v : Nat) (c : Char) : Prop :=
  "0123456789abcdef".toList[v]? = some c ∨ "0123456789ABCDEF".toList[v]? = some c

/-- four hexadecimal digits. -/
def UnitText (n : Nat) (cs : List Char) : Prop :=
  ∃ a b c d x y z u, cs = [a, b, c, d] ∧ HexText x a ∧ HexText y b ∧ HexText z c ∧ HexText u d ∧
    n = x * 4096 + y * 256 + z * 16 + u

/-- the escapes of two characters. -/
def shortEscapes : List (Char × Char) :=
  [('"', '"'), ('\\', '\\'), ('/', '/'), ('b', Char.ofNat 8), ('f', Char.ofNat 12), ('n', '\n'), ('r', '\r'), ('t', '\t')]

/-- the ways to write a character in a string: as itself, by a short escape, by its number, or, beyond the first
plane, by two surrogates. -/
inductive CharText : Char → List Char → Prop
  | plain (c : Char) : c ≠ '"' → c ≠ '\\' → 32 ≤ c.toNat → CharText c [c]
  | short (e c : Char) : (e, c) ∈ shortEscapes → CharText c ['\\', e]
  | unit (c : Char) (cs : List Char) : UnitText c.toNat cs → CharText c ('\\' :: 'u' :: cs)
  | pair (c : Char) (n m : Nat) (hi lo : List Char) : UnitText (0xD800 + n) hi → UnitText (0xDC00 + m) lo → n < 0x400 →
      m < 0x400 → c.toNat = 0x10000 + n * 0x400 + m → CharText c ('\\' :: 'u' :: (hi ++ '\\' :: 'u' :: lo))

/-- the characters of a string one after the other. -/
inductive StrText : List Char → List Char → Prop
  | nil : StrText [] []
  | cons (c : Char) (s t u : List Char) : CharText c t → StrText s u → StrText (c :: s) (t ++ u)

mutual
/-- `Text j cs`: `cs` is one of the texts that stand for `j`. -/
def Text : Json → List Char → Prop
  | .null, cs => cs = "null".toList
  | .bool b, cs => cs = (if b then "true" else "false").toList
  | .num i, cs => NumText i cs
  | .str s, cs => ∃ t, StrText s t ∧ cs = '"' :: (t ++ ['"'])
  | .arr [], cs => ∃ w, Blank w ∧ cs = '[' :: (w ++ [']'])
  | .arr (x :: xs), cs => ∃ w t w' r, Blank w ∧ Text x t ∧ Blank w' ∧ ElemsText xs r ∧ cs = '[' :: (w ++ t ++ w' ++ r)
  | .obj [], cs => ∃ w, Blank w ∧ cs = '{' :: (w ++ ['}'])
  | .obj ((k, x) :: ms), cs => ∃ w s w₁ w₂ t w' r, Blank w ∧ StrText k s ∧ Blank w₁ ∧ Blank w₂ ∧ Text x t ∧ Blank w' ∧
      MembersText ms r ∧ cs = '{' :: (w ++ '"' :: (s ++ '"' :: (w₁ ++ ':' :: (w₂ ++ t ++ w' ++ r))))

/-- the elements that follow, each after a comma, and the closing bracket. -/
def ElemsText : List Json → List Char → Prop
  | [], cs => cs = [']']
  | x :: xs, cs => ∃ w t w' r, Blank w ∧ Text x t ∧ Blank w' ∧ ElemsText xs r ∧ cs = ',' :: (w ++ t ++ w' ++ r)

/-- the members that follow, each after a comma, and the closing brace. -/
def MembersText : List (List Char × Json) → List Char → Prop
  | [], cs => cs = ['}']
  | (k, x) :: ms, cs => ∃ w s w₁ w₂ t w' r, Blank w ∧ StrText k s ∧ Blank w₁ ∧ Blank w₂ ∧ Text x t ∧ Blank w' ∧
      MembersText ms r ∧ cs = ',' :: (w ++ '"' :: (s ++ '"' :: (w₁ ++ ':' :: (w₂ ++ t ++ w' ++ r))))
end

/-- a document: one value, with white space around it. -/
def Document (j : Json) (cs : List Char) : Prop := ∃ w t w', Blank w ∧ Text j t ∧ Blank w' ∧ cs = w ++ t ++ w'

/-- two lists related place by place. -/
def Each {α β : Type} (R : α → β → Prop) : List α → List β → Prop
  | [], [] => True
  | a :: as, b :: bs => R a b ∧ Each R as bs
  | _, _ => False

/-- the value of a field that is not given. -/
def Absent : (t : Ty) → t.den → Prop
  | .opt _, none => True
  | _, _ => False

mutual
/-- `Shape t j v`: the JSON value `j` is one of those that stand for the value `v` of type `t`. -/
def Shape : (t : Ty) → Json → t.den → Prop
  | .unit, j, _ => j = .null
  | .bool, j, b => j = .bool b
  | .int _ _, j, i => j = .num i.1
  | .str, j, s => j = .str s
  | .opt _, j, none => j = .null
  | .opt t, j, some x => j ≠ .null ∧ Shape t j x
  | .seq t, j, xs => ∃ js, j = .arr js ∧ Each (Shape t) js xs
  | .tuple ts, j, v => ∃ js, j = .arr js ∧ ShapeTuple ts js v
  | .record fs, j, v => (∃ ms, j = .obj ms ∧ ShapeFields fs ms v) ∨ (∃ js, j = .arr js ∧ ShapeTuple fs js v)
  | .choice vs, j, v => ShapeVars vs j v

/-- an element for each component. -/
def ShapeTuple : (ts : Row) → List Json → ts.den → Prop
  | .nil, js, _ => js = []
  | .cons _ t r, js, (x, v) => ∃ j js', js = j :: js' ∧ Shape t j x ∧ ShapeTuple r js' v

/-- for each field one member of its name, or none if it may be absent; other members do not matter. -/
def ShapeFields : (fs : Row) → List (List Char × Json) → fs.den → Prop
  | .nil, _, _ => True
  | .cons n t r, ms, (x, v) =>
    ((∃ pre j post, ms = pre ++ (n, j) :: post ∧ n ∉ pre.map Prod.fst ∧ n ∉ post.map Prod.fst ∧ Shape t j x) ∨
      (n ∉ ms.map Prod.fst ∧ Absent t x)) ∧ ShapeFields r ms v

/-- the name alone for a variant without data, or an object with the name and the data as its one member. -/
def ShapeVars : (vs : Vars) → Json → vs.den → Prop
  | .nil, _, v => nomatch v
  | .plain n _, j, .inl _ => j = .str n ∨ j = .obj [(n, .null)]
  | .plain _ r, j, .inr v => ShapeVars r j v
  | .carrying n t _, j, .inl x => ∃ d, j = .obj [(n, d)] ∧ Shape t d x
  | .carrying _ _ r, j, .inr v => ShapeVars r j v
end

end Verif.Json
