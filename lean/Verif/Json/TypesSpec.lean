import Verif.Json.Types

namespace Verif.Json

def Row.names : Row → List (List Char)
  | .nil => []
  | .cons n _ r => n :: r.names

def Vars.names : Vars → List (List Char)
  | .nil => []
  | .plain n r => n :: r.names
  | .carrying n _ r => n :: r.names

mutual
/-- what the Rust compiler makes sure of: names differ; and the type has a value at all. -/
def Ty.Wf : Ty → Prop
  | .int lo hi => lo ≤ hi
  | .opt t => t.Wf
  | .seq t => t.Wf
  | .tuple ts => ts.Wf
  | .record fs => fs.Wf ∧ fs.names.Nodup
  | .choice vs => vs.Wf ∧ vs.names.Nodup ∧ vs.names ≠ []
  | _ => True

def Row.Wf : Row → Prop
  | .nil => True
  | .cons _ t r => t.Wf ∧ r.Wf

def Vars.Wf : Vars → Prop
  | .nil => True
  | .plain _ r => r.Wf
  | .carrying _ t r => t.Wf ∧ r.Wf
end

/-- types with a value that is written as `null`: `()` and options. -/
def Ty.Nullable : Ty → Prop
  | .unit => True
  | .opt _ => True
  | _ => False

mutual
/-- nowhere an `Option<()>` or an `Option<Option<_>>`. -/
def Ty.Clear : Ty → Prop
  | .opt t => ¬ t.Nullable ∧ t.Clear
  | .seq t => t.Clear
  | .tuple ts => ts.Clear
  | .record fs => fs.Clear
  | .choice vs => vs.Clear
  | _ => True

def Row.Clear : Row → Prop
  | .nil => True
  | .cons _ t r => t.Clear ∧ r.Clear

def Vars.Clear : Vars → Prop
  | .nil => True
  | .plain _ r => r.Clear
  | .carrying _ t r => t.Clear ∧ r.Clear
end

mutual
/-- how deep lists, tuples, structs and variants with data are nested in a value, counted on the value itself. -/
def nest : (t : Ty) → t.den → Nat
  | .opt _, none => 0
  | .opt t, some x => nest t x
  | .seq t, xs => (xs.map (nest t)).foldr max 0 + 1
  | .tuple ts, v => nestRow ts v + 1
  | .record fs, v => nestRow fs v + 1
  | .choice vs, v => nestVars vs v
  | _, _ => 0

def nestRow : (ts : Row) → ts.den → Nat
  | .nil, _ => 0
  | .cons _ t r, (x, v) => max (nest t x) (nestRow r v)

def nestVars : (vs : Vars) → vs.den → Nat
  | .nil, v => nomatch v
  | .plain _ _, .inl _ => 0
  | .plain _ r, .inr v => nestVars r v
  | .carrying _ t _, .inl x => nest t x + 1
  | .carrying _ _ r, .inr v => nestVars r v
end

mutual
/-- the deepest nesting the values of a type can have. -/
def Ty.height : Ty → Nat
  | .opt t => t.height
  | .seq t => t.height + 1
  | .tuple ts => ts.height + 1
  | .record fs => fs.height + 1
  | .choice vs => vs.height
  | _ => 0

def Row.height : Row → Nat
  | .nil => 0
  | .cons _ t r => max t.height r.height

def Vars.height : Vars → Nat
  | .nil => 0
  | .plain _ r => r.height
  | .carrying _ t r => max (t.height + 1) r.height
end

end Verif.Json
