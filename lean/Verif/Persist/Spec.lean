import Verif.Persist.Model

/-! Specifications for the persistence properties: what a history of operations of one actor ought to
leave behind for recovery. They mention neither sequence numbers nor storage. -/

namespace Verif.Persist

/-- no storage call failed after having stored. -/
def Op.Honest : Op → Prop
  | .persist _ o => o ≠ .lostAck
  | .batch _ o => o ≠ .lostAck
  | .snapshot _ o => o ≠ .lostAck
  | .trim _ => True
  | .restart _ => True

/-- the messages an operation got acknowledged. -/
def Op.acked : Op → List Payload
  | .persist p .ok => [p]
  | .batch ps .ok => ps
  | _ => []

/-- the messages an operation left in the storage, acknowledged or not. -/
def Op.kept : Op → List Payload
  | .persist p .ok => [p]
  | .persist p .lostAck => [p]
  | .batch ps .ok => ps
  | .batch ps .lostAck => ps
  | _ => []

def Op.isSnapshot : Op → Bool
  | .snapshot _ _ => true
  | _ => false

/-- an operation that writes a single message. -/
def Op.isSingle : Op → Bool
  | .persist _ _ => true
  | _ => false

/-- the history of one actor inside a history of many. -/
def own (pid : String) (ops : List (String × Op)) : List Op :=
  (ops.filter fun x => x.1 = pid).map (·.2)

/-- the state an actor expects to be rebuilt from: a snapshot and the messages after it. -/
structure View where
  snap : Option Payload
  msgs : List Payload
deriving DecidableEq, Repr

def View.empty : View := ⟨none, []⟩

/-- What users expect: an acknowledged snapshot replaces everything before, acknowledged messages are
added at the end, nothing else matters. -/
def View.step (v : View) : Op → View
  | .persist p .ok => { v with msgs := v.msgs ++ [p] }
  | .batch ps .ok => { v with msgs := v.msgs ++ ps }
  | .snapshot p .ok => ⟨some p, []⟩
  | _ => v

def View.run (v : View) (ops : List Op) : View := ops.foldl View.step v

/-- what an actor with handlers `K` is handed from a view: the snapshot if it knows its type, and the
messages it knows the types of (`none` when there are none). -/
def View.seen (K : Known) (v : View) : Recovered :=
  let ms := v.msgs.filter fun p => K.message p.ptype
  ⟨v.snap.filter fun p => K.snapshot p.ptype, if ms = [] then none else some ms⟩

/-- What the in-memory journal really gives back. `armed`: the last thing numbered was a snapshot. A
single message persisted in that state is lost. -/
structure MemView where
  view : View
  armed : Bool
deriving DecidableEq, Repr

def MemView.empty : MemView := ⟨.empty, false⟩

def MemView.step (m : MemView) : Op → MemView
  | .persist p .ok => if m.armed then { m with armed := false } else { m with view := m.view.step (.persist p .ok) }
  | .batch ps .ok => if ps = [] then m else ⟨m.view.step (.batch ps .ok), false⟩
  | .snapshot p .ok => ⟨m.view.step (.snapshot p .ok), true⟩
  | .restart _ => { m with armed := m.view.snap.isSome && m.view.msgs.isEmpty }
  | _ => m

def MemView.run (m : MemView) (ops : List Op) : MemView := ops.foldl MemView.step m

/-- Histories in which the first message written after each acknowledged snapshot is written by
`persist_batch`. `flag` = a snapshot was taken and no batch written since. -/
def BatchAfterSnapshot : Bool → List Op → Bool
  | _, [] => true
  | flag, op :: ops =>
    match op with
    | .persist _ .ok => !flag && BatchAfterSnapshot flag ops
    | .batch ps .ok => BatchAfterSnapshot (flag && ps.isEmpty) ops
    | .snapshot _ .ok => BatchAfterSnapshot true ops
    | _ => BatchAfterSnapshot flag ops

/-- Redis: what makes a history unsafe. `dup`: the counter equals the number of the newest stored
message, so a single message would share it. `edge`: a message carries the number of the newest
snapshot, so that trimming would remove it. -/
structure RedisFlags where
  view : View
  dup : Bool
  edge : Bool
deriving DecidableEq, Repr

def RedisFlags.empty : RedisFlags := ⟨.empty, false, false⟩

def RedisFlags.step (r : RedisFlags) (op : Op) : RedisFlags :=
  match op with
  | .persist p .ok => ⟨r.view.step (.persist p .ok), false, r.edge || r.view.msgs.isEmpty⟩
  | .batch ps .ok => if ps = [] then r else ⟨r.view.step (.batch ps .ok), true, r.edge⟩
  | .snapshot p .ok => ⟨r.view.step (.snapshot p .ok), false, false⟩
  | .restart _ => { r with dup := !r.view.msgs.isEmpty }
  | _ => r

/-- the operation is one of the two unsafe ones. -/
def RedisFlags.safe (r : RedisFlags) : Op → Bool
  | .persist _ .ok => !r.dup
  | .trim .rejected => true
  | .trim _ => r.view.snap.isNone || !r.edge
  | _ => true

def RedisSafe : RedisFlags → List Op → Bool
  | _, [] => true
  | r, op :: ops => r.safe op && RedisSafe (r.step op) ops

end Verif.Persist
