import Verif.Actor.BlockingModel
import Verif.Actor.Spec

/-! What may be expected of a blocking call: what the same call gives when it is awaited. -/

namespace Verif.Actor.Blocking

variable {S M R : Type}

/-- the same history with every call awaited -/
def Op.awaited : Op M → Op M
  | .call c _ k => .call c none k
  | op => op

/-- The call is made where tokio lets it wait: never from a task of the runtime, and creating an actor only from a
thread that has entered the runtime. -/
def Op.wellPlaced : Op M → Prop
  | .call _ (some t) (.create _) => t = .entered
  | .call _ (some t) (.send _ _) => t ≠ .inside
  | .call _ (some t) (.stop _) => t ≠ .inside
  | _ => True

/-- an actor is created from a thread that knows of no runtime -/
def Op.createsOutside : Op M → Prop
  | .call _ (some .outside) (.create _) => True
  | _ => False

/-- what a history has asked under number `c`, and of whom -/
def asks (c : Nat) (k : Kind M) (ops : List (Op M)) : Prop := ∃ t, Op.call c t k ∈ ops

/-- the request that is made under number `c`, and the actor it is made to -/
def Kind.item (c : Nat) : Kind M → Option (Nat × Item M)
  | .send a b => some (a, ⟨c, b, true⟩)
  | .stop a => some (a, ⟨c, .stop true, false⟩)
  | .tell a b => some (a, ⟨c, b, false⟩)
  | .create _ => none

/-- actor `a` has done `e` -/
def Sys.seen (σ : Sys S M R) (a : Nat) (e : Ev M R) : Prop := ∃ st, σ.acts a = some st ∧ e ∈ st.log

/-- When call `c` may return `o`: the actor asked has answered that, has dropped the request, had gone before the
request came, has ended, or has come up, whatever was asked for. -/
def Truth (σ : Sys S M R) (ops : List (Op M)) (c : Nat) : Outcome R → Prop
  | .result r => ∃ a b, asks c (.send a b) ops ∧ σ.seen a (.replied c r)
  | .closed => ∃ a b, asks c (.send a b) ops ∧ σ.seen a (.lost c)
  | .invalid => (∃ k a i, asks c k ops ∧ k.item c = some (a, i) ∧ σ.seen a (.refused i))
      ∨ ∃ a, asks c (.stop a) ops ∧ σ.seen a (.ackLost c)
  | .ok => (∃ a b, asks c (.tell a b) ops ∧ σ.seen a (.accepted ⟨c, b, false⟩))
      ∨ ∃ a, asks c (.stop a) ops ∧ σ.seen a (.ack c)
  | .ref j => asks c (.create j) ops ∧ σ.seen j .up
  | .startFailed => ∃ j, asks c (.create j) ops ∧ σ.seen j .startFailed

/-- the two systems differ in nothing but the callers -/
def SameActors (σ τ : Sys S M R) : Prop :=
  σ.acts = τ.acts ∧ σ.queue = τ.queue ∧ σ.up = τ.up ∧ σ.reg = τ.reg

end Verif.Actor.Blocking
