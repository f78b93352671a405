import Verif.Persist.FlockModel
import Verif.Persist.SharedSpec

/-! What is asked for, and by whom the journal is used. -/

namespace Verif.Persist.Flock

variable {ε σ : Type}

/-- everything copies were told to persist. -/
def asked (ops : List (Op ε)) : List ε := ops.flatMap fun
  | .work _ x => x.list
  | _ => []

/-- the others on the same Redis keep away from the keys `K`. -/
def Apart (K : List String) (ops : List (Op ε)) : Prop :=
  ∀ n r, Op.sys (.call n r) ∈ ops → ∀ k ∈ r.keys, k ∉ K

/-- the two keys under which an actor is stored. -/
def keysOf (key : String → String → String) (pid : String) : List String := [key pid "journal", key pid "snapshot"]

/-- these events are read back as they were written, and there are handlers for them. -/
def Readable (A : App ε σ) (l : List ε) : Prop :=
  ∀ e ∈ l, A.dec (A.enc e) = some e ∧ A.known.message (A.enc e).ptype = true

/-- a copy runs and has this state. -/
def World.Runs (w : World ε σ) (c : Nat) (s : σ) : Prop := ∃ j, (w.copies c).2 = .up j s

/-- the state of a copy that runs. -/
def World.state (w : World ε σ) (c : Nat) : Option σ := match (w.copies c).2 with
  | .up _ s => some s
  | _ => none

/-- a copy does not run. -/
def World.Off (w : World ε σ) (c : Nat) : Prop := (w.copies c).2 = .off

/-- an event was reported as persisted, to whichever copy. -/
def World.Acked (w : World ε σ) (e : ε) : Prop := ∃ c, (c, e) ∈ w.acked

end Verif.Persist.Flock
