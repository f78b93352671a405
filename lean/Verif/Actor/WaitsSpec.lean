import Verif.Actor.WaitsLemmas

/-!
# Waiting: what "nobody waits for ever" means
-/

namespace Verif.Actor.Waits

variable {α η : Type} [DecidableEq α] {H : Hooks η}

/-- a request that asks only what a relation allows: `edge a h b g` means that `h` running at actor `a` may wait
for `g` at actor `b`. -/
inductive Fits (edge : α → η → α → η → Prop) : Req α η → Prop where
  | mk {a : α} {h : η} {cs : List (Req α η)} : (∀ c ∈ cs, edge a h c.to c.hook) → (∀ c ∈ cs, Fits edge c) →
      Fits edge (.mk a h cs)

/-- all outside requests of a history fit. -/
def AllFit (edge : α → η → α → η → Prop) (ops : List (Op α η)) : Prop :=
  ∀ n r, Op.ask n r ∈ ops → Fits edge r

/-- the waits go down: each wait is for a `started` of lower rank, or for an actor all of whose work is of lower
rank. -/
def GoesDown (H : Hooks η) (edge : α → η → α → η → Prop) : Prop :=
  ∃ rank : α → η → Nat, ∀ a h b g, edge a h b g →
    (H.first g = true → rank b g < rank a h) ∧ (H.first g = false → ∀ g', rank b g' < rank a h)

/-- the tags of the outside requests of a history, oldest first. -/
def tags (ops : List (Op α η)) : List Nat :=
  ops.filterMap fun op => match op with
    | .ask n _ => some n
    | _ => none

/-- a set of jobs none of which can go on before another one of the set does: a handler of the set waits for a job
of the set, a message of the set lies in the mailbox of an actor busy with a job of the set. -/
def Knot (s : St α η) (D : List Nat) : Prop :=
  ∀ i ∈ D, ∃ j ∈ s.jobs, j.id = i ∧
    ((j.phase = .waiting ∧ ∃ c ∈ s.jobs, c.caller = .job i ∧ c.id ∈ D) ∨
     (j.phase = .queued ∧ ∃ k ∈ s.jobs, k.to = j.to ∧ k.phase ≠ .queued ∧ k.id ∈ D))

/-- nothing can happen any more without a new request from outside. -/
def Still (H : Hooks η) (s : St α η) : Prop := ∀ op : Op α η, op.inner = true → step H s op = none

end Verif.Actor.Waits
