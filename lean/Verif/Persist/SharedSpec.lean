import Verif.Persist.SharedModel

/-! What it means that a shared journal behaves as if it were used by one after another. The history of calls and
answers is all this looks at, and the effect each Redis command has by itself. -/

namespace Verif.Persist.Shared

/-- a request that took effect, and what was answered. -/
structure Effect where
  id : Nat
  req : Req
  ans : Ans
deriving DecidableEq, Repr

/-- the requests carried out one after another, none overlapping with another, have these answers and leave this. -/
def InTurn : RedisStore → List Effect → RedisStore → Prop
  | st, [], st' => st' = st
  | st, x :: xs, st' => x.ans = (x.req.exec st).2 ∧ InTurn (x.req.exec st).1 xs st'

/-- `x` stands before `y`. -/
def Before {α : Type} (l : List α) (x y : α) : Prop := ∃ a b, l = a ++ b ∧ x ∈ a ∧ y ∈ b

/-- a history of calls and answers is explained by an order of the requests: done in this order, one after another, they
have the answers that were given; no request is done twice or without a call; every answer that was given is that of
a request done; and a request that was called after another had been answered is done after it. -/
structure Explains (order : List Effect) (st : RedisStore) (h : List Ev) (st' : RedisStore) : Prop where
  turn : InTurn st order st'
  once : (order.map (·.id)).Nodup
  asked : ∀ x ∈ order, ∃ n, Ev.called x.id n x.req ∈ h
  told : ∀ i a, Ev.answered i a ∈ h → ∃ r, ⟨i, r, a⟩ ∈ order
  kept : ∀ x ∈ order, ∀ y ∈ order, ∀ a n r, Before h (.answered x.id a) (.called y.id n r) → Before order x y

/-- the number of a call that an event ends. -/
def Ev.ends : Ev → Option Nat
  | .called _ _ _ => none
  | .answered i _ => some i
  | .failed i => some i
  | .lost i => some i

/-- the number of a call an event begins. -/
def Ev.begins : Ev → Option Nat
  | .called i _ _ => some i
  | _ => none

/-- the keys a request is about. -/
def Req.keys : Req → List String
  | .write k _ => [k]
  | .batch k _ => [k]
  | .deleteRange k _ _ => [k]
  | .latest k => [k]
  | .one k _ => [k]
  | .range k _ _ => [k]
  | .delete ks => ks

/-- a request that takes entries away. -/
def Req.removes : Req → Bool
  | .deleteRange _ _ _ => true
  | .delete _ => true
  | _ => false

/-- the entries a request writes under a key. -/
def Req.writes (k : String) : Req → List Entry
  | .write k' e => if k' = k then [e] else []
  | .batch k' es => if k' = k then es else []
  | _ => []

/-- the calls about some keys, in the order they were made. -/
def callsAbout (K : List String) (h : List Ev) : List (Nat × Req) :=
  h.filterMap fun
    | .called i _ r => if r.keys.all (· ∈ K) then some (i, r) else none
    | _ => none

/-- the keys `K` are somebody's own, who makes one call at a time and has all of them answered: no request is about keys
of `K` and others at once, a call about them is made only when the one before has been answered, and the last one has
been answered too. (Of the callers of other keys nothing is said.) -/
structure OneAtATime (K : List String) (h : List Ev) : Prop where
  apart : ∀ i n r, Ev.called i n r ∈ h → r.keys ≠ [] ∧ ((∀ k ∈ r.keys, k ∈ K) ∨ ∀ k ∈ r.keys, k ∉ K)
  waits : ∀ i n r j m q, (∀ k ∈ r.keys, k ∈ K) → (∀ k ∈ q.keys, k ∈ K) → Before h (.called i n r) (.called j m q) →
    ∃ a, Before h (.answered i a) (.called j m q)
  heard : ∀ i n r, Ev.called i n r ∈ h → (∀ k ∈ r.keys, k ∈ K) → ∃ a, Ev.answered i a ∈ h

end Verif.Persist.Shared
