import Verif.Persist.ClientSpec

/-! What the own calls of somebody who shares a Redis with others let them expect of a reading. It looks at these calls
and their answers only. -/

namespace Verif.Persist.Trims

open Verif.Persist.Shared Verif.Persist.Client

/-- calls and their answers, in the order they were made; `none`: there was none. -/
abbrev Calls := List (Req × Option Ans)

/-- an answered call wrote the entry under the key. -/
def Wrote (l : Calls) (k : String) (e : Entry) : Prop := ∃ q b, (q, some b) ∈ l ∧ e ∈ q.writes k

/-- a removal that takes in the entry was asked for, answered or not. -/
def Gone (l : Calls) (k : String) (e : Entry) : Prop :=
  ∃ lo hi o, (Req.deleteRange k lo hi, o) ∈ l ∧ lo ≤ e.seq ∧ e.seq ≤ hi

/-- a writing that is not answered is made again, and nothing else, until it is. -/
def Stubborn (l : Calls) : Prop := ∀ pre r post, l = pre ++ (r, none) :: post → reads r = false → r.removes = false →
  ∃ n b post', post = List.replicate n (r, none) ++ (r, some b) :: post'

/-- the keys `K` are used by one who waits for each call to end, be it with an error, before making the next, and who
never asks for all of it to be deleted. Removals of a range may fail. -/
structure Waits (K : List String) (h : List Shared.Ev) : Prop where
  apart : ∀ i n r, Shared.Ev.called i n r ∈ h → r.keys ≠ [] ∧ (About K r ∨ ∀ k ∈ r.keys, k ∉ K)
  waits : ∀ i n r j m q, About K r → About K q → Before h (.called i n r) (.called j m q) →
    ∃ e : Shared.Ev, e.ends = some i ∧ Before h e (.called j m q)
  ranges : ∀ i n ks, Shared.Ev.called i n (.delete ks) ∈ h → ¬ About K (.delete ks)

end Verif.Persist.Trims
