import Verif.Persist.SharedSpec

/-! What is asked of someone who shares a Redis with others: to wait, and to try again. It looks at the history of calls
and answers only. -/

namespace Verif.Persist.Client

open Verif.Persist.Shared

/-- a request that changes nothing. -/
def reads : Req → Bool
  | .latest _ => true
  | .one _ _ => true
  | .range _ _ _ => true
  | _ => false

/-- a request is about the keys `K`. -/
def About (K : List String) (r : Req) : Prop := ∀ k ∈ r.keys, k ∈ K

/-- the first answer to a call. -/
def answerTo (i : Nat) : List Ev → Option Ans
  | [] => none
  | .answered j a :: h => if j = i then some a else answerTo i h
  | _ :: h => answerTo i h

/-- the calls about `K`, in the order they were made, with their answers; `none`: there was none. -/
def trace (K : List String) (h : List Ev) : List (Req × Option Ans) :=
  (callsAbout K h).map fun x => (x.2, answerTo x.1 h)

/-- those that were answered. -/
def answeredOnly (l : List (Req × Option Ans)) : List (Req × Ans) := l.filterMap fun x => x.2.map fun a => (x.1, a)

/-- the keys `K` are used by one who waits for each call to end, be it with an error, before making the next, and
* either has an answer to every call that changes something (readings may fail),
* or removes nothing, and makes a call that changes something again when it failed, and nothing else, until it is
  answered. -/
structure Careful (K : List String) (h : List Ev) : Prop where
  apart : ∀ i n r, Ev.called i n r ∈ h → r.keys ≠ [] ∧ (About K r ∨ ∀ k ∈ r.keys, k ∉ K)
  waits : ∀ i n r j m q, About K r → About K q → Before h (.called i n r) (.called j m q) →
    ∃ e : Ev, e.ends = some i ∧ Before h e (.called j m q)
  settled : (∀ i n r, Ev.called i n r ∈ h → About K r → reads r = false → ∃ a, Ev.answered i a ∈ h) ∨
    ((∀ i n r, Ev.called i n r ∈ h → About K r → r.removes = false) ∧
      ∀ i n r, Ev.called i n r ∈ h → About K r → reads r = false → ∃ y m a, i ≤ y ∧ Ev.called y m r ∈ h ∧
        Ev.answered y a ∈ h ∧ ∀ j p q, Ev.called j p q ∈ h → About K q → i ≤ j → j < y →
          q = r ∧ ∀ b, Ev.answered j b ∉ h)

end Verif.Persist.Client
