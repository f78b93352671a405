import Verif.Singleton.ProxyModel

/-! # The singleton proxy: what should become of each message -/

namespace Verif.Singleton

/-- the instance a message should go to: the one known when it is handled, otherwise the next one
announced. -/
def dest : Option Nat → List POp → Option Nat
  | some r, _ => some r
  | none, .started r :: _ => some r
  | none, _ :: ops => dest none ops
  | none, [] => none

/-- the messages of a run in order, each with the instance it should go to, if there is one. -/
def assigned : Option Nat → List POp → List (PMsg × Option Nat)
  | _, [] => []
  | cur, .deliver m :: ops => (m, dest cur ops) :: assigned cur ops
  | _, .started r :: ops => assigned (some r) ops
  | _, .stopping :: ops => assigned none ops
  | cur, .task _ :: ops => assigned cur ops

/-- those for which there is one. -/
def settled (l : List (PMsg × Option Nat)) : List (PMsg × Nat) := l.filterMap fun x => x.2.map fun r => (x.1, r)

/-- those that wait. -/
def waiting (l : List (PMsg × Option Nat)) : List PMsg := l.filterMap fun x => if x.2.isNone then some x.1 else none

/-- an instance and the number of the message it gets. -/
def entry (x : PMsg × Nat) : Nat × Nat := (x.2, x.1.id)

end Verif.Singleton
