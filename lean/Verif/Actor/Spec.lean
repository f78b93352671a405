import Verif.Actor.Model

/-!
# What an observer of one actor may expect

Everything here is stated over the list of observable events and over plain lists of requests; no part
of the actor loop is used.
-/

namespace Verif.Actor

variable {S M R : Type}

/-- requests the channel accepted, in order -/
def accepted (log : List (Ev M R)) : List (Item M) :=
  log.filterMap fun | .accepted i => some i | _ => none

/-- requests whose handler was entered, in order -/
def begun (log : List (Ev M R)) : List (Item M) :=
  log.filterMap fun | .begin i => some i | _ => none

/-- requests whose handler returned, in order -/
def finished (log : List (Ev M R)) : List (Item M) :=
  log.filterMap fun | .finish i => some i | _ => none

/-- every attempt to send, accepted or not, in order -/
def attempts (log : List (Ev M R)) : List (Item M) :=
  log.filterMap fun | .accepted i => some i | .refused i => some i | _ => none

/-- results delivered, in order -/
def replies (log : List (Ev M R)) : List (Nat × Reply R) :=
  log.filterMap fun | .replied n r => some (n, r) | _ => none

/-- notifications to watchers -/
def notifications (log : List (Ev M R)) : List (String × Nat) :=
  log.filterMap fun | .told id rcv => some (id, rcv) | _ => none

/-- Did the task end by a panic? -/
def hasCrashed (log : List (Ev M R)) : Prop := .crashed ∈ log

/-- Handler entries and exits alternate and belong together: starting with `cur` being handled (or
nothing), no handler is entered while another one is running. -/
def oneAtATime : Option Nat → List (Ev M R) → Prop
  | _, [] => True
  | cur, .begin i :: l => cur = none ∧ oneAtATime (some i.num) l
  | cur, .finish i :: l => cur = some i.num ∧ oneAtATime none l
  | cur, _ :: l => oneAtATime cur l

/-- Does this event settle request `n`: a result, a dropped result channel, or a refused send? -/
def settles (n : Nat) : Ev M R → Bool
  | .replied k _ => k == n
  | .lost k => k == n
  | .refused i => i.wantsReply && i.num == n
  | _ => false

/-- number of outcomes request `n` got -/
def outcomes (n : Nat) (log : List (Ev M R)) : Nat := log.countP (settles n)

/-- Does this event settle the stop request `n` (a `stop().await`)? -/
def settlesStop (n : Nat) : Ev M R → Bool
  | .ack k => k == n
  | .ackLost k => k == n
  | .refused i => i.num == n && i.awaitsStop
  | _ => false

def stopOutcomes (n : Nat) (log : List (Ev M R)) : Nat := log.countP (settlesStop n)

/-- requests of an execution, in order -/
def requests (ins : List (Input M)) : List (Item M) :=
  ins.filterMap fun | .send i => some i | _ => none

/-- What a request is answered and what it does to the actor when it is handled on its own, in actor
state `s`; `none` if its handler panics. -/
def serve (B : Behav S M R) (s : S) (i : Item M) : Option (S × Reply R) :=
  match i.body with
  | .user m =>
    match B.handle s m with
    | .done s' r _ => some (s', .user r)
    | .panic => none
  | .status => some (s, .status .started)
  | _ => some (s, .unit)

/-- The actor state after handling requests one after another; `none` if one of them panics. -/
def serveAll (B : Behav S M R) (s : S) : List (Item M) → Option S
  | [] => some s
  | i :: is => (serve B s i).bind fun p => serveAll B p.1 is

/-- The behaviour never stops the actor itself and never panics. -/
def Behav.Quiet (B : Behav S M R) : Prop :=
  (∀ s, ∃ s' u, B.started s = .done s' u false) ∧
  (∀ s m, ∃ s' r, B.handle s m = .done s' r false) ∧
  (∀ s, ∃ s' u b, B.stopped s = .done s' u b)

def Item.isStop (i : Item M) : Bool :=
  match i.body with
  | .stop _ => true
  | _ => false

/-- Lifecycle events. -/
inductive Life where
  | startedHook | up | message | stoppedHook
deriving DecidableEq, Repr

def life (log : List (Ev M R)) : List Life :=
  log.filterMap fun
    | .startedHook => some .startedHook
    | .up => some .up
    | .begin _ => some .message
    | .stoppedHook => some .stoppedHook
    | _ => none

/-- Order of statuses. -/
def Status.rank : Status → Nat
  | .starting => 0 | .started => 1 | .stopping => 2 | .stopped => 3

/-- What request `i` says about `w` watching: `some (some r)` subscribes receiver `r`, `some none`
unsubscribes, `none` says nothing. -/
def aboutWatcher (w : String) (i : Item M) : Option (Option Nat) :=
  match i.body with
  | .watch id r => if id = w then some (some r) else none
  | .unwatch id => if id = w then some none else none
  | _ => none

/-- Who is subscribed under id `w` after these requests: decided by the last request about `w`. -/
def subscribed (w : String) (is : List (Item M)) : Option Nat :=
  ((is.filterMap (aboutWatcher w)).getLast?).join

end Verif.Actor
