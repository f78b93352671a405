/-! Timers and scheduled notifications: `/repo/coerce/src/actor/scheduler/timer.rs`,
`/repo/coerce/src/actor/mod.rs`. Time is a number of ticks of some clock. -/

namespace Verif.Actor.Timer

/-- Where the task of `timer_loop` (`/repo/coerce/src/actor/scheduler/timer.rs` 68-125) is. -/
inductive Phase where
  | sleeping (due : Nat)   -- in `interval.tick().await` (88, 121)
  | ready                  -- past the check of `stop_rx` (93-95), about to send
  | awaiting               -- the tick was put into the actor's mailbox, its answer is awaited (108)
  | ended
deriving DecidableEq, Repr

/-- What happened, with the time. (`/repo/coerce/src/actor/scheduler/timer.rs` 59-65 and 92-124.) -/
inductive Ev where
  | sent (t : Nat)
  | answered (t : Nat)
  | stopped (t : Nat) (ret : Bool)   -- `Timer::stop` was called and returned `ret`
  | ended (t : Nat)
deriving DecidableEq, Repr

/-- `owner`: the `Timer` still exists. `signal`: `Timer::stop` sent its value. `alive`: the actor's mailbox accepts
messages. (`/repo/coerce/src/actor/scheduler/timer.rs` 19-21 and 68-88.) -/
structure State where
  tick : Nat
  now : Nat
  phase : Phase
  owner : Bool
  signal : Bool
  alive : Bool
  log : List Ev
deriving DecidableEq, Repr

/-- `Timer::start` / `Timer::start_immediately` (24-57) up to the first `interval.tick().await` (79-88);
lines of `/repo/coerce/src/actor/scheduler/timer.rs`. `none`: `interval_at` panics on a zero period (in the
spawned task). -/
def start (immediately : Bool) (tick now : Nat) : Option State :=
  if tick = 0 then none
  else some ⟨tick, now, .sleeping (if immediately then now else now + tick), true, false, true, []⟩

/-- what can happen: the loop goes on (`/repo/coerce/src/actor/scheduler/timer.rs` 88-122), the owner of the timer
acts (59-65), the actor ends. -/
inductive Op where
  | pass (d : Nat)   -- time passes
  | wake             -- the interval is due; the loop checks for a stop signal
  | fire             -- the loop sends the tick
  | answer           -- the actor has handled it
  | lose             -- the actor is gone, the answer will not come
  | stop             -- `Timer::stop`
  | dropTimer        -- the `Timer` is dropped
  | kill             -- the actor stops
deriving DecidableEq, Repr

/-- something is noted in the log; no code reads it (`/repo/coerce/src/actor/scheduler/timer.rs` 116-124 writes
traces). -/
def State.emit (s : State) (e : Ev) : State := { s with log := s.log ++ [e] }

/-- leaving the loop drops `stop_rx`. (`/repo/coerce/src/actor/scheduler/timer.rs` 124.) -/
def State.finish (s : State) : State := { s with phase := .ended }.emit (.ended s.now)

/-- One step of the loop or its surroundings, `/repo/coerce/src/actor/scheduler/timer.rs` 59-65, 88-122. A
dropped `Timer` makes `try_recv` return an error, which `is_ok()` treats like an empty channel. The mode is
`Send`: `TimerMode::Notify` is never used. -/
def State.step (s : State) : Op → State
  | .pass d => { s with now := s.now + d }
  | .wake =>
    match s.phase with
    | .sleeping due =>
      if due ≤ s.now then
        if s.signal then s.finish else { s with phase := .ready }
      else s
    | _ => s
  | .fire =>
    if s.phase = .ready then
      if s.alive then { s with phase := .awaiting }.emit (.sent s.now) else s.finish
    else s
  | .answer =>
    -- `interval.reset()`: the next tick is one period from now
    if s.phase = .awaiting ∧ s.alive then { s with phase := .sleeping (s.now + s.tick) }.emit (.answered s.now) else s
  | .lose => if s.phase = .awaiting ∧ s.alive = false then s.finish else s
  | .stop =>
    if s.owner then
      let ok := decide (s.phase ≠ .ended)
      { s with owner := false, signal := ok }.emit (.stopped s.now ok)
    else s
  | .dropTimer => { s with owner := false }
  | .kill => { s with alive := false }

/-- any sequence of operations (`/repo/coerce/src/actor/scheduler/timer.rs` 68-125). -/
def State.run (s : State) (ops : List Op) : State := ops.foldl State.step s

/-! ### `scheduled_notify`, `/repo/coerce/src/actor/mod.rs` 494-511 -/

/-- where the task of a scheduled notification is: `/repo/coerce/src/actor/mod.rs` 501-508. -/
inductive NPhase where
  | waiting | sent | cancelled
deriving DecidableEq, Repr

/-- One scheduled notification: its task, the cancellation token, and the times the message was sent.
(`/repo/coerce/src/actor/mod.rs` 468-472 and 498-508.) -/
structure Notify where
  now : Nat
  due : Nat
  cancel : Bool
  phase : NPhase
  sends : List Nat
deriving DecidableEq, Repr

/-- `scheduled_notify`, `/repo/coerce/src/actor/mod.rs` 494-511. -/
def schedule (delay now : Nat) : Notify := ⟨now, now + delay, false, .waiting, []⟩

/-- `poll pick`: the runtime polls the task. `select!` takes a branch that is ready; if both are, either one (`pick`:
the timer's). (`/repo/coerce/src/actor/mod.rs` 484-486 and 502-507.) -/
inductive NOp where
  | pass (d : Nat)
  | cancel
  | poll (pick : Bool)
deriving DecidableEq, Repr

/-- the branch of the timer: `actor_ref.notify(message)`, `/repo/coerce/src/actor/mod.rs` 504-506. -/
def Notify.send (n : Notify) : Notify := { n with phase := .sent, sends := n.sends ++ [n.now] }

/-- one step: `cancel`, `/repo/coerce/src/actor/mod.rs` 484-486; `select!`, 502-507. -/
def Notify.step (n : Notify) : NOp → Notify
  | .pass d => { n with now := n.now + d }
  | .cancel => { n with cancel := true }
  | .poll pick =>
    if n.phase = .waiting then
      if n.due ≤ n.now then
        if n.cancel ∧ pick = false then { n with phase := .cancelled } else n.send
      else if n.cancel then { n with phase := .cancelled } else n
    else n

/-- any sequence of steps (`/repo/coerce/src/actor/mod.rs` 494-511). -/
def Notify.run (n : Notify) (ops : List NOp) : Notify := ops.foldl Notify.step n

end Verif.Actor.Timer
