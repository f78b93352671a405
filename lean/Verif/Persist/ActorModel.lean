import Verif.Persist.Model
import Verif.Assoc

/-!
# Start-up of persistent actors, type registration, and event-sourced actors

Models `Actor::started` of persistent actors (`/repo/coerce/src/persistent/actor.rs` 230-296),
`ActorPersistence` (`/repo/coerce/src/persistent/context.rs` 6-47) and `JournalTypes`
(`/repo/coerce/src/persistent/journal/types.rs` 17-102).
-/

namespace Verif.Persist

/-! ### `JournalTypes` -/

/-- `JournalTypes`, `/repo/coerce/src/persistent/journal/types.rs` 17-22: `ids` is `message_type_map`
(`TypeId → identifier`), `handlers` is `recoverable_messages` (identifier → handler, where a handler is
determined by the message type it reads). The snapshot maps work alike. -/
structure Types (τ : Type) where
  ids : Assoc τ String
  handlers : Assoc String τ
deriving DecidableEq, Repr

/-- `JournalTypes::default`, `/repo/coerce/src/persistent/journal/types.rs` 24-37. -/
def Types.empty {τ : Type} : Types τ := ⟨[], []⟩

/-- `JournalTypes::message` / `snapshot`, `/repo/coerce/src/persistent/journal/types.rs` 40-68. -/
def Types.message {τ : Type} [DecidableEq τ] (t : Types τ) (m : τ) (identifier : String) : Types τ :=
  { handlers := t.handlers.insert identifier m, ids := t.ids.insert m identifier }

/-- `A::configure`: the calls the actor makes, in order (`init_journal_types`,
`/repo/coerce/src/persistent/journal/types.rs` 87-102; the cache returns the same map for the same actor
type). -/
def Types.configure {τ : Type} [DecidableEq τ] (regs : List (τ × String)) : Types τ :=
  regs.foldl (fun t r => t.message r.1 r.2) .empty

/-- the type under which a message of type `m` is written: `message_type_mapping`,
`/repo/coerce/src/persistent/journal/types.rs` 74-76 (`None` makes `persist_message` panic or fail, it
is not written). -/
def Types.written {τ : Type} [DecidableEq τ] (t : Types τ) (m : τ) : Option String := t.ids.get m

/-- the message type whose handler gets an entry with this payload type (`recover_messages`,
`/repo/coerce/src/persistent/journal/mod.rs` 371-395). -/
def Types.readAs {τ : Type} (t : Types τ) (identifier : String) : Option τ := t.handlers.get identifier

/-! ### `started` -/

/-- What a user-defined hook or recovery handler does: the actor's new state, and whether it asked the context to
stop. (`/repo/coerce/src/persistent/actor.rs` 25-29, 154-158, 161-169.) -/
abbrev Hook (σ : Type) := σ → σ × Bool

/-- The user's part of a persistent actor (`/repo/coerce/src/persistent/actor.rs` 18-29, 154-169).
`snap`/`msg`: `RecoverSnapshot` / `Recover` handlers found for the payload, `none` if the bytes do not
decode (`RecoveryErr::{SnapshotDeserialisation, MessageDeserialisation}`). -/
structure User (σ : Type) where
  pre : Hook σ
  post : Hook σ
  onErr : Hook σ
  onFailed : Hook σ
  snap : Payload → Option (Hook σ)
  msg : Payload → Option (Hook σ)

/-- What happened during `started`, in order. (`/repo/coerce/src/persistent/actor.rs` 230-296.) -/
inductive Ev where
  | pre | loadErr | failed | snap (p : Payload) | msg (p : Payload) | decodeErr (p : Payload) | post
deriving DecidableEq, Repr

/-- The actor during `started`: its state, `ctx.get_status() == Stopping`, and the trace.
(`/repo/coerce/src/persistent/actor.rs` 230-296; the status: `/repo/coerce/src/persistent/recovery.rs` 52-57.) -/
structure Boot (σ : Type) where
  state : σ
  stopping : Bool
  trace : List Ev
deriving DecidableEq, Repr

/-- call a hook. (`/repo/coerce/src/persistent/actor.rs` 233, 273, 281, 295.) -/
def Boot.call {σ : Type} (b : Boot σ) (ev : Ev) (h : Hook σ) : Boot σ :=
  let r := h b.state
  ⟨r.1, b.stopping || r.2, b.trace ++ [ev]⟩

/-- `ctx.stop(None)`, `/repo/coerce/src/actor/context.rs` 106-112. -/
def Boot.stop {σ : Type} (b : Boot σ) : Boot σ := { b with stopping := true }

/-- `payload.recover(self, ctx)` with its error branch, `/repo/coerce/src/persistent/actor.rs` 265-292:
`false` = `started` returns here. -/
def Boot.payload {σ : Type} (u : User σ) (b : Boot σ) (ev : Ev) (p : Payload) (h : Option (Hook σ)) :
    Boot σ × Bool :=
  match h with
  | some h => (b.call ev h, true)
  | none => ((b.call (.decodeErr p) u.onErr).stop, false)

/-- the loop over the recovered messages, `/repo/coerce/src/persistent/actor.rs` 279-293. -/
def Boot.messages {σ : Type} (u : User σ) : Boot σ → List Payload → Boot σ × Bool
  | b, [] => (b, true)
  | b, p :: ps =>
    match b.payload u (.msg p) p (u.msg p) with
    | (b, true) => b.messages u ps
    | (b, false) => (b, false)

/-- after the snapshot was applied, `/repo/coerce/src/persistent/actor.rs` 279-296. -/
def Boot.finish {σ : Type} (u : User σ) (b : Boot σ) (ms : Option (List Payload)) : Boot σ :=
  match ms with
  | none => b.call .post u.post
  | some ps =>
    match b.messages u ps with
    | (b, false) => b
    | (b, true) => b.call .post u.post

/-- after the journal was loaded, `/repo/coerce/src/persistent/actor.rs` 265-296. -/
def Boot.replay {σ : Type} (u : User σ) (b : Boot σ) (r : Recovered) : Boot σ :=
  match r.snapshot with
  | none => b.finish u r.messages
  | some p =>
    match b.payload u (.snap p) p (u.snap p) with
    | (b, false) => b
    | (b, true) => b.finish u r.messages

/-- How `started` ends. (`/repo/coerce/src/persistent/actor.rs` 230-296.) -/
inductive BootRes (σ : Type) where
  | returned (b : Boot σ)   -- `started` returned; the actor runs unless it is stopping
  | panicked (b : Boot σ)   -- `RecoveryFailurePolicy::Panic`
  | pending (b : Boot σ)    -- still trying to load when the given outcomes ran out
deriving DecidableEq, Repr

/-- The loop of `recover_journal` (`/repo/coerce/src/persistent/recovery.rs` 23-76) with the hook calls,
then the rest of `started` (`/repo/coerce/src/persistent/actor.rs` 235-296). `loads`: does this attempt
to read the journal succeed; `r`: what it then reads. Every attempt starts from a fresh journal
(`init_journal`, `/repo/coerce/src/persistent/context.rs` 21-30). -/
def Boot.load {σ : Type} (u : User σ) (policy : RecoveryPolicy) (r : Recovered) :
    Boot σ → Nat → List Bool → BootRes σ
  | b, _, [] => .pending b
  | b, _, true :: _ => .returned (b.replay u r)
  | b, n, false :: ls =>
    let b := b.call .loadErr u.onErr
    match policy with
    | .stopActor => .returned (b.stop.call .failed u.onFailed)
    | .panic => .panicked b
    | .retry rt =>
      match shouldRetry n rt with
      | (false, _) => .returned (b.stop.call .failed u.onFailed)
      | (true, _) => b.load u policy r (n + 1) ls

/-- `started`, `/repo/coerce/src/persistent/actor.rs` 230-296. -/
def started {σ : Type} (u : User σ) (policy : RecoveryPolicy) (s : σ) (loads : List Bool) (r : Recovered) :
    BootRes σ :=
  Boot.load u policy r ((Boot.mk s false []).call .pre u.pre) 1 loads

/-! ### Journals that were never initialised -/

/-- `ActorPersistence.journal`, `/repo/coerce/src/persistent/context.rs` 8-11. `none`: `init_journal` was
not called. An actor overriding `PersistentActor::recover` to return `Recovery::Disabled`
(`/repo/coerce/src/persistent/actor.rs` 114-116, 250-257) does not call it. -/
inductive RecoverImpl where
  | default | disabled
deriving DecidableEq, Repr

/-- the journal after `started`. (`init_journal`, `/repo/coerce/src/persistent/context.rs` 21-30, and the recovery,
`/repo/coerce/src/persistent/recovery.rs` 23-76.) -/
def journalAfter {σ : Type} (S : Storage σ) (K : Known) (st : σ) (pid : String) : RecoverImpl → Option Journal
  | .default => some (loadJournal S K st pid).1
  | .disabled => none

/-- `ctx.persistence_mut().journal_mut()` followed by `persist_message`; `none` = panic
("journal not initialised", `/repo/coerce/src/persistent/context.rs` 40-46). -/
def persistWith {σ : Type} (S : Storage σ) (st : σ) (p : Payload) (o : WriteOutcome) :
    Option Journal → Option (σ × Journal × Bool)
  | some j => some (persistMessage S st j p o)
  | none => none

/-! ### Event-sourced actors -/

/-- An actor written the intended way: its handlers persist an event and apply it when that succeeded
(`/repo/examples` and `/repo/coerce/tests/test_persistent_recovery.rs` do), its snapshots are its whole
state. `enc`/`dec`: `Message::as_bytes`/`from_bytes` with the type identifier. -/
structure App (ε σ : Type) where
  init : σ
  app : σ → ε → σ
  enc : ε → Payload
  dec : Payload → Option ε
  encS : σ → Payload
  decS : Payload → Option σ
  known : Known

/-- the hooks of such an actor; nothing in it stops itself. (`/repo/coerce/src/persistent/actor.rs` 18-29 and
161-169.) -/
def App.user {ε σ : Type} (A : App ε σ) : User σ where
  pre := fun s => (s, false)
  post := fun s => (s, false)
  onErr := fun s => (s, false)
  onFailed := fun s => (s, false)
  snap := fun p => (A.decS p).map fun s' => fun _ => (s', false)
  msg := fun p => (A.dec p).map fun e => fun s => (A.app s e, false)

/-- What such an actor does: persist one event or several, save its state, trim, or crash and start again (`fails`:
how often the journal could not be read before it could). One storage attempt each; a retried write is several
operations. (`/repo/coerce/src/persistent/actor.rs` 31-140 and 230-296.) -/
inductive Cmd (ε : Type) where
  | event (e : ε) (o : WriteOutcome)
  | events (es : List ε) (o : WriteOutcome)
  | save (o : WriteOutcome)
  | trim (o : WriteOutcome)
  | crash (fails : Nat)

/-- One such actor over the storage. `state = none`: it did not come up. (`/repo/coerce/src/persistent/context.rs`
6-9.) -/
structure Live (σ : Type) where
  sys : Sys MemStore
  state : Option σ

/-- a fresh start on an empty storage. (`/repo/coerce/src/persistent/journal/mod.rs` 34-45.) -/
def Live.init {ε σ : Type} (A : App ε σ) : Live σ := ⟨Sys.init fun _ => none, some A.init⟩

/-- the journal operation a command amounts to, given the state. (`/repo/coerce/src/persistent/journal/mod.rs` 206-320
and 417-427.) -/
def Cmd.op {ε σ : Type} (A : App ε σ) (s : σ) : Cmd ε → Op
  | .event e o => .persist (A.enc e) o
  | .events es o => .batch (es.map A.enc) o
  | .save o => .snapshot (A.encS s) o
  | .trim o => .trim o
  | .crash _ => .restart A.known

/-- the state after `started`, if the actor then runs. (`/repo/coerce/src/actor/lifecycle.rs` 64-71.) -/
def BootRes.up {σ : Type} : BootRes σ → Option σ
  | .returned b => if b.stopping then none else some b.state
  | _ => none

/-- one command. (`/repo/coerce/src/persistent/actor.rs` 31-140 and 230-296.) -/
def Live.step {ε σ : Type} (A : App ε σ) (pid : String) (l : Live σ) (c : Cmd ε) : Live σ :=
  match l.state with
  | none => l
  | some s =>
    let sys := l.sys.step memStorage pid (c.op A s)
    match c with
    | .event e o => ⟨sys, some (if o.acked then A.app s e else s)⟩
    | .events es o => ⟨sys, some (if o.acked then es.foldl A.app s else s)⟩
    | .save _ => ⟨sys, some s⟩
    | .trim _ => ⟨sys, some s⟩
    | .crash n => ⟨sys, (started A.user (.retry .untilSuccess) A.init (List.replicate n false ++ [true])
        (l.sys.recovered memStorage A.known pid)).up⟩

/-- any sequence of commands (`/repo/coerce/src/persistent/actor.rs` 31-140 and 230-296). -/
def Live.run {ε σ : Type} (A : App ε σ) (pid : String) (l : Live σ) (cs : List (Cmd ε)) : Live σ :=
  cs.foldl (Live.step A pid) l

end Verif.Persist
