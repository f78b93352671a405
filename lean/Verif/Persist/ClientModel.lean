import Verif.Persist.SharedModel
import Verif.Persist.ActorModel

/-!
# A persistent actor as a caller of its storage

`Model` has a journal that does each operation on the storage at once. Here the same functions of the journal
(`/repo/coerce/src/persistent/journal/mod.rs` 206-428), the retry loop of a persistent actor
(`/repo/coerce/src/persistent/actor.rs` 31-112) and its recovery (`/repo/coerce/src/persistent/recovery.rs` 23-101) are
programs that make calls and go on with what they are answered, whenever that is and whatever happens in between.
-/

namespace Verif.Persist.Client

open Verif.Persist.Shared (Method Ans)

/-- an `async fn` that calls the storage: it has ended, or it makes a call (to a method of `JournalStorage`,
`/repo/coerce/src/persistent/journal/storage.rs` 14-54) and goes on with the answer, or with an error (`none`). -/
inductive Task (α : Type) where
  | done (a : α)
  | call (m : Method) (k : Option Ans → Task α)

/-- one `async fn` after another, `.await` (`/repo/coerce/src/persistent/recovery.rs` 88-100). -/
def Task.bind {α β : Type} : Task α → (α → Task β) → Task β
  | .done a, f => f a
  | .call m k, f => .call m fun r => (k r).bind f

/-- a run of a task: the calls it makes, what comes of each, and how it ends.
(`/repo/coerce/src/persistent/journal/storage.rs` 14-54: every method is awaited.) -/
def Task.Runs {α : Type} : Task α → List (Method × Option Ans) → α → Prop
  | .done a, l, b => l = [] ∧ b = a
  | .call m k, l, b => ∃ r l', l = (m, r) :: l' ∧ (k r).Runs l' b

/-- `persist_message`, `/repo/coerce/src/persistent/journal/mod.rs` 254-288: `false` is an error, which leaves the
counter alone. -/
def persistMessage (p : Payload) (j : Journal) : Task (Journal × Bool) :=
  .call (.writeMessage ⟨j.last, p.ptype, p.bytes⟩) fun
    | some _ => .done ({ j with last := j.last + 1 }, true)
    | none => .done (j, false)

/-- `Journal::persist_batch`, `/repo/coerce/src/persistent/journal/mod.rs` 207-233. -/
def persistBatch (ps : List Payload) (j : Journal) : Task (Journal × Bool) :=
  .call (.writeBatch (numberBatch j.last ps)) fun
    | some _ => .done ({ j with last := j.last + ps.length }, true)
    | none => .done (j, false)

/-- `persist_snapshot`, `/repo/coerce/src/persistent/journal/mod.rs` 290-320. -/
def persistSnapshot (p : Payload) (j : Journal) : Task (Journal × Bool) :=
  .call (.writeSnapshot ⟨j.last + 1, p.ptype, p.bytes⟩) fun
    | some _ => .done ({ j with last := j.last + 1, lastSnap := some (j.last + 1) }, true)
    | none => .done (j, false)

/-- `clear_old_messages`, `/repo/coerce/src/persistent/journal/mod.rs` 417-427. -/
def clearOldMessages (j : Journal) : Task Bool :=
  match j.lastSnap with
  | some s => .call (.deleteMessagesTo s) fun r => .done r.isSome
  | none => .done false

/-- the loop of `persist`, `persist_batch` and `snapshot`, `/repo/coerce/src/persistent/actor.rs` 42-54, 69-80, 96-107,
with `PersistFailurePolicy::Retry` (`check`, 171-214): `n + 1` attempts at most. `Retry::UntilSuccess` has no limit: what
it does up to some time is what it does with a limit that is not reached by then. -/
def loop (attempt : Journal → Task (Journal × Bool)) : Nat → Journal → Task (Journal × Bool)
  | 0, j => attempt j
  | n + 1, j => (attempt j).bind fun r => if r.2 then .done r else loop attempt n r.1

/-- `recover_snapshot`, `/repo/coerce/src/persistent/journal/mod.rs` 322-353; `none` is an error. (Answers of another
type than asked for cannot be: the channel has one type. They count as errors.) -/
def recoverSnapshot (K : Known) (j : Journal) : Task (Option (Journal × Option Payload)) :=
  .call .readLatestSnapshot fun
    | some (.entry none) => .done (some (j, none))
    | some (.entry (some e)) => .done (some ({ j with last := e.seq, lastSnap := some e.seq },
        if K.snapshot e.ptype then some e.payload else none))
    | _ => .done none

/-- `recover_messages`, `/repo/coerce/src/persistent/journal/mod.rs` 355-411; `none` is an error. -/
def recoverMessages (K : Known) (j : Journal) : Task (Option (Journal × Option (List Payload))) :=
  .call (.readLatestMessages j.last) fun
    | some (.entries none) => .done (some (j, none))
    | some (.entries (some es)) =>
      let rs := (es.filter fun e => K.message e.ptype).map Entry.payload
      .done (some ({ j with last := lastSeq j.last es }, if rs.length = 0 then none else some rs))
    | _ => .done none

/-- `load_journal`, `/repo/coerce/src/persistent/recovery.rs` 84-101: a new journal, the snapshot, then the messages;
an error ends it. -/
def loadJournal (K : Known) (pid : String) : Task (Option (Journal × Recovered)) :=
  (recoverSnapshot K (Journal.new pid)).bind fun
    | none => .done none
    | some (j, snap) => (recoverMessages K j).bind fun
      | none => .done none
      | some (j, msgs) => .done (some (j, ⟨snap, msgs⟩))

/-- a persistent actor: its journal and its state; `none`: it is not running, or not yet.
(`/repo/coerce/src/persistent/context.rs` 6-11.) -/
structure Actor (σ : Type) where
  journal : Journal
  state : Option σ

section
variable {ε σ : Type} (A : App ε σ) (pid : String)

/-- what such an actor is told to do: persist one event or several, save its state, trim its journal.
(`/repo/coerce/src/persistent/actor.rs` 31-140.) -/
inductive Job (ε : Type) where
  | event (e : ε)
  | events (es : List ε)
  | save
  | trim

/-- the outcome of a call that waits for the storage, as it is reported: `/repo/coerce/src/persistent/actor.rs`
171-214. -/
def outcome (ok : Bool) : WriteOutcome := if ok then .ok else .rejected

/-- a running actor does its job, with `n + 1` attempts at most: it applies what was persisted. With it a record of what
was done. (`/repo/coerce/src/persistent/actor.rs` 31-140; an empty batch is not written, 66-68.) -/
def Actor.act (c : Actor σ) (s : σ) (n : Nat) : Job ε → Task (Actor σ × Cmd ε)
  | .event e => (loop (persistMessage (A.enc e)) n c.journal).bind fun r =>
      .done (⟨r.1, some (if r.2 then A.app s e else s)⟩, .event e (outcome r.2))
  | .events [] => .done (c, .events [] .ok)
  | .events es => (loop (persistBatch (es.map A.enc)) n c.journal).bind fun r =>
      .done (⟨r.1, some (if r.2 then es.foldl A.app s else s)⟩, .events es (outcome r.2))
  | .save => (loop (persistSnapshot (A.encS s)) n c.journal).bind fun r =>
      .done (⟨r.1, some s⟩, .save (outcome r.2))
  | .trim => (clearOldMessages c.journal).bind fun ok => .done (c, .trim (outcome ok))

/-- an attempt to start the actor, on whichever node, after which it runs if the journal could be read:
`started`, `/repo/coerce/src/persistent/actor.rs` 230-296 with `/repo/coerce/src/persistent/recovery.rs` 33-68. (Further
attempts are further starts: each begins with a new journal, 88.) -/
def boot : Task (Actor σ) :=
  (loadJournal A.known pid).bind fun
    | none => .done ⟨Journal.new pid, none⟩
    | some (j, r) => .done ⟨j, (started A.user (.retry .untilSuccess) A.init [true] r).up⟩

/-- a life of an actor: jobs it does when it runs, and starts, after crashes or failed starts, here or on other nodes;
with the calls it makes and what comes of them, and a record of what was done. It does one thing at a time.
(`/repo/coerce/src/persistent/actor.rs` 31-140, 230-296.) -/
inductive Lives : Actor σ → List (Method × Option Ans) → List (Cmd ε) → Actor σ → Prop where
  | nil (c : Actor σ) : Lives c [] [] c
  | act {c c' d : Actor σ} {s : σ} {n : Nat} {j : Job ε} {x : Cmd ε} {l l' : List (Method × Option Ans)}
      {cs : List (Cmd ε)} : c.state = some s → (c.act A s n j).Runs l (c', x) → Lives c' l' cs d →
      Lives c (l ++ l') (x :: cs) d
  | start {c c' d : Actor σ} {l l' : List (Method × Option Ans)} {cs : List (Cmd ε)} :
      (boot A pid).Runs l c' → Lives c' l' cs d → Lives c (l ++ l') (.crash 0 :: cs) d

/-- an actor that was never there before. (`/repo/coerce/src/persistent/journal/mod.rs` 34-45.) -/
def Actor.new : Actor σ := ⟨Journal.new pid, some A.init⟩

end

end Verif.Persist.Client
