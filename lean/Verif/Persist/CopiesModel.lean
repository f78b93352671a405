import Verif.Persist.ActorModel

/-!
# Several copies of a persistent actor over one journal

A persistent actor is found in the storage by its persistence key, by default its id
(`/repo/coerce/src/persistent/actor.rs` 19-21). Nothing keeps a second actor with the same key from being started while
the first is running: on another node, by another system over the same storage, or beside it. Each has a `Journal` of
its own with its own counter (`/repo/coerce/src/persistent/context.rs` 6-30), all of them write to the same storage.
-/

namespace Verif.Persist.Copies

/-- a running copy: its `Journal` and its state. (`/repo/coerce/src/persistent/context.rs` 6-9;
`/repo/coerce/src/persistent/journal/mod.rs` 25-31.) -/
structure Copy (σ : Type) where
  journal : Journal
  state : σ

/-- the storage, which all copies share (`/repo/coerce/src/persistent/journal/storage.rs` 14-54), and the copies that
are running. -/
structure World (τ σ : Type) where
  store : τ
  copies : Assoc Nat (Copy σ) := []

/-- what happens. `act c (.crash n)` starts copy `c` (again), reading the journal after `n` failures to do so.
(`/repo/coerce/src/persistent/actor.rs` 31-140 and 230-296.) -/
inductive Op (ε : Type) where
  | act (c : Nat) (cmd : Cmd ε)
  | ends (c : Nat)

/-- the state after a command: an event is applied when its write was acknowledged.
(`/repo/coerce/src/persistent/actor.rs` 31-112: `persist` returns before the actor goes on.) -/
def after {ε σ : Type} (A : App ε σ) (s : σ) : Cmd ε → σ
  | .event e o => if o.acked then A.app s e else s
  | .events es o => if o.acked then es.foldl A.app s else s
  | _ => s

section
variable {τ ε σ : Type} (S : Storage τ) (A : App ε σ) (pid : String)

/-- a copy is started, `/repo/coerce/src/persistent/actor.rs` 230-296. -/
def World.start (w : World τ σ) (c fails : Nat) : World τ σ :=
  let r := loadJournal S A.known w.store pid
  match (started A.user (.retry .untilSuccess) A.init (List.replicate fails false ++ [true]) r.2).up with
  | some s => { w with copies := w.copies.insert c ⟨r.1, s⟩ }
  | none => { w with copies := w.copies.erase c }

/-- a running copy uses its journal (`/repo/coerce/src/persistent/actor.rs` 31-140). -/
def World.use (w : World τ σ) (c : Nat) (cmd : Cmd ε) : World τ σ :=
  match w.copies.get c with
  | none => w
  | some k =>
    let s := Sys.step S ⟨w.store, fun _ => k.journal⟩ pid (cmd.op A k.state)
    ⟨s.store, w.copies.insert c ⟨s.journals pid, after A k.state cmd⟩⟩

/-- one operation of one copy, `/repo/coerce/src/persistent/actor.rs` 31-140 and 230-296. -/
def World.step (w : World τ σ) : Op ε → World τ σ
  | .act c (.crash n) => w.start S A pid c n
  | .act c cmd => w.use S A pid c cmd
  | .ends c => { w with copies := w.copies.erase c }

/-- any sequence of operations, `/repo/coerce/src/persistent/actor.rs` 31-140 and 230-296. -/
def World.run (w : World τ σ) (ops : List (Op ε)) : World τ σ := ops.foldl (World.step S A pid) w

/-- the state of a copy, if it is running. (The state of an actor is its own: `/repo/coerce/src/persistent/actor.rs`
18.) -/
def World.state (w : World τ σ) (c : Nat) : Option σ := (w.copies.get c).map (·.state)

end

/-- the copies of one actor over an in-memory storage in which it has nothing yet.
(`/repo/coerce/src/persistent/journal/provider.rs` 49-71.) -/
def World.mem {ε σ : Type} (A : App ε σ) (pid : String) (ops : List (Op ε)) : World MemStore σ :=
  World.run memStorage A pid ⟨fun _ => none, []⟩ ops

/-- the same over Redis. (`/repo/providers/persistence/coerce-redis/src/journal/mod.rs` 31-37 and 128-269.) -/
def World.redis {ε σ : Type} (A : App ε σ) (pid : String) (ops : List (Op ε)) : World RedisStore σ :=
  World.run (redisStorage (redisKey false "")) A pid ⟨fun _ => [], []⟩ ops

end Verif.Persist.Copies
