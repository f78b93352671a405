import Verif.Persist.CopiesModel

/-!
# An event-sourced actor over any storage

`Live` of `ActorModel` with the storage as a parameter: the journal (`/repo/coerce/src/persistent/journal/mod.rs` 25-428)
and the actor are the same over every storage (`JournalStorage`, `/repo/coerce/src/persistent/journal/storage.rs` 14-54).
-/

namespace Verif.Persist

/-- one such actor over a storage. `state = none`: it did not come up. (`/repo/coerce/src/persistent/context.rs` 6-9.)
-/
structure Alive (τ σ : Type) where
  sys : Sys τ
  state : Option σ

section
variable {τ ε σ : Type} (S : Storage τ) (A : App ε σ) (pid : String)

/-- a fresh start on a storage. (`/repo/coerce/src/persistent/journal/mod.rs` 34-45.) -/
def Alive.init (A : App ε σ) (st : τ) : Alive τ σ := ⟨Sys.init st, some A.init⟩

/-- one command (`/repo/coerce/src/persistent/actor.rs` 31-140; 230-296 for a crash and the start after it). -/
def Alive.step (l : Alive τ σ) (c : Cmd ε) : Alive τ σ :=
  match l.state with
  | none => l
  | some s =>
    let sys := l.sys.step S pid (c.op A s)
    match c with
    | .event e o => ⟨sys, some (if o.acked then A.app s e else s)⟩
    | .events es o => ⟨sys, some (if o.acked then es.foldl A.app s else s)⟩
    | .save _ => ⟨sys, some s⟩
    | .trim _ => ⟨sys, some s⟩
    | .crash n => ⟨sys, (started A.user (.retry .untilSuccess) A.init (List.replicate n false ++ [true])
        (l.sys.recovered S A.known pid)).up⟩

/-- any sequence of commands (`/repo/coerce/src/persistent/actor.rs` 31-140 and 230-296). -/
def Alive.run (l : Alive τ σ) (cs : List (Cmd ε)) : Alive τ σ := cs.foldl (Alive.step S A pid) l

end

/-- the actor over Redis, in which it has nothing yet. (`/repo/providers/persistence/coerce-redis/src/journal/mod.rs`
128-269.) -/
def Alive.redis {ε σ : Type} (hashtags : Bool) (pre : String) (A : App ε σ) (pid : String) (cs : List (Cmd ε)) :
    Alive RedisStore σ :=
  (Alive.init A fun _ => []).run (redisStorage (redisKey hashtags pre)) A pid cs

end Verif.Persist
