import Verif.Sharding.EntityModel
import Verif.Persist.CopiesModel

/-!
# An entity that is a persistent actor, as its shard moves

The system of `EntityModel`, and the copies of `CopiesModel`: every instance of the entity `e`, on whatever node, is a copy
of one persistent actor, since the persistence key is the id of the entity by default
(`/repo/coerce/src/persistent/actor.rs` 19-21) and the nodes share the storage. An instance reads the journal while it is
being created (`started`, `/repo/coerce/src/persistent/actor.rs` 230-296, runs before `new_supervised_actor` returns), and
writes while it is running. An instance that has ended does nothing more; it is left in the list of copies.
-/

namespace Verif.Sharding
open Verif.Persist

/-- a number for the instance `i` of the entity under instance `a` of the shard on node `d`. (A device of the model:
every `start_entity`, `/repo/coerce/src/sharding/shard/mod.rs` 283-319, makes an actor of its own.) -/
def pairNo (a b : Nat) : Nat := 2 ^ a * (2 * b + 1)

/-- a number for the instance `i` of the entity under instance `a` of the shard on node `d` (every `start_entity`,
`/repo/coerce/src/sharding/shard/mod.rs` 283-319, makes an actor of its own). -/
def copyNo (d a i : Nat) : Nat := pairNo d (pairNo a i)

/-- `reads`: the instances, running or being created, that have read the journal; `log`: what the copies have done
with it. (`PersistentActor`, `/repo/coerce/src/persistent/actor.rs` 217-296.) -/
structure Durable (R ε : Type) where
  mov : Moving R
  reads : List (Nat × Nat × Nat) := []
  log : List (Copies.Op ε) := []

/-- what can happen: the steps of the shards and hosts, and an instance reading
(`/repo/coerce/src/persistent/actor.rs` 217-296) or writing (`/repo/coerce/src/persistent/actor.rs` 31-59) the
journal. -/
inductive DurOp (R ε : Type) where
  | mov (op : MovOp R)
  /-- the instance `i` reads the journal, after `n` failures to do so. -/
  | read (d a i n : Nat)
  /-- the instance `i` writes to its journal. -/
  | use (d a i : Nat) (cmd : Cmd ε)

/-- the instance `i` of `e` is being created. (`/repo/coerce/src/sharding/shard/mod.rs` 283-319.) -/
def Life.pending (l : Life) (e i : Nat) : Bool := l.shard.starting.any fun t => decide (t.e = e ∧ t.i = i ∧ t ∉ l.done)

/-- it is running or being created. (`/repo/coerce/src/sharding/shard/mod.rs` 283-319.) -/
def Life.present (l : Life) (e i : Nat) : Bool := decide ((e, i) ∈ l.live) || l.pending e i

/-- the instance, if it is one of `e`, that an operation makes running. (`EntityStartResult` with `Ok`,
`/repo/coerce/src/sharding/shard/mod.rs` 227-280.) -/
def LifeOp.up? (e : Nat) : LifeOp → Option Nat
  | .comesUp t => if t.e = e then some t.i else none
  | _ => none

variable {R ε : Type}

/-- whether an operation may take place: an instance of `e` is running only after it has read the journal.
(`/repo/coerce/src/actor/lifecycle.rs` 52-80: the loop reports that an actor has started after `started`, and for a
persistent actor that reads the journal, `/repo/coerce/src/persistent/actor.rs` 217-296.) -/
def Durable.allows (e : Nat) (σ : Durable R ε) : MovOp R → Bool
  | .sys _ => true
  | .ent d a op => match op.up? e with
    | some i => decide ((d, a, i) ∈ σ.reads)
    | none => true

/-- a use of the journal that is not a start. (`/repo/coerce/src/persistent/actor.rs` 31-112.) -/
def writes {ε : Type} : Cmd ε → Bool
  | .crash _ => false
  | _ => true

/-- one operation; those of the system by `Moving.step`, those of the journal by `Copies`
(`/repo/coerce/src/persistent/actor.rs` 31-112 and 217-296). -/
def Durable.step (s : Nat) (f : R → Nat) (e : Nat) (σ : Durable R ε) : DurOp R ε → Durable R ε
  | .mov op =>
    if σ.allows e op then
      { σ with
          mov := σ.mov.step s f op
          reads := σ.reads.filter fun x => ((σ.mov.step s f op).life x.1 x.2.1).present e x.2.2 }
    else σ
  | .read d a i n =>
    if (σ.mov.life d a).pending e i = true ∧ (d, a, i) ∉ σ.reads then
      { σ with reads := (d, a, i) :: σ.reads, log := σ.log ++ [.act (copyNo d a i) (.crash n)] }
    else σ
  | .use d a i cmd =>
    if (e, i) ∈ (σ.mov.life d a).live ∧ writes cmd = true then { σ with log := σ.log ++ [.act (copyNo d a i) cmd] } else σ

/-- any number of operations (`/repo/coerce/src/sharding/shard/mod.rs` 283-319, `/repo/coerce/src/persistent/actor.rs`
31-112). -/
def Durable.run (s : Nat) (f : R → Nat) (e : Nat) (σ : Durable R ε) (ops : List (DurOp R ε)) : Durable R ε :=
  ops.foldl (Durable.step s f e) σ

/-- the system as it starts, nothing read or written (`/repo/coerce/src/sharding/mod.rs` 70-107). -/
def Durable.start (self : Nat) (nodes : List (Nat × Bool)) (journal : List Nat) : Durable R ε :=
  { mov := Moving.start self nodes journal }

/-- the state of an instance, over the in-memory storage as all nodes see it. (`/repo/coerce/src/persistent/actor.rs`
217-296.) -/
def Durable.state {σ : Type} (A : App ε σ) (pid : String) (w : Durable R ε) (d a i : Nat) : Option σ :=
  (Copies.World.mem A pid w.log).state (copyNo d a i)

/-- the same over a Redis that all nodes use. (`/repo/coerce/src/persistent/actor.rs` 217-296,
`/repo/providers/persistence/coerce-redis/src/journal/mod.rs` 128-269.) -/
def Durable.redisState {σ : Type} (hashtags : Bool) (pre : String) (A : App ε σ) (pid : String) (w : Durable R ε) (d a i : Nat) :
    Option σ :=
  (Copies.World.run (redisStorage (redisKey hashtags pre)) A pid ⟨fun _ => [], []⟩ w.log).state (copyNo d a i)

end Verif.Sharding
