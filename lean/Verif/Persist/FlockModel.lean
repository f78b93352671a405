import Verif.Persist.ClientModel

/-!
# Copies of a persistent actor on a Redis that is shared and fails

`CopiesModel` has copies of one persistent actor whose operations on the storage are done at once; `ClientModel` has one
actor that calls the Redis of `SharedModel` and waits. Here any number of copies, on any nodes, call that Redis at the same
time, and each goes on when it hears what came of its call. This is what coordinators of shards are when two nodes hold
themselves to be the leader, and shards that are started on a new node while the old one still writes.

What is simplified: a copy persists events, one or several; it saves no snapshots and does not trim (with these, copies
lose events even when all goes well: `C90_snapshot_refuted`, `C90_trim_refuted`). A failed recovery ends the copy; the next
attempt is a new start (as `boot` in `ClientModel`). Nothing else of the actors' work is here.
-/

namespace Verif.Persist.Flock

open Verif.Persist.Shared (Method Ans)

/-- what a copy persists: `persist` or `persist_batch`, `/repo/coerce/src/persistent/actor.rs` 31-83. -/
inductive Work (ε : Type) where
  | event (e : ε)
  | events (es : List ε)

/-- its events, `/repo/coerce/src/persistent/actor.rs` 31-83. -/
def Work.list {ε : Type} : Work ε → List ε
  | .event e => [e]
  | .events es => es

/-- what a copy is at: it does not run; it has asked for the latest snapshot, or for the messages since; it runs, with its
journal and its state; it has asked to write. `id` is the number of the call it waits for.
(`/repo/coerce/src/persistent/recovery.rs` 84-101, `/repo/coerce/src/persistent/actor.rs` 31-83.) -/
inductive Phase (ε σ : Type) where
  | off
  | snapshot (id : Nat)
  | messages (id : Nat) (j : Journal) (snap : Option Payload)
  | up (j : Journal) (s : σ)
  | writing (id : Nat) (j : Journal) (s : σ) (w : Work ε)

/-- the call a copy waits for (`.await`: `/repo/coerce/src/persistent/journal/mod.rs` 222, 269, 330, 362). -/
def Phase.waits {ε σ : Type} : Phase ε σ → Option Nat
  | .snapshot i => some i
  | .messages i _ _ => some i
  | .writing i _ _ _ => some i
  | _ => none

/-- how a copy goes on: with no call, or with another call and what it is at then.
(`/repo/coerce/src/persistent/recovery.rs` 84-101, `/repo/coerce/src/persistent/actor.rs` 42-54, 69-80.) -/
inductive Next (ε σ : Type) where
  | stay (p : Phase ε σ)
  | call (m : Method) (p : Nat → Phase ε σ)

/-- the nodes and their Redis, what was called and answered so far, the copies (each with its node), and the events that
were reported as persisted, each with the copy it was reported to.
(`/repo/providers/persistence/coerce-redis/src/journal/mod.rs` 128-269, `/repo/coerce/src/persistent/context.rs` 6-30.) -/
structure World (ε σ : Type) where
  sys : Shared.Sys
  hist : List Shared.Ev := []
  copies : Nat → Nat × Phase ε σ := fun _ => (0, .off)
  acked : List (Nat × ε) := []

/-- what happens: a copy is started on a node; one that runs is to persist something; one hears what came of its call; one
ends; anything happens to Redis and the nodes, calls by others included.
(`/repo/coerce/src/persistent/actor.rs` 31-83, 230-296.) -/
inductive Op (ε : Type) where
  | start (c node : Nat)
  | work (c : Nat) (w : Work ε)
  | hear (c : Nat)
  | ends (c : Nat)
  | sys (o : Shared.Op)

/-- how a call came to an end for its caller, if it has: with an answer or with an error.
(`/repo/providers/persistence/coerce-redis/src/journal/mod.rs` 140-146: `notify(..)?` and `rx.await?`.) -/
def outcomeOf (i : Nat) : List Shared.Ev → Option (Option Ans)
  | [] => none
  | .answered j a :: h => if j = i then some (some a) else outcomeOf i h
  | .failed j :: h => if j = i then some none else outcomeOf i h
  | _ :: h => outcomeOf i h

section
variable {ε σ : Type} (A : App ε σ) (key : String → String → String) (pid : String)

/-- the writing of a journal: `persist_message` gives the counter as the number, `/repo/coerce/src/persistent/journal/mod.rs`
254-288, `persist_batch` goes on from it, 207-233. -/
def Work.method (w : Work ε) (j : Journal) : Method :=
  match w with
  | .event e => .writeMessage ⟨j.last, (A.enc e).ptype, (A.enc e).bytes⟩
  | .events es => .writeBatch (numberBatch j.last (es.map A.enc))

/-- a copy comes up with what was recovered, or ends: `/repo/coerce/src/persistent/actor.rs` 230-296. -/
def comesUp (j : Journal) (r : Recovered) : Phase ε σ :=
  match (started A.user (.retry .untilSuccess) A.init [true] r).up with
  | some s => .up j s
  | none => .off

/-- a copy that asked for the latest snapshot: `recover_snapshot`, `/repo/coerce/src/persistent/journal/mod.rs` 322-353, then
`recover_messages`, 355-366. -/
def onSnapshot : Option Ans → Next ε σ
  | some (.entry none) => .call (.readLatestMessages 0) fun i => .messages i (Journal.new pid) none
  | some (.entry (some e)) => .call (.readLatestMessages e.seq) fun i =>
      .messages i { Journal.new pid with last := e.seq, lastSnap := some e.seq }
        (if A.known.snapshot e.ptype then some e.payload else none)
  | _ => .stay .off

/-- a copy that asked for the messages: the rest of `recover_messages`, `/repo/coerce/src/persistent/journal/mod.rs` 362-411. -/
def onMessages (j : Journal) (snap : Option Payload) : Option Ans → Phase ε σ
  | some (.entries none) => comesUp A j ⟨snap, none⟩
  | some (.entries (some es)) =>
    let rs := (es.filter fun e => A.known.message e.ptype).map Entry.payload
    comesUp A { j with last := lastSeq j.last es } ⟨snap, if rs.length = 0 then none else some rs⟩
  | _ => .off

/-- a copy that asked to write: it goes on with what was written, or asks again
(`/repo/coerce/src/persistent/actor.rs` 42-54, 69-80, `check` 171-214 with the default policy). With it the events that are
reported as persisted. -/
def onWritten (j : Journal) (s : σ) (w : Work ε) : Option Ans → Next ε σ × List ε
  | some _ => (.stay (.up { j with last := j.last + w.list.length } (w.list.foldl A.app s)), w.list)
  | none => (.call (w.method A j) fun i => .writing i j s w, [])

/-- what a copy does next when its call has come to an end: `/repo/coerce/src/persistent/recovery.rs` 84-101,
`/repo/coerce/src/persistent/actor.rs` 42-54, 69-80. -/
def Phase.resume (p : Phase ε σ) (r : Option Ans) : Next ε σ × List ε :=
  match p with
  | .snapshot _ => (onSnapshot A pid r, [])
  | .messages _ j snap => (.stay (onMessages A j snap r), [])
  | .writing _ j s w => onWritten A j s w r
  | p => (.stay p, [])

/-- a copy is at something else, `/repo/coerce/src/persistent/context.rs` 6-11. -/
def World.put (w : World ε σ) (c n : Nat) (p : Phase ε σ) : World ε σ :=
  { w with copies := fun d => if d = c then (n, p) else w.copies d }

/-- something happens to Redis and the nodes; when a node crashes its copies are gone.
(`/repo/providers/persistence/coerce-redis/src/journal/actor.rs` 82-274.) -/
def World.redis (w : World ε σ) (o : Shared.Op) : World ε σ :=
  let r := w.sys.step o
  { w with
    sys := r.1
    hist := w.hist ++ r.2
    copies := match o with
      | .crash n => fun c => if (w.copies c).1 = n then (n, .off) else w.copies c
      | _ => w.copies }

/-- a copy on node `n` calls a method of the storage and waits (`/repo/coerce/src/persistent/journal/storage.rs` 14-54). -/
def World.call (w : World ε σ) (c n : Nat) (m : Method) (p : Nat → Phase ε σ) : World ε σ :=
  (w.redis (.call n (m.req key pid))).put c n (p w.sys.next)

/-- a copy goes on (`/repo/coerce/src/persistent/actor.rs` 42-54, 69-80, `/repo/coerce/src/persistent/recovery.rs` 84-101). -/
def World.go (w : World ε σ) (c n : Nat) : Next ε σ → World ε σ
  | .stay p => w.put c n p
  | .call m p => w.call key pid c n m p

/-- a copy hears what came of its call, if it has come to an end.
(`/repo/providers/persistence/coerce-redis/src/journal/mod.rs` 140-146.) -/
def World.hear (w : World ε σ) (c : Nat) : World ε σ :=
  match (w.copies c).2.waits with
  | none => w
  | some i => match outcomeOf i w.hist with
    | none => w
    | some r =>
      let x := (w.copies c).2.resume A pid r
      { w.go key pid c (w.copies c).1 x.1 with acked := w.acked ++ x.2.map fun e => (c, e) }

/-- a copy that runs persists something: `/repo/coerce/src/persistent/actor.rs` 31-83; nothing is written for an empty batch,
66-68. -/
def World.work (w : World ε σ) (c : Nat) (x : Work ε) : World ε σ :=
  match (w.copies c).2 with
  | .up j s =>
    if x.list.isEmpty then w
    else w.call key pid c (w.copies c).1 (x.method A j) fun i => .writing i j s x
  | _ => w

/-- a copy is started: `/repo/coerce/src/persistent/actor.rs` 230-296, `/repo/coerce/src/persistent/recovery.rs` 84-101. -/
def World.start (w : World ε σ) (c n : Nat) : World ε σ :=
  match (w.copies c).2 with
  | .off => w.call key pid c n .readLatestSnapshot .snapshot
  | _ => w

/-- one step, `/repo/coerce/src/persistent/actor.rs` 31-83, 230-296. -/
def World.step (w : World ε σ) : Op ε → World ε σ
  | .start c n => w.start key pid c n
  | .work c x => w.work A key pid c x
  | .hear c => w.hear A key pid c
  | .ends c => w.put c (w.copies c).1 .off
  | .sys o => w.redis o

/-- any sequence of steps, `/repo/coerce/src/persistent/actor.rs` 31-83, 230-296. -/
def World.run (w : World ε σ) (ops : List (Op ε)) : World ε σ := ops.foldl (World.step A key pid) w

end

/-- before anything was called, `/repo/providers/persistence/coerce-redis/src/journal/mod.rs` 86-119. -/
def World.init {ε σ : Type} (st : RedisStore) : World ε σ := { sys := Shared.start st }

end Verif.Persist.Flock
