import Verif.Persist.Model

/-!
# One Redis, many journals

The Redis storage of a node is an actor, `RedisJournal`, to which every persistent actor of the node sends its
requests (`/repo/providers/persistence/coerce-redis/src/journal/mod.rs` 31-38, 127-269). It does not wait for Redis:
for every request but one it spawns a task that talks to Redis and answers the caller, and goes on to the next request
(`/repo/providers/persistence/coerce-redis/src/journal/actor.rs` 82-259). Only `Delete` is waited for in the handler
itself (262-274). Any number of nodes use the same Redis. This file models all of them together, with requests, tasks,
commands and replies on their way, failures of the connection, and nodes that stop or crash.
-/

namespace Verif.Persist.Shared

/-- the messages of the journal actor, `/repo/providers/persistence/coerce-redis/src/journal/actor.rs` 9-73. -/
inductive Req where
  | write (key : String) (e : Entry)
  | batch (key : String) (es : List Entry)
  | deleteRange (key : String) (start stop : Int)
  | latest (key : String)
  | one (key : String) (seq : Int)
  | range (key : String) (start stop : Option Int)
  | delete (keys : List String)
deriving DecidableEq, Repr

/-- what is sent over the `result_channel` when Redis did its work: `()`, `Option<JournalEntry>` or
`Option<Vec<JournalEntry>>`. (`/repo/providers/persistence/coerce-redis/src/journal/actor.rs` 9-73.) -/
inductive Ans where
  | done
  | entry (e : Option Entry)
  | entries (es : Option (List Entry))
deriving DecidableEq, Repr

/-- the command of a request, carried out by Redis, and the answer made of its reply: `ZADD` 86-91 and 112-121,
`ZREMRANGEBYSCORE` 139-144, `ZRANGE … REV LIMIT 0 1` 165-180, `ZRANGE` with one score 200-212 (the first member), with
two 233-250, `DEL` 267-270 of `/repo/providers/persistence/coerce-redis/src/journal/actor.rs`. Redis carries out one
command at a time. Simplification: every member of a set is an entry the journal wrote, so that `read_journal_entry`
(276-278) gives it back, and a batch is not empty (for which `ZADD` is an error; an empty batch is not written:
`/repo/coerce/src/persistent/actor.rs` 66-68). -/
def Req.exec (st : RedisStore) : Req → RedisStore × Ans
  | .write k e => (redisWrite st k e, .done)
  | .batch k es => (redisWriteBatch st k es, .done)
  | .deleteRange k a b => (st.set k ((st k).filter fun e => !(decide (a ≤ e.seq) && decide (e.seq ≤ b))), .done)
  | .latest k => (st, .entry (redisReadSnapshot st k))
  | .one k n => (st, .entry (redisReadRange st k n (some n)).head?)
  | .range k a b => (st, .entries (some (redisReadRange st k (a.getD 0) b)))
  | .delete ks => (ks.foldl (fun s k => s.set k []) st, .done)

/-- `Delete` is the only message whose handler waits for Redis,
`/repo/providers/persistence/coerce-redis/src/journal/actor.rs` 262-274. -/
def Req.waitedFor : Req → Bool
  | .delete _ => true
  | _ => false

/-- the methods of `JournalStorage`, `/repo/coerce/src/persistent/journal/storage.rs` 14-54. -/
inductive Method where
  | writeSnapshot (e : Entry)
  | writeMessage (e : Entry)
  | writeBatch (es : List Entry)
  | readLatestSnapshot
  | readLatestMessages (frm : Int)
  | readMessage (seq : Int)
  | readMessages (frm to : Int)
  | deleteMessagesTo (to : Int)
  | deleteAll
deriving DecidableEq, Repr

/-- the request a method sends to the journal actor, `key` being `key_provider_fn`:
`/repo/providers/persistence/coerce-redis/src/journal/mod.rs` 132-268. -/
def Method.req (key : String → String → String) (pid : String) : Method → Req
  | .writeSnapshot e => .write (key pid "snapshot") e
  | .writeMessage e => .write (key pid "journal") e
  | .writeBatch es => .batch (key pid "journal") es
  | .readLatestSnapshot => .latest (key pid "snapshot")
  | .readLatestMessages frm => .range (key pid "journal") (some frm) none
  | .readMessage n => .one (key pid "journal") n
  | .readMessages frm to => .range (key pid "journal") (some frm) (some to)
  | .deleteMessagesTo to => .deleteRange (key pid "journal") 0 to
  | .deleteAll => .delete [key pid "journal", key pid "snapshot"]

/-- a request on its way; `id` numbers the calls (it stands for the `oneshot` channel made at
`/repo/providers/persistence/coerce-redis/src/journal/mod.rs` 137, 150, 167, 183, 197, 214, 232, 249), `node` is the
node, whose journal actor it is sent to. -/
structure Job where
  id : Nat
  node : Nat
  req : Req
deriving DecidableEq, Repr

/-- all nodes and the Redis they share: the sets, the number of the next call, the requests in the mailboxes of the
journal actors (in the order they were sent; those of a node are its mailbox), the nodes whose journal actor has ended,
the tasks waiting for Redis (with the handlers of `Delete`), the commands sent to Redis, and its replies that are on
their way back. (`/repo/providers/persistence/coerce-redis/src/journal/actor.rs` 9, 82-274.) -/
structure Sys where
  store : RedisStore
  next : Nat := 0
  queue : List Job := []
  down : List Nat := []
  tasks : List Job := []
  wire : List Job := []
  replies : List (Nat × Ans) := []

/-- what can happen.
* `call`: a persistent actor of a node calls the storage,
  `/repo/providers/persistence/coerce-redis/src/journal/mod.rs` 132-268;
* `handle`: the journal actor of a node takes its next message,
  `/repo/providers/persistence/coerce-redis/src/journal/actor.rs` 82-274;
* `exec`: Redis carries out a command; `deliver`: the task has its reply and answers the caller; `fail`: the task has an
  error instead (92-97, 121-125, 181-184), no matter how far the command came; `drop`: a command gets lost;
* `stop`: the journal actor of a node ends; `crash`: the process of a node does.
Commands may be carried out in any order: they are sent by independent tasks. A node that comes back has a new number. -/
inductive Op where
  | call (node : Nat) (req : Req)
  | handle (node : Nat)
  | exec (id : Nat)
  | deliver (id : Nat)
  | fail (id : Nat)
  | drop (id : Nat)
  | stop (node : Nat)
  | crash (node : Nat)
deriving DecidableEq, Repr

/-- what callers do and see: a call is made, it is answered, it fails, or nobody is left to hear of it.
(`/repo/providers/persistence/coerce-redis/src/journal/mod.rs` 140-146: `notify(..)?` and `rx.await?`.) -/
inductive Ev where
  | called (id node : Nat) (req : Req)
  | answered (id : Nat) (a : Ans)
  | failed (id : Nat)
  | lost (id : Nat)
deriving DecidableEq, Repr

/-- the journal actor of the node is in the handler of a `Delete`,
`/repo/providers/persistence/coerce-redis/src/journal/actor.rs` 266-273. -/
def Sys.busy (σ : Sys) (n : Nat) : Bool := σ.tasks.any fun j => j.node == n && j.req.waitedFor

/-- a storage method is called: the request is put into the mailbox (`notify`, or `send` for `Delete`); if the journal
actor has ended this fails at once. `/repo/providers/persistence/coerce-redis/src/journal/mod.rs` 132-268. -/
def Sys.call (σ : Sys) (n : Nat) (r : Req) : Sys × List Ev :=
  if n ∈ σ.down then ({ σ with next := σ.next + 1 }, [.called σ.next n r, .failed σ.next])
  else ({ σ with next := σ.next + 1, queue := σ.queue ++ [⟨σ.next, n, r⟩] }, [.called σ.next n r])

/-- the journal actor takes the oldest message of its mailbox, unless it is in the middle of another: the command is
made and sent, by a task of its own or (for `Delete`) by the handler.
`/repo/providers/persistence/coerce-redis/src/journal/actor.rs` 82-274. -/
def Sys.handle (σ : Sys) (n : Nat) : Sys × List Ev :=
  if σ.busy n then (σ, [])
  else match σ.queue.find? fun j => j.node == n with
    | none => (σ, [])
    | some j => ({ σ with
        queue := σ.queue.filter fun x => x.id != j.id
        tasks := σ.tasks ++ [j]
        wire := σ.wire ++ [j] }, [])

/-- Redis carries out a command; its reply goes to the task, if that still waits.
`/repo/providers/persistence/coerce-redis/src/journal/actor.rs` 86-91, 121, 139-144, 165-173, 200-206, 238-244,
267-270. -/
def Sys.exec (σ : Sys) (i : Nat) : Sys × List Ev :=
  match σ.wire.find? fun j => j.id == i with
  | none => (σ, [])
  | some j =>
    let r := j.req.exec σ.store
    ({ σ with
        store := r.1
        wire := σ.wire.filter fun x => x.id != i
        replies := if σ.tasks.any (fun x => x.id == i) then σ.replies ++ [(i, r.2)] else σ.replies }, [])

/-- the reply is there: the caller is answered and the task ends.
`/repo/providers/persistence/coerce-redis/src/journal/actor.rs` 95-97, 123-125, 148-150, 176-180, 209-213, 247-251,
272. -/
def Sys.deliver (σ : Sys) (i : Nat) : Sys × List Ev :=
  match σ.replies.find? fun p => p.1 == i with
  | none => (σ, [])
  | some p => ({ σ with tasks := σ.tasks.filter fun x => x.id != i, replies := σ.replies.filter fun q => q.1 != i },
      [.answered i p.2])

/-- the connection gives an error, or the task panics: the caller has an error. What becomes of the command is open.
`/repo/providers/persistence/coerce-redis/src/journal/actor.rs` 92-94, 121-122, 145-147, 181-184, 214-217, 252-255,
270. -/
def Sys.fail (σ : Sys) (i : Nat) : Sys × List Ev :=
  if σ.tasks.any (fun x => x.id == i) then
    ({ σ with tasks := σ.tasks.filter fun x => x.id != i, replies := σ.replies.filter fun q => q.1 != i }, [.failed i])
  else (σ, [])

/-- the journal actor ends, between two messages: the messages left in its mailbox are dropped and with them the
channels, so that the callers have an error (`rx.await?`, `/repo/providers/persistence/coerce-redis/src/journal/mod.rs`
146, 159, 176, 189, 206, 223, 241, 258, 267). Its tasks go on. -/
def Sys.stop (σ : Sys) (n : Nat) : Sys × List Ev :=
  if σ.busy n then (σ, [])
  else ({ σ with down := n :: σ.down, queue := σ.queue.filter fun x => x.node != n },
    (σ.queue.filter fun x => x.node == n).map fun x => .failed x.id)

/-- the process of a node ends: its callers, its journal actor and its tasks are gone; commands already sent may still
reach Redis. (`/repo/providers/persistence/coerce-redis/src/journal/actor.rs` 84, 109, 137, 162, 197, 230: tasks of the
process.) -/
def Sys.crash (σ : Sys) (n : Nat) : Sys × List Ev :=
  ({ σ with
      down := n :: σ.down
      queue := σ.queue.filter fun x => x.node != n
      tasks := σ.tasks.filter fun x => x.node != n
      replies := σ.replies.filter fun q => (σ.tasks.filter fun x => x.node != n).any (fun x => x.id == q.1) },
    ((σ.queue.filter fun x => x.node == n) ++ σ.tasks.filter fun x => x.node == n).map fun x => .lost x.id)

/-- one step, `/repo/providers/persistence/coerce-redis/src/journal/actor.rs` 82-274 and
`/repo/providers/persistence/coerce-redis/src/journal/mod.rs` 132-268. -/
def Sys.step (σ : Sys) : Op → Sys × List Ev
  | .call n r => σ.call n r
  | .handle n => σ.handle n
  | .exec i => σ.exec i
  | .deliver i => σ.deliver i
  | .fail i => σ.fail i
  | .drop i => ({ σ with wire := σ.wire.filter fun x => x.id != i }, [])
  | .stop n => σ.stop n
  | .crash n => σ.crash n

/-- any sequence of steps with the history it leaves, `/repo/providers/persistence/coerce-redis/src/journal/actor.rs`
82-274. -/
def Sys.runs (σ : Sys) : List Op → Sys × List Ev
  | [] => (σ, [])
  | op :: ops =>
    let r := σ.step op
    let q := r.1.runs ops
    (q.1, r.2 ++ q.2)

/-- Redis and the nodes before the first request (`/repo/providers/persistence/coerce-redis/src/journal/mod.rs`
86-119). -/
def start (st : RedisStore) : Sys := { store := st }

end Verif.Persist.Shared
