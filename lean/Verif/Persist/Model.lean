import Verif.Proto.Wire

/-!
# Journal, journal storage and persistence retry loops

Models `/repo/coerce/src/persistent/**` and the Redis provider
`/repo/providers/persistence/coerce-redis/src/journal/**`.

Conventions: `i64` sequence numbers are `Int` (no overflow); a `HashMap` keyed by persistence id is a
function; `&mut self` methods return the new state; a storage call that may fail takes a
`WriteOutcome`.
-/

namespace Verif.Persist

open Verif.Proto

/-- `JournalEntry`, `/repo/coerce/src/persistent/journal/storage.rs` 7-11. -/
structure Entry where
  seq : Int
  ptype : String
  bytes : Bytes
deriving DecidableEq, Repr

/-- What a caller persists: type identifier and serialised message
(`BatchedEntry`, `/repo/coerce/src/persistent/batch.rs` 15-19). -/
structure Payload where
  ptype : String
  bytes : Bytes
deriving DecidableEq, Repr

/-- an entry without its number, `/repo/coerce/src/persistent/journal/storage.rs` 7-11. -/
def Entry.payload (e : Entry) : Payload := ⟨e.ptype, e.bytes⟩

/-! ### Entry encoding -/

/-- fields written by the generated `JournalEntry::write_to_with_cached_sizes`,
`/repo/coerce/src/persistent/journal/proto/journal.rs` 122-134. -/
def Entry.fields (e : Entry) : List Field :=
  fInt64 1 e.seq ++ fString 2 e.ptype ++ fBytes 3 e.bytes

/-- `JournalEntry::write_to_bytes`, `/repo/coerce/src/persistent/journal/storage.rs` 76-91. -/
def Entry.write (e : Entry) : Bytes := encodeFields e.fields

/-- one round of the generated `merge_from` loop (tags 8, 18, 26, others skipped),
`/repo/coerce/src/persistent/journal/proto/journal.rs` 87-105. `none` = parse error. -/
def Entry.merge (e : Entry) : Field → Option Entry
  | (1, .varint n) => some { e with seq := toInt64 n }
  | (2, .len b) => (bytesStr b).map fun s => { e with ptype := s }
  | (3, .len b) => some { e with bytes := b }
  | _ => some e

/-- `JournalEntry::read_from_slice`, `/repo/coerce/src/persistent/journal/storage.rs` 59-70. -/
def Entry.read (bs : Bytes) : Option Entry :=
  (parseFields bs).bind fun fs => fs.foldlM Entry.merge ⟨0, "", []⟩

/-! ### The storage interface -/

/-- What happened to one storage write: performed and acknowledged, rejected without effect, or performed although an
error came back. (The three ways in which `Result<()>` of `/repo/coerce/src/persistent/journal/storage.rs` 14-54 can
come about.) -/
inductive WriteOutcome where
  | ok | rejected | lostAck
deriving DecidableEq, Repr

/-- the write reached the storage. (`/repo/coerce/src/persistent/journal/storage.rs` 17-25.) -/
def WriteOutcome.stored : WriteOutcome → Bool
  | .ok => true | .rejected => false | .lostAck => true

/-- the caller sees `Ok`. (`/repo/coerce/src/persistent/journal/storage.rs` 17-25.) -/
def WriteOutcome.acked : WriteOutcome → Bool
  | .ok => true | .rejected => false | .lostAck => false

/-- `trait JournalStorage`, `/repo/coerce/src/persistent/journal/storage.rs` 14-54 (the methods the
journal uses). -/
structure Storage (σ : Type) where
  writeSnapshot : σ → String → Entry → σ
  writeMessage : σ → String → Entry → σ
  writeBatch : σ → String → List Entry → σ
  readLatestSnapshot : σ → String → Option Entry
  readLatestMessages : σ → String → Int → Option (List Entry)
  deleteMessagesTo : σ → String → Int → σ
  deleteAll : σ → String → σ

/-! ### In-memory storage, `/repo/coerce/src/persistent/journal/provider.rs` -/

/-- `ActorJournal`, `/repo/coerce/src/persistent/journal/provider.rs` 19-46. -/
structure ActorJournal where
  snapshots : List Entry
  messages : List Entry
deriving DecidableEq, Repr

/-- `InMemoryJournalStorage.store : HashMap<String, ActorJournal>`, `/repo/coerce/src/persistent/journal/provider.rs` 48-51. -/
abbrev MemStore := String → Option ActorJournal

/-- `HashMap::insert` and `remove` of the store, `/repo/coerce/src/persistent/journal/provider.rs` 49-51. -/
def MemStore.set (st : MemStore) (pid : String) (j : Option ActorJournal) : MemStore :=
  fun p => if p = pid then j else st p

/-- `/repo/coerce/src/persistent/journal/provider.rs` 72-88. -/
def memWriteSnapshot (st : MemStore) (pid : String) (e : Entry) : MemStore :=
  match st pid with
  | some j => st.set pid (some { j with snapshots := j.snapshots ++ [e] })
  | none => st.set pid (some ⟨[e], []⟩)

/-- `/repo/coerce/src/persistent/journal/provider.rs` 90-106. -/
def memWriteMessage (st : MemStore) (pid : String) (e : Entry) : MemStore :=
  match st pid with
  | some j => st.set pid (some { j with messages := j.messages ++ [e] })
  | none => st.set pid (some ⟨[], [e]⟩)

/-- `/repo/coerce/src/persistent/journal/provider.rs` 108-125. -/
def memWriteBatch (st : MemStore) (pid : String) (es : List Entry) : MemStore :=
  match st pid with
  | some j => st.set pid (some { j with messages := j.messages ++ es })
  | none => st.set pid (some ⟨[], es⟩)

/-- `/repo/coerce/src/persistent/journal/provider.rs` 127-135. -/
def memReadLatestSnapshot (st : MemStore) (pid : String) : Option Entry :=
  (st pid).bind fun j => j.snapshots.getLast?

/-- `messages[i..]` for the first index whose sequence is `> from`, or empty (`/repo/coerce/src/persistent/journal/provider.rs` 147-158). -/
def suffixAfter (frm : Int) (l : List Entry) : List Entry :=
  l.dropWhile fun e => !(decide (e.seq > frm))

/-- `/repo/coerce/src/persistent/journal/provider.rs` 137-171. -/
def memReadLatestMessages (st : MemStore) (pid : String) (frm : Int) : Option (List Entry) :=
  (st pid).map fun j => if frm = 0 then j.messages else suffixAfter frm j.messages

/-- `/repo/coerce/src/persistent/journal/provider.rs` 173-188. -/
def memReadMessage (st : MemStore) (pid : String) (seq : Int) : Option Entry :=
  (st pid).bind fun j => j.messages.find? fun e => e.seq = seq

/-- Outcome of a call that can hit `panic!("todo: this")`. (`/repo/coerce/src/persistent/journal/provider.rs` 204-205
and 245.) -/
inductive Res (α : Type) where
  | ok (a : α)
  | panic
deriving DecidableEq, Repr

/-- `/repo/coerce/src/persistent/journal/provider.rs` 190-250. -/
def memReadMessages (st : MemStore) (pid : String) (frm to : Int) : Res (Option (List Entry)) :=
  match st pid with
  | none => .ok none
  | some j =>
    match j.messages with
    | [] => .ok none
    | first :: rest =>
      let final := (first :: rest).getLast (by simp)
      if to ≥ final.seq then
        if first.seq ≥ frm then .ok (some j.messages)
        else .ok (some (suffixAfter frm j.messages))
      else if first.seq ≥ frm then
        -- `end_message` is the first index with `sequence > from_sequence` (sic)
        if j.messages.any fun e => decide (e.seq > frm) then
          .ok (some (j.messages.takeWhile fun e => !(decide (e.seq > frm))))
        else .ok (some [])
      else .panic

/-- `/repo/coerce/src/persistent/journal/provider.rs` 252-293. -/
def memDeleteMessagesTo (st : MemStore) (pid : String) (to : Int) : MemStore :=
  match st pid with
  | none => st
  | some j =>
    let keep := j.messages.dropWhile fun e => !(decide (e.seq ≥ to))
    let messages :=
      match j.messages.getLast? with
      | some newest => if newest.seq < to then [] else keep
      | none => keep
    st.set pid (some ⟨j.snapshots, messages⟩)

/-- `/repo/coerce/src/persistent/journal/provider.rs` 295-299. -/
def memDeleteAll (st : MemStore) (pid : String) : MemStore := st.set pid none

/-- `impl JournalStorage for InMemoryJournalStorage`, `/repo/coerce/src/persistent/journal/provider.rs` 71-299. -/
def memStorage : Storage MemStore where
  writeSnapshot := memWriteSnapshot
  writeMessage := memWriteMessage
  writeBatch := memWriteBatch
  readLatestSnapshot := memReadLatestSnapshot
  readLatestMessages := memReadLatestMessages
  deleteMessagesTo := memDeleteMessagesTo
  deleteAll := memDeleteAll

/-! ### Redis storage, `/repo/providers/persistence/coerce-redis/src/journal/mod.rs` and `/repo/providers/persistence/coerce-redis/src/journal/actor.rs`

A Redis sorted set orders its members by score, equal scores by the members' bytes; a member occurs
once. The score is the sequence number and the member the encoded entry, so a set is a strictly sorted
list of entries. Simplification: scores are exact integers (Redis uses doubles, exact below 2^53). -/

/-- byte-wise lexicographic `<` (memcmp, shorter first). (Redis' own order of equal scores; used by the commands of
`/repo/providers/persistence/coerce-redis/src/journal/actor.rs` 82-99.) -/
def bytesLt : Bytes → Bytes → Bool
  | [], [] => false
  | [], _ :: _ => true
  | _ :: _, [] => false
  | a :: as, b :: bs => if a.toNat < b.toNat then true else if b.toNat < a.toNat then false else bytesLt as bs

/-- sorted-set order of two members. (Redis' own; used by the commands of
`/repo/providers/persistence/coerce-redis/src/journal/actor.rs` 82-99.) -/
def zLt (a b : Entry) : Bool :=
  if a.seq < b.seq then true else if b.seq < a.seq then false else bytesLt a.write b.write

/-- `ZADD key score member` (`/repo/providers/persistence/coerce-redis/src/journal/actor.rs` 82-99): a member already present is not added again (its score
is a function of the member here), otherwise it is inserted at its place. -/
def zadd (l : List Entry) (e : Entry) : List Entry :=
  if e ∈ l then l else l.takeWhile (fun x => zLt x e) ++ e :: l.dropWhile (fun x => zLt x e)

/-- Redis keyspace: key ↦ sorted set (absent = empty).
(`/repo/providers/persistence/coerce-redis/src/journal/actor.rs` 9: the connection.) -/
abbrev RedisStore := String → List Entry

/-- a command changes one key, `/repo/providers/persistence/coerce-redis/src/journal/actor.rs` 82-150. -/
def RedisStore.set (st : RedisStore) (k : String) (l : List Entry) : RedisStore :=
  fun k' => if k' = k then l else st k'

/-- `get_redis_key` (`/repo/providers/persistence/coerce-redis/src/journal/mod.rs` 284-291) / `get_clustered_redis_key` (`/repo/providers/persistence/coerce-redis/src/journal/mod.rs` 271-282). -/
def plainKey (keyPrefix pid valueType : String) : String := keyPrefix ++ pid ++ ":" ++ valueType
/-- `get_clustered_redis_key`, `/repo/providers/persistence/coerce-redis/src/journal/mod.rs` 271-282. -/
def clusterKey (keyPrefix pid valueType : String) : String :=
  "{__" ++ pid ++ "}:" ++ keyPrefix ++ pid ++ ":" ++ valueType

/-- `key_provider_fn`, chosen from the configuration (`/repo/providers/persistence/coerce-redis/src/journal/mod.rs` 111-115). -/
def redisKey (hashtags : Bool) (keyPrefix pid valueType : String) : String :=
  if hashtags then clusterKey keyPrefix pid valueType else plainKey keyPrefix pid valueType

variable (key : String → String → String)

/-- `Handler<Write>` (`/repo/providers/persistence/coerce-redis/src/journal/actor.rs` 82-99) for `write_snapshot` (`/repo/providers/persistence/coerce-redis/src/journal/mod.rs` 132-147) and `write_message`
(`/repo/providers/persistence/coerce-redis/src/journal/mod.rs` 149-160). -/
def redisWrite (st : RedisStore) (k : String) (e : Entry) : RedisStore := st.set k (zadd (st k) e)

/-- `Handler<WriteBatch>` (`/repo/providers/persistence/coerce-redis/src/journal/actor.rs` 107-127): one ZADD with all pairs. -/
def redisWriteBatch (st : RedisStore) (k : String) (es : List Entry) : RedisStore :=
  st.set k (es.foldl zadd (st k))

/-- `ZRANGE key +inf -inf BYSCORE REV LIMIT 0 1` (`/repo/providers/persistence/coerce-redis/src/journal/actor.rs` 160-187): the greatest member. -/
def redisReadSnapshot (st : RedisStore) (k : String) : Option Entry := (st k).getLast?

/-- `ZRANGE key start end BYSCORE` (`/repo/providers/persistence/coerce-redis/src/journal/actor.rs` 228-258), bounds inclusive, `end = None` is `+inf`.
A missing key yields an empty array, i.e. `Some(vec![])`. -/
def redisReadRange (st : RedisStore) (k : String) (start : Int) (stop : Option Int) : List Entry :=
  (st k).filter fun e => decide (start ≤ e.seq) && (match stop with
    | none => true
    | some s => decide (e.seq ≤ s))

/-- `ZREMRANGEBYSCORE key 0 to` (`/repo/providers/persistence/coerce-redis/src/journal/mod.rs` 244-259, `/repo/providers/persistence/coerce-redis/src/journal/actor.rs` 135-152). -/
def redisDeleteTo (st : RedisStore) (k : String) (to : Int) : RedisStore :=
  st.set k ((st k).filter fun e => !(decide (0 ≤ e.seq) && decide (e.seq ≤ to)))

/-- `impl JournalStorage for RedisJournalStorage` (`/repo/providers/persistence/coerce-redis/src/journal/mod.rs` 127-269). `key pid valueType` is the key
function. -/
def redisStorage : Storage RedisStore where
  writeSnapshot st pid e := redisWrite st (key pid "snapshot") e
  writeMessage st pid e := redisWrite st (key pid "journal") e
  writeBatch st pid es := redisWriteBatch st (key pid "journal") es
  readLatestSnapshot st pid := redisReadSnapshot st (key pid "snapshot")
  readLatestMessages st pid frm := some (redisReadRange st (key pid "journal") frm none)
  deleteMessagesTo st pid to := redisDeleteTo st (key pid "journal") to
  deleteAll st pid := (st.set (key pid "journal") []).set (key pid "snapshot") []

/-! ### `Journal`, `/repo/coerce/src/persistent/journal/mod.rs` -/

/-- `Journal` (`/repo/coerce/src/persistent/journal/mod.rs` 25-31): the mutable counters. -/
structure Journal where
  pid : String
  last : Int
  lastSnap : Option Int
deriving DecidableEq, Repr

/-- `Journal::new` (`/repo/coerce/src/persistent/journal/mod.rs` 34-45). -/
def Journal.new (pid : String) : Journal := ⟨pid, 0, none⟩

/-- effect of a storage write under an outcome. (`/repo/coerce/src/persistent/journal/mod.rs` 222-230, 269-286,
306-318.) -/
def applyWrite {σ : Type} (o : WriteOutcome) (st st' : σ) : σ := if o.stored then st' else st

section
variable {σ : Type} (S : Storage σ)

/-- `persist_message`, `/repo/coerce/src/persistent/journal/mod.rs` 254-288: the entry gets the *current* counter, which is then advanced. -/
def persistMessage (st : σ) (j : Journal) (p : Payload) (o : WriteOutcome) : σ × Journal × Bool :=
  let st' := applyWrite o st (S.writeMessage st j.pid ⟨j.last, p.ptype, p.bytes⟩)
  if o.acked then (st', { j with last := j.last + 1 }, true) else (st', j, false)

/-- entries of a batch numbered `last+1, last+2, …` (`/repo/coerce/src/persistent/journal/mod.rs` 208-220). -/
def numberBatch (last : Int) : List Payload → List Entry
  | [] => []
  | p :: ps => ⟨last + 1, p.ptype, p.bytes⟩ :: numberBatch (last + 1) ps

/-- `Journal::persist_batch`, `/repo/coerce/src/persistent/journal/mod.rs` 207-233. -/
def journalPersistBatch (st : σ) (j : Journal) (ps : List Payload) (o : WriteOutcome) :
    σ × Journal × Bool :=
  let st' := applyWrite o st (S.writeBatch st j.pid (numberBatch j.last ps))
  if o.acked then (st', { j with last := j.last + ps.length }, true) else (st', j, false)

/-- `PersistentActor::persist_batch` for one attempt: an empty batch is a no-op
(`/repo/coerce/src/persistent/actor.rs` 61-81). -/
def persistBatch (st : σ) (j : Journal) (ps : List Payload) (o : WriteOutcome) : σ × Journal × Bool :=
  if ps = [] then (st, j, true) else journalPersistBatch S st j ps o

/-- `persist_snapshot`, `/repo/coerce/src/persistent/journal/mod.rs` 290-320. -/
def persistSnapshot (st : σ) (j : Journal) (p : Payload) (o : WriteOutcome) : σ × Journal × Bool :=
  let seq := j.last + 1
  let st' := applyWrite o st (S.writeSnapshot st j.pid ⟨seq, p.ptype, p.bytes⟩)
  if o.acked then (st', { j with last := seq, lastSnap := some seq }, true) else (st', j, false)

/-- Which payload types the actor has handlers for (`JournalTypes`, `/repo/coerce/src/persistent/journal/types.rs` 17-22, 40-68). -/
structure Known where
  message : String → Bool
  snapshot : String → Bool

/-- `recover_snapshot`, `/repo/coerce/src/persistent/journal/mod.rs` 322-353. -/
def recoverSnapshot (K : Known) (st : σ) (j : Journal) : Journal × Option Payload :=
  match S.readLatestSnapshot st j.pid with
  | none => (j, none)
  | some e =>
    ({ j with last := e.seq, lastSnap := some e.seq },
      if K.snapshot e.ptype then some e.payload else none)

/-- the counter after the loop of `recover_messages` (`/repo/coerce/src/persistent/journal/mod.rs` 368-369). -/
def lastSeq (l : Int) (es : List Entry) : Int := es.foldl (fun _ e => e.seq) l

/-- `recover_messages`, `/repo/coerce/src/persistent/journal/mod.rs` 355-411. -/
def recoverMessages (K : Known) (st : σ) (j : Journal) : Journal × Option (List Payload) :=
  match S.readLatestMessages st j.pid j.last with
  | none => (j, none)
  | some es =>
    let rs := (es.filter fun e => K.message e.ptype).map Entry.payload
    ({ j with last := lastSeq j.last es }, if rs.length = 0 then none else some rs)

/-- `RecoveredJournal`, `/repo/coerce/src/persistent/recovery.rs` 79-82. -/
structure Recovered where
  snapshot : Option Payload
  messages : Option (List Payload)
deriving DecidableEq, Repr

/-- `load_journal`, `/repo/coerce/src/persistent/recovery.rs` 84-101: a fresh journal, then snapshot, then messages. -/
def loadJournal (K : Known) (st : σ) (pid : String) : Journal × Recovered :=
  let j0 := Journal.new pid
  let (j1, snap) := recoverSnapshot S K st j0
  let (j2, msgs) := recoverMessages S K st j1
  (j2, ⟨snap, msgs⟩)

/-- `clear_old_messages`, `/repo/coerce/src/persistent/journal/mod.rs` 417-427 (storage call performed per outcome). -/
def clearOldMessages (st : σ) (j : Journal) (o : WriteOutcome) : σ × Bool :=
  match j.lastSnap with
  | some s => (applyWrite o st (S.deleteMessagesTo st j.pid s), o.acked)
  | none => (st, false)

/-- `clear`, `/repo/coerce/src/persistent/journal/mod.rs` 413-415. -/
def clear (st : σ) (j : Journal) (o : WriteOutcome) : σ × Bool :=
  (applyWrite o st (S.deleteAll st j.pid), o.acked)

/-! ### A system of persistent actors over one storage -/

/-- Operations an actor performs on its journal, one storage attempt each. `restart` is a crash (the in-memory
counters are lost) followed by recovery with the given handler types. (`/repo/coerce/src/persistent/journal/mod.rs`
206-428.) -/
inductive Op where
  | persist (p : Payload) (o : WriteOutcome)
  | batch (ps : List Payload) (o : WriteOutcome)
  | snapshot (p : Payload) (o : WriteOutcome)
  | trim (o : WriteOutcome)
  | restart (K : Known)

/-- all journals (`/repo/coerce/src/persistent/journal/mod.rs` 25-31) over one storage. -/
structure Sys (σ : Type) where
  store : σ
  journals : String → Journal

/-- journals are new, `/repo/coerce/src/persistent/journal/mod.rs` 34-45. -/
def Sys.init (st : σ) : Sys σ := ⟨st, Journal.new⟩

/-- the journal of one actor (`/repo/coerce/src/persistent/journal/mod.rs` 25-31) and the storage change. -/
def Sys.setJ (s : Sys σ) (pid : String) (st : σ) (j : Journal) : Sys σ :=
  ⟨st, fun p => if p = pid then j else s.journals p⟩

/-- one operation of the actor with persistence id `pid`. (`/repo/coerce/src/persistent/journal/mod.rs` 206-428.) -/
def Sys.step (s : Sys σ) (pid : String) : Op → Sys σ
  | .persist p o => let r := persistMessage S s.store (s.journals pid) p o; s.setJ pid r.1 r.2.1
  | .batch ps o => let r := persistBatch S s.store (s.journals pid) ps o; s.setJ pid r.1 r.2.1
  | .snapshot p o => let r := persistSnapshot S s.store (s.journals pid) p o; s.setJ pid r.1 r.2.1
  | .trim o => let r := clearOldMessages S s.store (s.journals pid) o
               ⟨r.1, s.journals⟩
  | .restart K => s.setJ pid s.store (loadJournal S K s.store pid).1

/-- any sequence of operations of any actors (`/repo/coerce/src/persistent/journal/mod.rs` 206-428). -/
def Sys.run (s : Sys σ) (ops : List (String × Op)) : Sys σ :=
  ops.foldl (fun s x => s.step S x.1 x.2) s

/-- what the actor `pid` is given if it recovers now. (`load_journal`, `/repo/coerce/src/persistent/recovery.rs`
84-101.) -/
def Sys.recovered (s : Sys σ) (K : Known) (pid : String) : Recovered :=
  (loadJournal S K s.store pid).2

end

/-! ### Retry loops -/

/-- `Retry`, `/repo/coerce/src/persistent/failure.rs` 23-31 (delays are not modelled). -/
inductive Retry where
  | untilSuccess
  | maxAttempts (n : Nat)
deriving DecidableEq, Repr

/-- `PersistFailurePolicy`, `/repo/coerce/src/persistent/failure.rs` 15-20. -/
inductive PersistPolicy where
  | retry (r : Retry) | returnErr | stopActor | panic
deriving DecidableEq, Repr

/-- `RecoveryFailurePolicy`, `/repo/coerce/src/persistent/failure.rs` 8-12. -/
inductive RecoveryPolicy where
  | retry (r : Retry) | stopActor | panic
deriving DecidableEq, Repr

/-- `should_retry`, `/repo/coerce/src/persistent/failure.rs` 33-56: (retry?, stop requested?). -/
def shouldRetry (attempts : Nat) : Retry → Bool × Bool
  | .untilSuccess => (true, false)
  | .maxAttempts n => if attempts ≥ n then (false, true) else (true, false)

/-- How a persist call ends. (`/repo/coerce/src/persistent/journal/mod.rs` 161-166;
`/repo/coerce/src/persistent/actor.rs` 171-214.) -/
inductive PersistRes where
  | ok            -- `Ok(())`
  | err           -- `Err(e)`
  | errStopping   -- `Err(PersistErr::ActorStopping(e))`
  | panicked
  | pending       -- still retrying when the given outcomes ran out
deriving DecidableEq, Repr

/-- `check`, `/repo/coerce/src/persistent/actor.rs` 171-214: `(answer, stop requested)`. -/
def check (policy : PersistPolicy) (attempts : Nat) (acked : Bool) : Option PersistRes × Bool :=
  if acked then (some .ok, false)
  else match policy with
    | .retry r => match shouldRetry attempts r with
      | (true, stop) => (none, stop)
      | (false, stop) => (some .err, stop)
    | .returnErr => (some .err, false)
    | .stopActor => (some .errStopping, true)
    | .panic => (some .panicked, false)

/-- Result of the whole call. (`/repo/coerce/src/persistent/actor.rs` 31-112.) -/
structure CallRes (α : Type) where
  state : α
  res : PersistRes
  attempts : Nat
  stopped : Bool
deriving DecidableEq, Repr

/-- The loop of `PersistentActor::persist` / `persist_batch` / `snapshot`
(`/repo/coerce/src/persistent/actor.rs` 42-54, 69-80, 96-107): `attempt st o` is one storage attempt with outcome `o`. `n` is the
attempt counter, starting at 1. -/
def persistLoop {α : Type} (policy : PersistPolicy) (attempt : α → WriteOutcome → α × Bool) :
    α → Nat → List WriteOutcome → CallRes α
  | st, n, [] => ⟨st, .pending, n - 1, false⟩
  | st, n, o :: os =>
    let r := attempt st o
    match check policy n r.2 with
    | (some res, stop) => ⟨r.1, res, n, stop⟩
    | (none, stop) =>
      let c := persistLoop policy attempt r.1 (n + 1) os
      { c with stopped := stop || c.stopped }

/-- `persist` (`/repo/coerce/src/persistent/actor.rs` 31-59) for a message that serialises. -/
def persistCall {σ : Type} (S : Storage σ) (policy : PersistPolicy) (st : σ) (j : Journal)
    (p : Payload) (os : List WriteOutcome) : CallRes (σ × Journal) :=
  persistLoop policy (fun (x : σ × Journal) o =>
    let r := persistMessage S x.1 x.2 p o
    ((r.1, r.2.1), r.2.2)) (st, j) 1 os

/-- `persist_batch` (`/repo/coerce/src/persistent/actor.rs` 61-81). -/
def persistBatchCall {σ : Type} (S : Storage σ) (policy : PersistPolicy) (st : σ) (j : Journal)
    (ps : List Payload) (os : List WriteOutcome) : CallRes (σ × Journal) :=
  if ps = [] then ⟨(st, j), .ok, 0, false⟩
  else persistLoop policy (fun (x : σ × Journal) o =>
    let r := journalPersistBatch S x.1 x.2 ps o
    ((r.1, r.2.1), r.2.2)) (st, j) 1 os

/-- `snapshot` (`/repo/coerce/src/persistent/actor.rs` 83-112). -/
def snapshotCall {σ : Type} (S : Storage σ) (policy : PersistPolicy) (st : σ) (j : Journal)
    (p : Payload) (os : List WriteOutcome) : CallRes (σ × Journal) :=
  persistLoop policy (fun (x : σ × Journal) o =>
    let r := persistSnapshot S x.1 x.2 p o
    ((r.1, r.2.1), r.2.2)) (st, j) 1 os

/-- How recovery ends (`Recovery`, `/repo/coerce/src/persistent/recovery.rs` 15-19). -/
inductive RecoveryRes where
  | recovered | failed | panicked | pending
deriving DecidableEq, Repr

/-- The loop of `recover_journal`, `/repo/coerce/src/persistent/recovery.rs` 23-76: `loads` tells for each attempt whether
`load_journal` succeeded. Returns result, number of attempts, stop requested, number of
`on_recovery_err` calls. -/
def recoverLoop (policy : RecoveryPolicy) : Nat → List Bool → RecoveryRes × Nat × Bool × Nat
  | n, [] => (.pending, n - 1, false, 0)
  | n, true :: _ => (.recovered, n, false, 0)
  | n, false :: ls =>
    match policy with
    | .stopActor => (.failed, n, true, 1)
    | .retry r =>
      match shouldRetry n r with
      | (false, stop) => (.failed, n, stop, 1)
      | (true, stop) =>
        let (res, k, s, errs) := recoverLoop policy (n + 1) ls
        (res, k, stop || s, errs + 1)
    | .panic => (.panicked, n, false, 1)

end Verif.Persist
