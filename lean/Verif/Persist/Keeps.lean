import Verif.Persist.Props

/-!
# What a storage gives back to an actor that takes no snapshots

For every outcome of every write, and whatever other actors do with the storage: the in-memory storage gives back
exactly the messages that reached it, in order; Redis gives back the same messages, perhaps in another order.
-/

namespace Verif.Persist

/-- an actor that took no snapshots is given exactly the messages that reached the storage, in some order and perhaps
some of them once instead of several times. -/
def KeepsMembers {τ : Type} (S : Storage τ) (st : τ) : Prop :=
  ∀ (tr : List (String × Op)) (pid : String) (K : Known), (∀ op ∈ own pid tr, op.isSnapshot = false) →
    (∀ p ∈ (own pid tr).flatMap Op.kept, K.message p.ptype = true) →
    (((Sys.init st).run S tr).recovered S K pid).snapshot = none ∧
    ∀ p, p ∈ (((Sys.init st).run S tr).recovered S K pid).messages.getD [] ↔ p ∈ (own pid tr).flatMap Op.kept

/-- the same, in the order in which they were written and each as often as it was written. -/
def KeepsInOrder {τ : Type} (S : Storage τ) (st : τ) : Prop :=
  ∀ (tr : List (String × Op)) (pid : String) (K : Known), (∀ op ∈ own pid tr, op.isSnapshot = false) →
    (∀ p ∈ (own pid tr).flatMap Op.kept, K.message p.ptype = true) →
    (((Sys.init st).run S tr).recovered S K pid).snapshot = none ∧
    (((Sys.init st).run S tr).recovered S K pid).messages.getD [] = (own pid tr).flatMap Op.kept

theorem KeepsInOrder.members {τ : Type} {S : Storage τ} {st : τ} (h : KeepsInOrder S st) : KeepsMembers S st := by
  intro tr pid K hs hK
  obtain ⟨h1, h2⟩ := h tr pid K hs hK
  exact ⟨h1, fun p => by rw [h2]⟩

theorem seen_messages (K : Known) (v : View) :
    (View.seen K v).messages.getD [] = v.msgs.filter fun p => K.message p.ptype := by
  unfold View.seen
  simp only
  split
  · rename_i h; rw [h]; rfl
  · rfl

theorem mem_keeps : KeepsInOrder memStorage (fun _ => none) := by
  intro tr pid K hs hK
  rw [memIsolated.recovered_own]
  have h := C01_replay_any_outcome (own pid tr) pid hs K
  unfold mem0 at h
  rw [h]
  refine ⟨rfl, ?_⟩
  rw [seen_messages]
  exact List.filter_eq_self.2 hK

/-- the journal of an actor that took no snapshots, on Redis. -/
structure RedisKept (key : String → String → String) (s : Sys RedisStore) (pid : String) (l : List Payload) : Prop where
  nosnap : s.store (key pid "snapshot") = []
  lastSnap : (s.journals pid).lastSnap = none
  last : 0 ≤ (s.journals pid).last
  seqs : ∀ e ∈ s.store (key pid "journal"), 0 ≤ e.seq
  msgs : ∀ p, p ∈ l ↔ p ∈ (s.store (key pid "journal")).map Entry.payload

theorem RedisKept.init (key) (pid : String) : RedisKept key (Sys.init fun _ => []) pid [] := by
  constructor <;> simp [Sys.init, Journal.new]

theorem lastSeq_nonneg (es : List Entry) (l : Int) (hl : 0 ≤ l) (h : ∀ e ∈ es, 0 ≤ e.seq) : 0 ≤ lastSeq l es := by
  unfold lastSeq
  induction es generalizing l with
  | nil => exact hl
  | cons e es ih => exact ih _ (h e (by simp)) (fun x hx => h x (by simp [hx]))

theorem RedisKept.add {key} (hk : KeyOk key) {s s' : Sys RedisStore} {pid : String} {l : List Payload}
    (h : RedisKept key s pid l) (es : List Entry) (hes : ∀ e ∈ es, 0 ≤ e.seq)
    (hst : s'.store = s.store.set (key pid "journal") (es.foldl zadd (s.store (key pid "journal"))))
    (hl : 0 ≤ (s'.journals pid).last) (hn : (s'.journals pid).lastSnap = none) :
    RedisKept key s' pid (l ++ es.map Entry.payload) := by
  have hj : s'.store (key pid "journal") = es.foldl zadd (s.store (key pid "journal")) := by
    rw [hst, RedisStore.set_same]
  refine ⟨?_, hn, hl, ?_, ?_⟩
  · rw [hst, RedisStore.set_other _ _ (hk.ne'' pid pid)]; exact h.nosnap
  · rw [hj]
    intro e he
    rcases mem_foldl_zadd.1 he with he | he
    · exact h.seqs e he
    · exact hes e he
  · intro p
    rw [hj, List.mem_append, h.msgs p]
    simp only [List.mem_map, mem_foldl_zadd]
    constructor
    · rintro (⟨a, ha, rfl⟩ | ⟨a, ha, rfl⟩)
      · exact ⟨a, .inl ha, rfl⟩
      · exact ⟨a, .inr ha, rfl⟩
    · rintro ⟨a, ha | ha, rfl⟩
      · exact .inl ⟨a, ha, rfl⟩
      · exact .inr ⟨a, ha, rfl⟩

theorem RedisKept.step {key} (hk : KeyOk key) {s : Sys RedisStore} {pid : String} {l : List Payload} (hp : PidOk s)
    (h : RedisKept key s pid l) (op : Op) (ho : op.isSnapshot = false) :
    RedisKept key (s.step (redisStorage key) pid op) pid (l ++ op.kept) := by
  have hpid := hp pid
  have h3 := h.last
  have h2 := h.lastSnap
  cases op with
  | snapshot p o => simp [Op.isSnapshot] at ho
  | trim o =>
    have : s.step (redisStorage key) pid (.trim o) = s := by
      simp [Sys.step, clearOldMessages, h2]
    rw [this]; simpa [Op.kept] using h
  | restart K =>
    have hl := loadJournal_redis key K s.store pid
    simp only [h.nosnap, fromSeq, List.getLast?_nil, Option.map_none, Option.getD_none] at hl
    obtain ⟨h1, h2, h3, h4, h5⟩ := h
    constructor <;> simp only [Sys.step, Sys.setJ, hl, if_true, Op.kept, List.append_nil]
    · exact h1
    · exact lastSeq_nonneg _ _ (Int.le_refl _) fun e he => h4 e (List.mem_filter.1 he).1
    · exact h4
    · exact h5
  | persist p o =>
    have hz : s.step (redisStorage key) pid (.persist p .rejected) = s := by
      simp only [Sys.step, persistMessage, WriteOutcome.acked, applyWrite, WriteOutcome.stored, Sys.setJ]
      congr 1; funext q; split <;> simp_all
    cases o with
    | rejected => rw [hz]; simpa [Op.kept] using h
    | ok =>
      refine h.add hk [⟨(s.journals pid).last, p.ptype, p.bytes⟩] (by simpa using h3) ?_ ?_ ?_ <;>
        simp [Sys.step, persistMessage, WriteOutcome.acked, applyWrite, WriteOutcome.stored, Sys.setJ, redisStorage, hpid,
          redisWrite, h2]
      omega
    | lostAck =>
      refine h.add hk [⟨(s.journals pid).last, p.ptype, p.bytes⟩] (by simpa using h3) ?_ ?_ ?_ <;>
        simp [Sys.step, persistMessage, WriteOutcome.acked, applyWrite, WriteOutcome.stored, Sys.setJ, redisStorage, hpid,
          redisWrite, h2, h3]
  | batch ps o =>
    by_cases hps : ps = []
    · have : s.step (redisStorage key) pid (.batch ps o) = s := by
        simp only [Sys.step, persistBatch, hps, if_true, Sys.setJ]
        congr 1; funext q; split <;> simp_all
      rw [this]; subst hps; cases o <;> simpa [Op.kept] using h
    · have hz : s.step (redisStorage key) pid (.batch ps .rejected) = s := by
        simp only [Sys.step, persistBatch, hps, journalPersistBatch, WriteOutcome.acked, applyWrite,
          WriteOutcome.stored, Sys.setJ]
        congr 1; funext q; split <;> simp_all
      have hb := numberBatch_bounds (s.journals pid).last ps
      have hpos : ∀ e ∈ numberBatch (s.journals pid).last ps, 0 ≤ e.seq := fun e he => by have := hb e he; omega
      cases o with
      | rejected => rw [hz]; simpa [Op.kept] using h
      | ok =>
        have := h.add hk (s' := s.step (redisStorage key) pid (.batch ps .ok)) _ hpos
          (by simp [Sys.step, persistBatch, hps, journalPersistBatch, WriteOutcome.acked, applyWrite, WriteOutcome.stored,
            Sys.setJ, redisStorage, hpid, redisWriteBatch])
          (by simp [Sys.step, persistBatch, hps, journalPersistBatch, WriteOutcome.acked, Sys.setJ]; omega)
          (by simp [Sys.step, persistBatch, hps, journalPersistBatch, WriteOutcome.acked, Sys.setJ, h2])
        simpa [Op.kept, numberBatch_payload] using this
      | lostAck =>
        have := h.add hk (s' := s.step (redisStorage key) pid (.batch ps .lostAck)) _ hpos
          (by simp [Sys.step, persistBatch, hps, journalPersistBatch, WriteOutcome.acked, applyWrite, WriteOutcome.stored,
            Sys.setJ, redisStorage, hpid, redisWriteBatch])
          (by simp [Sys.step, persistBatch, hps, journalPersistBatch, WriteOutcome.acked, Sys.setJ, h3])
          (by simp [Sys.step, persistBatch, hps, journalPersistBatch, WriteOutcome.acked, Sys.setJ, h2])
        simpa [Op.kept, numberBatch_payload] using this

theorem RedisKept.run1 {key} (hk : KeyOk key) {s : Sys RedisStore} {pid : String} {l : List Payload} (hp : PidOk s)
    (h : RedisKept key s pid l) (ops : List Op) (ho : ∀ op ∈ ops, op.isSnapshot = false) :
    RedisKept key (run1 (redisStorage key) s pid ops) pid (l ++ ops.flatMap Op.kept) := by
  induction ops generalizing s l with
  | nil => simpa [Persist.run1] using h
  | cons op ops ih =>
    have := ih (hp.step pid op) (h.step hk hp op (ho op (by simp))) (fun o h' => ho o (by simp [h']))
    simpa [Persist.run1, List.append_assoc] using this

theorem redis_keeps (hashtags : Bool) (pre : String) :
    KeepsMembers (redisStorage (redisKey hashtags pre)) (fun _ => []) := by
  intro tr pid K hs hK
  have hk := redisKey_ok hashtags pre
  rw [(redisIsolated hk).recovered_own]
  have h := (RedisKept.init (redisKey hashtags pre) pid).run1 hk (PidOk.init _) _ hs
  simp only [List.nil_append] at h
  unfold Sys.recovered
  rw [loadJournal_redis]
  simp only [h.nosnap, fromSeq, List.getLast?_nil, Option.map_none, Option.getD_none]
  refine ⟨rfl, fun p => ?_⟩
  rw [seen_messages, List.mem_filter, h.msgs p]
  have hr : readFrom 0 ((run1 (redisStorage (redisKey hashtags pre)) (Sys.init fun _ => []) pid (own pid tr)).store
      (redisKey hashtags pre pid "journal")) = (run1 (redisStorage (redisKey hashtags pre)) (Sys.init fun _ => []) pid
      (own pid tr)).store (redisKey hashtags pre pid "journal") := by
    unfold readFrom
    exact List.filter_eq_self.2 fun e he => by simpa using h.seqs e he
  rw [hr]
  constructor
  · exact fun hx => hx.1
  · exact fun hx => ⟨hx, hK p ((h.msgs p).2 hx)⟩

end Verif.Persist
