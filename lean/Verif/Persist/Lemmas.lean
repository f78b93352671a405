import Verif.Persist.Model
import Verif.Proto.Lemmas

namespace Verif.Persist

open Verif.Proto

/-! ### entry codec -/

theorem Entry.fields_ok (e : Entry) (hp : (strBytes e.ptype).length < 2 ^ 64)
    (hb : e.bytes.length < 2 ^ 64) : ∀ f ∈ e.fields, FieldOk f := by
  intro f hf
  simp only [Entry.fields, fInt64, fString, fBytes, List.mem_append] at hf
  rcases hf with (hf | hf) | hf <;> split at hf <;> simp at hf <;> subst hf <;>
    simp [FieldOk, WireVal.Ok]
  · exact ofInt64_lt _
  · exact hp
  · exact hb

theorem Entry.read_write (e : Entry) (h1 : -2 ^ 63 ≤ e.seq) (h2 : e.seq < 2 ^ 63)
    (hp : (strBytes e.ptype).length < 2 ^ 64) (hb : e.bytes.length < 2 ^ 64) :
    Entry.read e.write = some e := by
  obtain ⟨seq, pt, bs⟩ := e
  unfold Entry.read Entry.write
  rw [parseFields_encodeFields _ (Entry.fields_ok _ hp hb)]
  have hi := toInt64_ofInt64 seq h1 h2
  simp only [Option.bind_some, Entry.fields, fInt64, fString, fBytes]
  split <;> split <;> split <;> simp_all [Entry.merge, bytesStr_strBytes]

/-! ### the in-memory store at one id -/

@[simp] theorem MemStore.set_same (st : MemStore) (pid : String) (j) : (st.set pid j) pid = j := by
  simp [MemStore.set]

theorem MemStore.set_other (st : MemStore) {pid q : String} (j) (h : q ≠ pid) :
    (st.set pid j) q = st q := by simp [MemStore.set, h]

/-- snapshots and messages stored for `pid`. -/
def snapsOf (st : MemStore) (pid : String) : List Entry := ((st pid).map (·.snapshots)).getD []
def msgsOf (st : MemStore) (pid : String) : List Entry := ((st pid).map (·.messages)).getD []

theorem snapsOf_writeMessage (st : MemStore) (pid e) :
    snapsOf (memWriteMessage st pid e) pid = snapsOf st pid := by
  unfold snapsOf memWriteMessage; cases st pid <;> simp

theorem msgsOf_writeMessage (st : MemStore) (pid e) :
    msgsOf (memWriteMessage st pid e) pid = msgsOf st pid ++ [e] := by
  unfold msgsOf memWriteMessage; cases st pid <;> simp

theorem snapsOf_writeBatch (st : MemStore) (pid es) :
    snapsOf (memWriteBatch st pid es) pid = snapsOf st pid := by
  unfold snapsOf memWriteBatch; cases st pid <;> simp

theorem msgsOf_writeBatch (st : MemStore) (pid es) :
    msgsOf (memWriteBatch st pid es) pid = msgsOf st pid ++ es := by
  unfold msgsOf memWriteBatch; cases st pid <;> simp

theorem snapsOf_writeSnapshot (st : MemStore) (pid e) :
    snapsOf (memWriteSnapshot st pid e) pid = snapsOf st pid ++ [e] := by
  unfold snapsOf memWriteSnapshot; cases st pid <;> simp

theorem msgsOf_writeSnapshot (st : MemStore) (pid e) :
    msgsOf (memWriteSnapshot st pid e) pid = msgsOf st pid := by
  unfold msgsOf memWriteSnapshot; cases st pid <;> simp

theorem snapsOf_delete (st : MemStore) (pid t) :
    snapsOf (memDeleteMessagesTo st pid t) pid = snapsOf st pid := by
  unfold snapsOf memDeleteMessagesTo; cases h : st pid <;> simp [h]

theorem dropWhile_eq_nil_of_all {α} (p : α → Bool) (l : List α) (h : ∀ x ∈ l, p x) :
    l.dropWhile p = [] := by
  induction l with
  | nil => rfl
  | cons a l ih =>
    have := h a (by simp)
    simp only [List.dropWhile_cons, this, if_true]
    exact ih fun x hx => h x (by simp [hx])

/-- sorted by sequence number. -/
def SortedSeq (l : List Entry) : Prop := l.Pairwise fun a b => a.seq ≤ b.seq

theorem le_getLast {l : List Entry} (hs : SortedSeq l) {e : Entry} (hl : l.getLast? = some e) :
    ∀ x ∈ l, x.seq ≤ e.seq := by
  intro x hx
  have hne : l ≠ [] := by rintro rfl; simp at hx
  rw [List.getLast?_eq_some_getLast hne] at hl
  have hsplit := List.dropLast_concat_getLast hne
  have hsx : SortedSeq (l.dropLast ++ [l.getLast hne]) := by rw [hsplit]; exact hs
  rw [← hsplit, List.mem_append] at hx
  have hge : l.getLast hne = e := Option.some.inj hl
  rcases hx with hx | hx
  · have := (List.pairwise_append.1 hsx).2.2 x hx (l.getLast hne) (by simp)
    rw [hge] at this; exact this
  · simp at hx; subst hx; rw [hge]; exact Int.le_refl _

theorem msgsOf_delete (st : MemStore) (pid t) (hs : SortedSeq (msgsOf st pid)) :
    msgsOf (memDeleteMessagesTo st pid t) pid =
      (msgsOf st pid).dropWhile fun e => !(decide (e.seq ≥ t)) := by
  unfold msgsOf at *
  unfold memDeleteMessagesTo
  cases h : st pid with
  | none => simp [h]
  | some j =>
    simp only [h, Option.map_some, Option.getD_some, MemStore.set_same] at hs ⊢
    cases hl : j.messages.getLast? with
    | none => rfl
    | some e =>
      simp only
      split
      · rename_i hlt
        rw [dropWhile_eq_nil_of_all]
        intro x hx
        have := le_getLast hs hl x hx
        simp; omega
      · rfl

/-! ### numbering of batches -/

theorem numberBatch_payload (last : Int) (ps : List Payload) :
    (numberBatch last ps).map Entry.payload = ps := by
  induction ps generalizing last with
  | nil => rfl
  | cons p ps ih => simp [numberBatch, Entry.payload, ih]

theorem numberBatch_bounds (last : Int) (ps : List Payload) :
    ∀ e ∈ numberBatch last ps, last < e.seq ∧ e.seq ≤ last + ps.length := by
  induction ps generalizing last with
  | nil => simp [numberBatch]
  | cons p ps ih =>
    intro e he
    simp only [numberBatch, List.mem_cons] at he
    rcases he with rfl | he
    · simp; omega
    · have := ih _ e he; simp; omega

theorem numberBatch_strict (last : Int) (ps : List Payload) :
    (numberBatch last ps).Pairwise fun a b => a.seq < b.seq := by
  induction ps generalizing last with
  | nil => simp [numberBatch]
  | cons p ps ih =>
    simp only [numberBatch, List.pairwise_cons]
    refine ⟨fun e he => ?_, ih _⟩
    have := numberBatch_bounds (last + 1) ps e he
    show last + 1 < e.seq
    omega

theorem numberBatch_sorted (last : Int) (ps : List Payload) : SortedSeq (numberBatch last ps) :=
  (numberBatch_strict last ps).imp (by intros; omega)

theorem numberBatch_eq_nil (last : Int) (ps : List Payload) : numberBatch last ps = [] ↔ ps = [] := by
  cases ps <;> simp [numberBatch]

theorem numberBatch_getLast (last : Int) (ps : List Payload) (h : ps ≠ []) :
    ((numberBatch last ps).getLast?).map (·.seq) = some (last + ps.length) := by
  induction ps generalizing last with
  | nil => exact absurd rfl h
  | cons p ps ih =>
    cases ps with
    | nil => simp [numberBatch]
    | cons q qs =>
      have := ih (last + 1) (by simp)
      rw [numberBatch, List.getLast?_cons_of_ne_nil (by simp [numberBatch])]
      rw [this]; simp; omega

/-! ### suffixAfter -/

theorem suffixAfter_nil_of_le {l : List Entry} {s : Int} (h : ∀ e ∈ l, e.seq ≤ s) :
    suffixAfter s l = [] := by
  apply dropWhile_eq_nil_of_all
  intro x hx; have := h x hx; simp; omega

theorem dropWhile_append_of_ne {α} (p : α → Bool) (l r : List α) (h : l.dropWhile p ≠ []) :
    (l ++ r).dropWhile p = l.dropWhile p ++ r := by
  induction l with
  | nil => simp at h
  | cons a l ih =>
    simp only [List.cons_append, List.dropWhile_cons] at *
    split
    · rename_i ha; rw [if_pos ha] at h; exact ih h
    · simp

theorem dropWhile_append_of_nil {α} (p : α → Bool) (l r : List α) (h : l.dropWhile p = []) :
    (l ++ r).dropWhile p = r.dropWhile p := by
  induction l with
  | nil => simp
  | cons a l ih =>
    simp only [List.cons_append, List.dropWhile_cons] at *
    split at h
    · rename_i ha; rw [if_pos ha]; exact ih h
    · simp at h

theorem suffixAfter_append_ne {s : Int} {l r : List Entry} (h : suffixAfter s l ≠ []) :
    suffixAfter s (l ++ r) = suffixAfter s l ++ r := dropWhile_append_of_ne _ _ _ h

theorem suffixAfter_append_nil {s : Int} {l r : List Entry} (h : suffixAfter s l = []) :
    suffixAfter s (l ++ r) = suffixAfter s r := dropWhile_append_of_nil _ _ _ h

theorem suffixAfter_of_gt {s : Int} {l : List Entry} (h : ∀ e ∈ l, s < e.seq) :
    suffixAfter s l = l := by
  cases l with
  | nil => rfl
  | cons a l =>
    have := h a (by simp)
    unfold suffixAfter
    rw [List.dropWhile_cons, if_neg (by simp; omega)]

theorem suffixAfter_dropWhile (s : Int) (l : List Entry) :
    suffixAfter s (l.dropWhile fun e => !(decide (e.seq ≥ s))) = suffixAfter s l := by
  induction l with
  | nil => rfl
  | cons a l ih =>
    rw [List.dropWhile_cons]
    split
    · rename_i h
      rw [ih]; unfold suffixAfter; rw [List.dropWhile_cons, if_pos]
      simp at h ⊢; omega
    · rfl

theorem mem_of_mem_suffixAfter {s : Int} {l : List Entry} {e : Entry} (h : e ∈ suffixAfter s l) :
    e ∈ l := (List.dropWhile_sublist _).mem h

theorem lastSeq_append (l : Int) (es : List Entry) (e : Entry) :
    lastSeq l (es ++ [e]) = e.seq := by simp [lastSeq]

theorem lastSeq_nil (l : Int) : lastSeq l [] = l := rfl

theorem lastSeq_getLast {l : Int} {es : List Entry} {e : Entry} (h : es.getLast? = some e) :
    lastSeq l es = e.seq := by
  rw [List.getLast?_eq_some_iff] at h
  obtain ⟨ys, rfl⟩ := h
  exact lastSeq_append _ _ _

/-- the counter after recovery bounds all recovered entries. -/
theorem le_lastSeq {l : Int} {es : List Entry} (hs : SortedSeq es) : ∀ e ∈ es, e.seq ≤ lastSeq l es := by
  intro e he
  have hne : es ≠ [] := by rintro rfl; simp at he
  have hl := List.getLast?_eq_some_getLast hne
  rw [lastSeq_getLast hl]
  exact le_getLast hs hl e he

theorem lastSeq_mem {l : Int} {es : List Entry} (hne : es ≠ []) : ∃ e ∈ es, lastSeq l es = e.seq := by
  have hl := List.getLast?_eq_some_getLast hne
  exact ⟨_, List.getLast_mem hne, lastSeq_getLast hl⟩

/-- skipped entries of a suffix read have numbers at most the bound. -/
theorem suffixAfter_split (s : Int) (l : List Entry) :
    ∃ pre, l = pre ++ suffixAfter s l ∧ ∀ e ∈ pre, e.seq ≤ s := by
  refine ⟨l.takeWhile fun e => !(decide (e.seq > s)), ?_, ?_⟩
  · exact (List.takeWhile_append_dropWhile (l := l)).symm
  · intro e he
    have h2 := List.all_takeWhile (l := l) (p := fun e => !(decide (e.seq > s)))
    have := List.all_eq_true.1 h2 e he
    simp at this; omega

/-! ### isolation: operations of other ids -/

theorem memWriteMessage_other (st : MemStore) {pid q : String} (e) (h : q ≠ pid) :
    memWriteMessage st pid e q = st q := by
  unfold memWriteMessage; cases st pid <;> simp [MemStore.set_other _ _ h]

theorem memWriteBatch_other (st : MemStore) {pid q : String} (e) (h : q ≠ pid) :
    memWriteBatch st pid e q = st q := by
  unfold memWriteBatch; cases st pid <;> simp [MemStore.set_other _ _ h]

theorem memWriteSnapshot_other (st : MemStore) {pid q : String} (e) (h : q ≠ pid) :
    memWriteSnapshot st pid e q = st q := by
  unfold memWriteSnapshot; cases st pid <;> simp [MemStore.set_other _ _ h]

theorem memDelete_other (st : MemStore) {pid q : String} (t) (h : q ≠ pid) :
    memDeleteMessagesTo st pid t q = st q := by
  unfold memDeleteMessagesTo; cases st pid <;> simp [MemStore.set_other _ _ h]

/-- A storage in which what is kept for an id is a component `view st pid`, and every operation on an
id is a function of that component only. -/
structure Isolated {σ : Type} (S : Storage σ) (ν : Type) where
  view : σ → String → ν
  wSnap : ∀ {st st' : σ} {pid}, view st pid = view st' pid → ∀ e,
    view (S.writeSnapshot st pid e) pid = view (S.writeSnapshot st' pid e) pid
  wMsg : ∀ {st st' : σ} {pid}, view st pid = view st' pid → ∀ e,
    view (S.writeMessage st pid e) pid = view (S.writeMessage st' pid e) pid
  wBatch : ∀ {st st' : σ} {pid}, view st pid = view st' pid → ∀ e,
    view (S.writeBatch st pid e) pid = view (S.writeBatch st' pid e) pid
  del : ∀ {st st' : σ} {pid}, view st pid = view st' pid → ∀ t,
    view (S.deleteMessagesTo st pid t) pid = view (S.deleteMessagesTo st' pid t) pid
  rSnap : ∀ {st st' : σ} {pid}, view st pid = view st' pid →
    S.readLatestSnapshot st pid = S.readLatestSnapshot st' pid
  rMsgs : ∀ {st st' : σ} {pid}, view st pid = view st' pid → ∀ f,
    S.readLatestMessages st pid f = S.readLatestMessages st' pid f
  oSnap : ∀ (st : σ) {pid q}, q ≠ pid → ∀ e, view (S.writeSnapshot st pid e) q = view st q
  oMsg : ∀ (st : σ) {pid q}, q ≠ pid → ∀ e, view (S.writeMessage st pid e) q = view st q
  oBatch : ∀ (st : σ) {pid q}, q ≠ pid → ∀ e, view (S.writeBatch st pid e) q = view st q
  oDel : ∀ (st : σ) {pid q}, q ≠ pid → ∀ t, view (S.deleteMessagesTo st pid t) q = view st q
  wAll : ∀ {st st' : σ} {pid}, view st pid = view st' pid →
    view (S.deleteAll st pid) pid = view (S.deleteAll st' pid) pid
  oAll : ∀ (st : σ) {pid q}, q ≠ pid → view (S.deleteAll st pid) q = view st q

section
variable {σ ν : Type} {S : Storage σ} (I : Isolated S ν)

/-- two systems agree about one actor. -/
def Isolated.Agree (s s' : Sys σ) (pid : String) : Prop :=
  I.view s.store pid = I.view s'.store pid ∧ s.journals pid = s'.journals pid

/-- every journal carries its own id. -/
def PidOk (s : Sys σ) : Prop := ∀ p, (s.journals p).pid = p

theorem loadJournal_pid (K : Known) (st : σ) (pid : String) : (loadJournal S K st pid).1.pid = pid := by
  simp only [loadJournal, recoverSnapshot, recoverMessages, Journal.new]
  cases h : S.readLatestSnapshot st pid with
  | none =>
    simp only
    cases h2 : S.readLatestMessages st pid 0 <;> simp
  | some e =>
    simp only
    cases h2 : S.readLatestMessages st pid e.seq <;> simp

theorem PidOk.step {s : Sys σ} (h : PidOk s) (pid : String) (op : Op) : PidOk (s.step S pid op) := by
  intro p
  have hp := h p
  by_cases hpp : p = pid
  · subst hpp
    cases op with
    | persist q o => cases o <;> simp [Sys.step, Sys.setJ, persistMessage, WriteOutcome.acked, hp]
    | batch q o =>
      simp only [Sys.step, Sys.setJ, persistBatch, journalPersistBatch, if_true]
      cases o <;> by_cases hq : q = [] <;> simp [hq, WriteOutcome.acked, hp]
    | snapshot q o => cases o <;> simp [Sys.step, Sys.setJ, persistSnapshot, WriteOutcome.acked, hp]
    | trim o => simpa [Sys.step] using hp
    | restart K => simp [Sys.step, Sys.setJ, loadJournal_pid]
  · cases op <;> simp [Sys.step, Sys.setJ, hpp, hp]

theorem PidOk.init (st : σ) : PidOk (Sys.init st) := fun _ => rfl

theorem PidOk.run {s : Sys σ} (h : PidOk s) (ops : List (String × Op)) : PidOk (s.run S ops) := by
  induction ops generalizing s with
  | nil => exact h
  | cons x ops ih => exact ih (h.step x.1 x.2)

include I in
theorem loadJournal_congr {st st' : σ} {pid : String} (h : I.view st pid = I.view st' pid) (K : Known) :
    loadJournal S K st pid = loadJournal S K st' pid := by
  simp only [loadJournal, recoverSnapshot, recoverMessages, Journal.new]
  rw [I.rSnap h]
  cases h2 : S.readLatestSnapshot st' pid with
  | none => simp only; rw [I.rMsgs h]
  | some e => simp only; rw [I.rMsgs h]

theorem Isolated.Agree.step {s s' : Sys σ} {pid : String} (hp' : PidOk s')
    (h : I.Agree s s' pid) (op : Op) :
    I.Agree (s.step S pid op) (s'.step S pid op) pid := by
  obtain ⟨hv, hj⟩ := h
  have hpid := hp' pid
  unfold Isolated.Agree
  cases op with
  | persist q o =>
    simp only [Sys.step, Sys.setJ, persistMessage, hj, hpid]
    cases o <;> simp [applyWrite, WriteOutcome.stored, WriteOutcome.acked, I.wMsg hv, hv]
  | batch q o =>
    simp only [Sys.step, Sys.setJ, persistBatch, journalPersistBatch, hj, hpid]
    split
    · simp [hv]
    · cases o <;> simp [applyWrite, WriteOutcome.stored, WriteOutcome.acked, I.wBatch hv, hv]
  | snapshot q o =>
    simp only [Sys.step, Sys.setJ, persistSnapshot, hj, hpid]
    cases o <;> simp [applyWrite, WriteOutcome.stored, WriteOutcome.acked, I.wSnap hv, hv]
  | trim o =>
    simp only [Sys.step, clearOldMessages, hj, hpid]
    refine ⟨?_, trivial⟩
    cases hs : (s'.journals pid).lastSnap <;>
      cases o <;> simp [applyWrite, WriteOutcome.stored, I.del hv, hv]
  | restart K =>
    simp only [Sys.step, Sys.setJ, loadJournal_congr I hv K, if_true]
    exact ⟨hv, trivial⟩

theorem Isolated.Agree.step_other {s s' : Sys σ} {pid q : String} (hp : PidOk s)
    (h : I.Agree s s' pid) (hq : pid ≠ q) (op : Op) :
    I.Agree (s.step S q op) s' pid := by
  obtain ⟨hv, hj⟩ := h
  have hpid := hp q
  unfold Isolated.Agree
  cases op with
  | persist p o =>
    simp only [Sys.step, Sys.setJ, persistMessage, hpid, if_neg hq, hj, and_true]
    cases o <;> simp [applyWrite, WriteOutcome.stored, WriteOutcome.acked, I.oMsg _ hq, hv]
  | batch p o =>
    simp only [Sys.step, Sys.setJ, persistBatch, journalPersistBatch, hpid, if_neg hq, hj, and_true]
    split
    · simp [hv]
    · cases o <;> simp [applyWrite, WriteOutcome.stored, WriteOutcome.acked, I.oBatch _ hq, hv]
  | snapshot p o =>
    simp only [Sys.step, Sys.setJ, persistSnapshot, hpid, if_neg hq, hj, and_true]
    cases o <;> simp [applyWrite, WriteOutcome.stored, WriteOutcome.acked, I.oSnap _ hq, hv]
  | trim o =>
    simp only [Sys.step, clearOldMessages, hpid, hj, and_true]
    cases hs : (s.journals q).lastSnap <;>
      cases o <;> simp [applyWrite, WriteOutcome.stored, I.oDel _ hq, hv]
  | restart K => simp only [Sys.step, Sys.setJ, if_neg hq, hj, and_true]; exact hv

theorem Isolated.Agree.run {s s' : Sys σ} {pid : String} (hp : PidOk s) (hp' : PidOk s')
    (h : I.Agree s s' pid) (ops : List (String × Op)) :
    I.Agree (s.run S ops) (s'.run S (ops.filter fun x => x.1 = pid)) pid := by
  induction ops generalizing s s' with
  | nil => exact h
  | cons x ops ih =>
    obtain ⟨q, op⟩ := x
    by_cases hq : q = pid
    · subst hq
      simp only [Sys.run, List.filter_cons, decide_true, if_true, List.foldl_cons]
      exact ih (hp.step q op) (hp'.step q op) (h.step I hp' op)
    · simp only [Sys.run, List.filter_cons, hq, decide_false, List.foldl_cons]
      exact ih (hp.step q op) hp' (h.step_other I hp (Ne.symm hq) op)

end

/-- the in-memory storage keeps ids apart. -/
def memIsolated : Isolated memStorage (Option ActorJournal) where
  view st pid := st pid
  wSnap := by intro st st' pid h e; simp only [memStorage, memWriteSnapshot, h]; cases st' pid <;> simp
  wMsg := by intro st st' pid h e; simp only [memStorage, memWriteMessage, h]; cases st' pid <;> simp
  wBatch := by intro st st' pid h e; simp only [memStorage, memWriteBatch, h]; cases st' pid <;> simp
  del := by
    intro st st' pid h t; simp only [memStorage, memDeleteMessagesTo, h]
    cases h2 : st' pid <;> simp [h, h2]
  rSnap := by intro st st' pid h; simp only [memStorage, memReadLatestSnapshot, h]
  rMsgs := by intro st st' pid h f; simp only [memStorage, memReadLatestMessages, h]
  oSnap := by intro st pid q h e; exact memWriteSnapshot_other st e h
  oMsg := by intro st pid q h e; exact memWriteMessage_other st e h
  oBatch := by intro st pid q h e; exact memWriteBatch_other st e h
  oDel := by intro st pid q h e; exact memDelete_other st e h
  wAll := by intro st st' pid _; simp [memStorage, memDeleteAll]
  oAll := by intro st pid q h; simp [memStorage, memDeleteAll, MemStore.set_other _ _ h]

@[simp] theorem RedisStore.set_same (st : RedisStore) (k : String) (l) : (st.set k l) k = l := by
  simp [RedisStore.set]

theorem RedisStore.set_other (st : RedisStore) {k q : String} (l) (h : q ≠ k) :
    (st.set k l) q = st q := by simp [RedisStore.set, h]

/-- a key function that never confuses two ids nor the two kinds of value. -/
def KeyOk (key : String → String → String) : Prop :=
  (∀ p q t u, key p t = key q u → (t = "journal" ∨ t = "snapshot") → (u = "journal" ∨ u = "snapshot") →
    p = q ∧ t = u)

theorem KeyOk.ne {key} (h : KeyOk key) {p q t u : String} (hpq : p ≠ q)
    (ht : t = "journal" ∨ t = "snapshot") (hu : u = "journal" ∨ u = "snapshot") : key p t ≠ key q u :=
  fun e => hpq (h p q t u e ht hu).1

theorem KeyOk.ne' {key} (h : KeyOk key) (p q : String) : key p "journal" ≠ key q "snapshot" :=
  fun e => by have := (h p q _ _ e (.inl rfl) (.inr rfl)).2; simp at this

theorem KeyOk.ne'' {key} (h : KeyOk key) (p q : String) : key p "snapshot" ≠ key q "journal" :=
  fun e => by have := (h p q _ _ e (.inr rfl) (.inl rfl)).2; simp at this

/-- the Redis storage keeps ids apart. -/
def redisIsolated {key} (hk : KeyOk key) : Isolated (redisStorage key) (List Entry × List Entry) where
  view st pid := (st (key pid "journal"), st (key pid "snapshot"))
  wSnap := by
    intro st st' pid h e
    simp only [Prod.mk.injEq] at h
    simp [redisStorage, redisWrite, RedisStore.set_other _ _ (hk.ne' pid pid), h]
  wMsg := by
    intro st st' pid h e
    simp only [Prod.mk.injEq] at h
    simp [redisStorage, redisWrite, RedisStore.set_other _ _ (hk.ne'' pid pid), h]
  wBatch := by
    intro st st' pid h e
    simp only [Prod.mk.injEq] at h
    simp [redisStorage, redisWriteBatch, RedisStore.set_other _ _ (hk.ne'' pid pid), h]
  del := by
    intro st st' pid h e
    simp only [Prod.mk.injEq] at h
    simp [redisStorage, redisDeleteTo, RedisStore.set_other _ _ (hk.ne'' pid pid), h]
  rSnap := by
    intro st st' pid h
    simp only [Prod.mk.injEq] at h
    simp [redisStorage, redisReadSnapshot, h]
  rMsgs := by
    intro st st' pid h f
    simp only [Prod.mk.injEq] at h
    simp [redisStorage, redisReadRange, h]
  oSnap := by
    intro st pid q h e
    simp [redisStorage, redisWrite, RedisStore.set_other _ _ (hk.ne' q pid),
      RedisStore.set_other _ _ (hk.ne h (.inr rfl) (.inr rfl))]
  oMsg := by
    intro st pid q h e
    simp [redisStorage, redisWrite, RedisStore.set_other _ _ (hk.ne'' q pid),
      RedisStore.set_other _ _ (hk.ne h (.inl rfl) (.inl rfl))]
  oBatch := by
    intro st pid q h e
    simp [redisStorage, redisWriteBatch, RedisStore.set_other _ _ (hk.ne'' q pid),
      RedisStore.set_other _ _ (hk.ne h (.inl rfl) (.inl rfl))]
  oDel := by
    intro st pid q h e
    simp [redisStorage, redisDeleteTo, RedisStore.set_other _ _ (hk.ne'' q pid),
      RedisStore.set_other _ _ (hk.ne h (.inl rfl) (.inl rfl))]
  wAll := by intro st st' pid _; simp [redisStorage, RedisStore.set_other _ _ (hk.ne' pid pid)]
  oAll := by
    intro st pid q h
    simp [redisStorage, RedisStore.set_other _ _ (hk.ne' q pid), RedisStore.set_other _ _ (hk.ne'' q pid),
      RedisStore.set_other _ _ (hk.ne h (.inr rfl) (.inr rfl)),
      RedisStore.set_other _ _ (hk.ne h (.inl rfl) (.inl rfl))]

end Verif.Persist
