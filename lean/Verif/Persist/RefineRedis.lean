import Verif.Persist.Refine

namespace Verif.Persist

/-! ### Redis keys -/

theorem str_append_right_cancel {a b c : String} (h : a ++ c = b ++ c) : a = b := by
  have h2 := congrArg String.toList h
  simp only [String.toList_append, List.append_cancel_right_eq] at h2
  exact String.toList_inj.1 h2

theorem str_append_left_cancel {a b c : String} (h : c ++ a = c ++ b) : a = b := by
  have h2 := congrArg String.toList h
  simp only [String.toList_append, List.append_cancel_left_eq] at h2
  exact String.toList_inj.1 h2

/-- the value type can be read off the end of a key. -/
theorem suffix_type_inj {a b t u : String} (h : a ++ t = b ++ u)
    (ht : t = "journal" ∨ t = "snapshot") (hu : u = "journal" ∨ u = "snapshot") : t = u := by
  have h2 := congrArg (fun s => s.toList.getLast?) h
  simp only [String.toList_append, List.getLast?_append] at h2
  rcases ht with rfl | rfl <;> rcases hu with rfl | rfl
  · rfl
  · simp at h2
  · simp at h2
  · rfl

theorem plainKey_ok (pre : String) : KeyOk (plainKey pre) := by
  intro p q t u h ht hu
  unfold plainKey at h
  have := suffix_type_inj h ht hu
  subst this
  exact ⟨str_append_left_cancel (str_append_right_cancel (str_append_right_cancel h)), rfl⟩

theorem clusterKey_ok (pre : String) : KeyOk (clusterKey pre) := by
  intro p q t u h ht hu
  unfold clusterKey at h
  have := suffix_type_inj h ht hu
  subst this
  refine ⟨?_, rfl⟩
  have h3 := str_append_right_cancel (str_append_right_cancel h)
  have h4 := congrArg String.toList h3
  simp only [String.toList_append, List.append_assoc, List.append_cancel_left_eq] at h4
  have hlen := congrArg List.length h4
  simp only [List.length_append] at hlen
  exact String.toList_inj.1 (List.append_inj h4 (by omega)).1

theorem redisKey_ok (hashtags : Bool) (pre : String) : KeyOk (redisKey hashtags pre) := by
  cases hashtags
  · exact plainKey_ok pre
  · exact clusterKey_ok pre

/-! ### sorted sets -/

theorem takeWhile_eq_self {α} (p : α → Bool) (l : List α) (h : ∀ x ∈ l, p x = true) :
    l.takeWhile p = l := by
  induction l with
  | nil => rfl
  | cons a l ih =>
    simp only [List.takeWhile_cons, h a (by simp), if_true]
    rw [ih fun x hx => h x (by simp [hx])]

theorem zadd_append {l : List Entry} {e : Entry} (h : ∀ x ∈ l, x.seq < e.seq) : zadd l e = l ++ [e] := by
  have hz : ∀ x ∈ l, zLt x e = true := fun x hx => by simp [zLt, h x hx]
  have hn : e ∉ l := fun hm => by have := h e hm; omega
  unfold zadd
  rw [if_neg hn, takeWhile_eq_self _ _ hz, dropWhile_eq_nil_of_all _ _ hz]

theorem zadd_batch {l : List Entry} {last : Int} (ps : List Payload) (h : ∀ x ∈ l, x.seq ≤ last) :
    (numberBatch last ps).foldl zadd l = l ++ numberBatch last ps := by
  induction ps generalizing l last with
  | nil => simp [numberBatch]
  | cons p ps ih =>
    simp only [numberBatch, List.foldl_cons]
    rw [zadd_append (fun x hx => by have := h x hx; show x.seq < last + 1; omega), ih]
    · simp
    · intro x hx
      simp only [List.mem_append, List.mem_singleton] at hx
      rcases hx with hx | rfl
      · have := h x hx; omega
      · exact Int.le_refl _

theorem mem_zadd {l : List Entry} {e x : Entry} : x ∈ zadd l e ↔ x ∈ l ∨ x = e := by
  unfold zadd
  split
  · rename_i h
    constructor
    · exact Or.inl
    · rintro (hx | rfl) <;> assumption
  · rw [List.mem_append, List.mem_cons]
    have : x ∈ l ↔ x ∈ l.takeWhile (fun x => zLt x e) ∨ x ∈ l.dropWhile (fun x => zLt x e) := by
      rw [← List.mem_append, List.takeWhile_append_dropWhile]
    rw [this]
    constructor
    · rintro (h | h | h) <;> simp [h]
    · rintro ((h | h) | h) <;> simp [h]

theorem zadd_sorted {l : List Entry} {e : Entry} (h : SortedSeq l) : SortedSeq (zadd l e) := by
  unfold zadd
  split
  · exact h
  · have hl : ∀ x ∈ l.takeWhile (fun x => zLt x e), x.seq ≤ e.seq := by
      intro x hx
      have h2 := List.all_eq_true.1 (List.all_takeWhile (l := l) (p := fun x => zLt x e)) x hx
      simp only [zLt] at h2
      split at h2
      · omega
      · split at h2 <;> simp_all
    have hr : ∀ x ∈ l.dropWhile (fun x => zLt x e), e.seq ≤ x.seq := by
      cases hd : l.dropWhile (fun x => zLt x e) with
      | nil => simp
      | cons a as =>
        have h2 := List.head?_dropWhile_not (fun x => zLt x e) l
        rw [hd] at h2
        simp only [List.head?_cons] at h2
        have hs : SortedSeq (a :: as) := hd ▸ h.sublist (List.dropWhile_sublist _)
        have ha : e.seq ≤ a.seq := by
          simp only [zLt] at h2
          split at h2
          · simp at h2
          · omega
        intro x hx
        rw [List.mem_cons] at hx
        rcases hx with rfl | hx
        · exact ha
        · have := (List.pairwise_cons.1 hs).1 x hx; omega
    refine SortedSeq.append (h.sublist (List.takeWhile_sublist _)) ?_ ?_
    · exact List.pairwise_cons.2 ⟨hr, h.sublist (List.dropWhile_sublist _)⟩
    · intro a ha b hb
      rw [List.mem_cons] at hb
      have := hl a ha
      rcases hb with rfl | hb
      · exact this
      · have := hr b hb; omega

theorem foldl_zadd_sorted {l es : List Entry} (h : SortedSeq l) : SortedSeq (es.foldl zadd l) := by
  induction es generalizing l with
  | nil => exact h
  | cons e es ih => exact ih (zadd_sorted h)

theorem mem_foldl_zadd {l es : List Entry} {x : Entry} : x ∈ es.foldl zadd l ↔ x ∈ l ∨ x ∈ es := by
  induction es generalizing l with
  | nil => simp
  | cons e es ih => simp only [List.foldl_cons, ih, mem_zadd, List.mem_cons]; grind

/-! ### recovery from Redis -/

def fromSeq (N : List Entry) : Int := (N.getLast?.map (·.seq)).getD 0

def readFrom (frm : Int) (J : List Entry) : List Entry := J.filter fun e => decide (frm ≤ e.seq)

theorem loadJournal_redis (key : String → String → String) (K : Known) (st : RedisStore) (pid : String) :
    let N := st (key pid "snapshot")
    let es := readFrom (fromSeq N) (st (key pid "journal"))
    loadJournal (redisStorage key) K st pid =
      (⟨pid, lastSeq (fromSeq N) es, N.getLast?.map (·.seq)⟩,
       View.seen K ⟨N.getLast?.map Entry.payload, es.map Entry.payload⟩) := by
  simp only [loadJournal, recoverSnapshot, recoverMessages, Journal.new, redisStorage,
    redisReadSnapshot, redisReadRange, View.seen, ← filter_map_payload, fromSeq, readFrom]
  rcases Option.eq_none_or_eq_some (st (key pid "snapshot")).getLast? with h2 | ⟨e, h2⟩
  · simp [h2]
  · by_cases hk : K.snapshot e.ptype <;> simp [h2, hk, Entry.payload, Option.filter]

/-- numbers strictly increase. -/
def StrictSeq (l : List Entry) : Prop := l.Pairwise fun a b => a.seq < b.seq

theorem StrictSeq.sorted {l} (h : StrictSeq l) : SortedSeq l := List.Pairwise.imp (by intros; omega) h

theorem StrictSeq.append_one {l : List Entry} {e : Entry} (h : StrictSeq l) (hl : ∀ x ∈ l, x.seq < e.seq) :
    StrictSeq (l ++ [e]) := List.pairwise_append.2 ⟨h, by simp, by simpa using hl⟩

structure RedisInv (key : String → String → String) (s : Sys RedisStore) (pid : String) (r : RedisFlags) :
    Prop where
  strict : StrictSeq (s.store (key pid "journal"))
  le_last : ∀ m ∈ s.store (key pid "journal"), m.seq ≤ (s.journals pid).last
  nonneg : ∀ m ∈ s.store (key pid "journal"), 0 ≤ m.seq
  nodup : r.dup = false → ∀ m ∈ s.store (key pid "journal"), m.seq < (s.journals pid).last
  last_nonneg : 0 ≤ (s.journals pid).last
  snaps : StrictSeq (s.store (key pid "snapshot"))
  snap_le : ∀ e ∈ s.store (key pid "snapshot"), 1 ≤ e.seq ∧ e.seq ≤ (s.journals pid).last
  lastSnap : (s.journals pid).lastSnap = (s.store (key pid "snapshot")).getLast?.map (·.seq)
  snap : r.view.snap = (s.store (key pid "snapshot")).getLast?.map Entry.payload
  msgs : r.view.msgs = (readFrom (fromSeq (s.store (key pid "snapshot")))
    (s.store (key pid "journal"))).map Entry.payload
  edge : r.edge = false → ∀ e, (s.store (key pid "snapshot")).getLast? = some e →
    ∀ m ∈ s.store (key pid "journal"), m.seq ≠ e.seq

theorem RedisInv.init (key) (pid : String) : RedisInv key (Sys.init fun _ => []) pid .empty := by
  constructor <;> simp [Sys.init, StrictSeq, Journal.new, RedisFlags.empty, View.empty, readFrom]

theorem fromSeq_le {N : List Entry} {last : Int} (h0 : 0 ≤ last) (h : ∀ e ∈ N, 1 ≤ e.seq ∧ e.seq ≤ last) :
    0 ≤ fromSeq N ∧ fromSeq N ≤ last := by
  unfold fromSeq
  cases hl : N.getLast? with
  | none => simp; exact h0
  | some e => have := h e (List.mem_of_getLast? hl); simp; omega

theorem mem_readFrom {frm : Int} {J : List Entry} {m : Entry} : m ∈ readFrom frm J ↔ m ∈ J ∧ frm ≤ m.seq := by
  simp [readFrom]

theorem RedisInv.step {key} (hk : KeyOk key) {s : Sys RedisStore} {pid : String} {r : RedisFlags}
    (hp : PidOk s) (h : RedisInv key s pid r) (op : Op) (ho : op.Honest) (hsafe : r.safe op = true) :
    RedisInv key (s.step (redisStorage key) pid op) pid (r.step op) := by
  have hpid := hp pid
  cases op with
  | restart K =>
    have hl := loadJournal_redis key K s.store pid
    obtain ⟨h1, h2, h3, h4, h5, h6, h7, h8, h9, h10, h11⟩ := h
    have hf := fromSeq_le h5 h7
    simp only [Sys.step, Sys.setJ]
    have hsub : SortedSeq (readFrom (fromSeq (s.store (key pid "snapshot"))) (s.store (key pid "journal"))) :=
      h1.sorted.sublist List.filter_sublist
    have hge : fromSeq (s.store (key pid "snapshot")) ≤ lastSeq (fromSeq (s.store (key pid "snapshot")))
        (readFrom (fromSeq (s.store (key pid "snapshot"))) (s.store (key pid "journal"))) := by
      by_cases hn : readFrom (fromSeq (s.store (key pid "snapshot"))) (s.store (key pid "journal")) = []
      · rw [hn]; exact Int.le_refl _
      · obtain ⟨e, he1, he2⟩ := lastSeq_mem (l := fromSeq (s.store (key pid "snapshot"))) hn
        rw [he2]; exact (mem_readFrom.1 he1).2
    constructor <;> simp only [hl, if_true, RedisFlags.step]
    · exact h1
    · intro m hm
      by_cases hm2 : fromSeq (s.store (key pid "snapshot")) ≤ m.seq
      · exact le_lastSeq hsub m (mem_readFrom.2 ⟨hm, hm2⟩)
      · omega
    · exact h3
    · intro hd m hm
      simp only [Bool.not_eq_eq_eq_not, Bool.not_false, List.isEmpty_iff] at hd
      rw [h10, List.map_eq_nil_iff] at hd
      rw [hd]
      by_cases hm2 : fromSeq (s.store (key pid "snapshot")) ≤ m.seq
      · have := mem_readFrom.2 ⟨hm, hm2⟩
        rw [hd] at this; simp at this
      · simp only [lastSeq, List.foldl_nil]; omega
    · omega
    · exact h6
    · intro e he
      refine ⟨(h7 e he).1, ?_⟩
      have : e.seq ≤ fromSeq (s.store (key pid "snapshot")) := by
        have hne : s.store (key pid "snapshot") ≠ [] := by intro h'; rw [h'] at he; simp at he
        have hgl := List.getLast?_eq_some_getLast hne
        have := le_getLast h6.sorted hgl e he
        unfold fromSeq; rw [hgl]; simpa using this
      omega
    · exact h9
    · exact h10
    · exact h11
  | trim o =>
    simp only [Sys.step, clearOldMessages]
    have e0 : r.step (.trim o) = r := rfl
    rw [e0]
    cases hs : (s.journals pid).lastSnap with
    | none => exact h
    | some t =>
      simp only [applyWrite]
      split
      · rename_i hst
        obtain ⟨h1, h2, h3, h4, h5, h6, h7, h8, h9, h10, h11⟩ := h
        rw [h8] at hs
        obtain ⟨e, he1, he2⟩ := Option.map_eq_some_iff.1 hs
        have hedge : r.edge = false := by
          have hsn : r.view.snap.isNone = false := by rw [h9, he1]; rfl
          cases o <;> simp [RedisFlags.safe, hsn, WriteOutcome.stored] at hsafe hst
          · exact hsafe
          · exact hsafe
        have hne := h11 hedge e he1
        have hsn : ((redisStorage key).deleteMessagesTo s.store pid t) (key pid "snapshot")
            = s.store (key pid "snapshot") := RedisStore.set_other _ _ (hk.ne'' pid pid)
        have hjn : ((redisStorage key).deleteMessagesTo s.store pid t) (key pid "journal")
            = (s.store (key pid "journal")).filter fun e => !(decide (0 ≤ e.seq) && decide (e.seq ≤ t)) :=
          RedisStore.set_same _ _ _
        have hmem : ∀ m, m ∈ (s.store (key pid "journal")).filter
            (fun e => !(decide (0 ≤ e.seq) && decide (e.seq ≤ t))) → m ∈ s.store (key pid "journal") :=
          fun m hm => (List.mem_filter.1 hm).1
        constructor <;> (try simp only [hpid]) <;> (try rw [hsn]) <;> (try rw [hjn])
        · exact List.Pairwise.sublist List.filter_sublist h1
        · exact fun m hm => h2 m (hmem m hm)
        · exact fun m hm => h3 m (hmem m hm)
        · exact fun hd m hm => h4 hd m (hmem m hm)
        · exact h5
        · exact h6
        · exact h7
        · exact h8
        · exact h9
        · rw [h10]
          congr 1
          unfold readFrom
          rw [List.filter_filter]
          apply List.filter_congr
          intro m hm
          have hf : fromSeq (s.store (key pid "snapshot")) = e.seq := by unfold fromSeq; rw [he1]; rfl
          have hne' := hne m hm
          rw [hf]
          by_cases hx : e.seq ≤ m.seq
          · simp [hx]; omega
          · simp [hx]
        · exact fun hd e' he' m hm => h11 hd e' he' m (hmem m hm)
      · exact h
  | persist p o =>
    cases o with
    | lostAck => exact absurd rfl ho
    | rejected =>
      have : s.step (redisStorage key) pid (.persist p .rejected) = s := by
        simp only [Sys.step, persistMessage, WriteOutcome.acked, applyWrite, WriteOutcome.stored, Sys.setJ]
        congr 1; funext q; split <;> simp_all
      rw [this]; exact h
    | ok =>
      obtain ⟨h1, h2, h3, h4, h5, h6, h7, h8, h9, h10, h11⟩ := h
      have hdup : r.dup = false := by simpa [RedisFlags.safe] using hsafe
      have hlt := h4 hdup
      have hst : (s.step (redisStorage key) pid (.persist p .ok)).store
          = s.store.set (key pid "journal")
              (s.store (key pid "journal") ++ [⟨(s.journals pid).last, p.ptype, p.bytes⟩]) := by
        rw [← zadd_append (e := ⟨(s.journals pid).last, p.ptype, p.bytes⟩) hlt]
        simp [Sys.step, persistMessage, WriteOutcome.acked, applyWrite, WriteOutcome.stored, Sys.setJ,
          redisStorage, hpid, redisWrite]
      have hj : (s.step (redisStorage key) pid (.persist p .ok)).journals pid
          = ⟨pid, (s.journals pid).last + 1, (s.journals pid).lastSnap⟩ := by
        simp [Sys.step, persistMessage, WriteOutcome.acked, Sys.setJ, hpid]
      generalize (s.step (redisStorage key) pid (.persist p .ok)) = s' at hst hj
      have hjn : s'.store (key pid "journal") =
          s.store (key pid "journal") ++ [⟨(s.journals pid).last, p.ptype, p.bytes⟩] := by
        rw [hst, RedisStore.set_same]
      have hsn : s'.store (key pid "snapshot") = s.store (key pid "snapshot") := by
        rw [hst, RedisStore.set_other _ _ (hk.ne'' pid pid)]
      have hf := fromSeq_le h5 h7
      have hmem : ∀ m ∈ s'.store (key pid "journal"), m ∈ s.store (key pid "journal") ∨
          m.seq = (s.journals pid).last := by
        intro m hm; rw [hjn] at hm
        simp only [List.mem_append, List.mem_singleton] at hm
        rcases hm with hm | rfl
        · exact .inl hm
        · exact .inr rfl
      constructor <;> (try rw [hsn]) <;> (try rw [hj])
      · rw [hjn]; exact h1.append_one hlt
      · intro m hm
        rcases hmem m hm with hm | hm
        · have := h2 m hm; simp; omega
        · simp; omega
      · intro m hm
        rcases hmem m hm with hm | hm
        · exact h3 m hm
        · omega
      · intro _ m hm
        rcases hmem m hm with hm | hm
        · have := h2 m hm; simp; omega
        · simp; omega
      · simp; omega
      · exact h6
      · intro e he; have := h7 e he; simp; omega
      · exact h8
      · exact h9
      · rw [hjn]
        simp only [RedisFlags.step, View.step, h10, readFrom, List.filter_append, List.map_append]
        congr 1
        simp [hf.2, Entry.payload]
      · intro hd e he m hm
        simp only [RedisFlags.step, Bool.or_eq_false_iff] at hd
        rcases hmem m hm with hm | hm
        · exact h11 hd.1 e he m hm
        · have hne : r.view.msgs ≠ [] := by
            intro h'; rw [h'] at hd; simp at hd
          rw [h10] at hne
          have hne2 : readFrom (fromSeq (s.store (key pid "snapshot"))) (s.store (key pid "journal")) ≠ [] := by
            intro h'; rw [h'] at hne; simp at hne
          obtain ⟨x, hx⟩ := List.exists_mem_of_ne_nil _ hne2
          have hx2 := mem_readFrom.1 hx
          have hf : fromSeq (s.store (key pid "snapshot")) = e.seq := by unfold fromSeq; rw [he]; rfl
          have := hlt x hx2.1
          omega
  | batch ps o =>
    cases o with
    | lostAck => exact absurd rfl ho
    | rejected =>
      have : s.step (redisStorage key) pid (.batch ps .rejected) = s := by
        simp only [Sys.step, persistBatch, journalPersistBatch, WriteOutcome.acked, applyWrite,
          WriteOutcome.stored, Sys.setJ]
        split <;> (congr 1; funext q; split <;> simp_all)
      rw [this]; exact h
    | ok =>
      by_cases hps : ps = []
      · have : s.step (redisStorage key) pid (.batch ps .ok) = s := by
          simp only [Sys.step, persistBatch, hps, if_true, Sys.setJ]
          congr 1; funext q; split <;> simp_all
        rw [this]; simp only [RedisFlags.step, hps, if_true]; exact h
      · obtain ⟨h1, h2, h3, h4, h5, h6, h7, h8, h9, h10, h11⟩ := h
        have hst : (s.step (redisStorage key) pid (.batch ps .ok)).store
            = s.store.set (key pid "journal")
                (s.store (key pid "journal") ++ numberBatch (s.journals pid).last ps) := by
          rw [← zadd_batch ps h2]
          simp [Sys.step, persistBatch, hps, journalPersistBatch, WriteOutcome.acked, applyWrite,
            WriteOutcome.stored, Sys.setJ, redisStorage, hpid, redisWriteBatch]
        have hj : (s.step (redisStorage key) pid (.batch ps .ok)).journals pid
            = ⟨pid, (s.journals pid).last + ps.length, (s.journals pid).lastSnap⟩ := by
          simp [Sys.step, persistBatch, hps, journalPersistBatch, WriteOutcome.acked, Sys.setJ, hpid]
        have hb := numberBatch_bounds (s.journals pid).last ps
        generalize (s.step (redisStorage key) pid (.batch ps .ok)) = s' at hst hj
        have hjn : s'.store (key pid "journal") =
            s.store (key pid "journal") ++ numberBatch (s.journals pid).last ps := by
          rw [hst, RedisStore.set_same]
        have hsn : s'.store (key pid "snapshot") = s.store (key pid "snapshot") := by
          rw [hst, RedisStore.set_other _ _ (hk.ne'' pid pid)]
        have hf := fromSeq_le h5 h7
        have hmem : ∀ m ∈ s'.store (key pid "journal"), m ∈ s.store (key pid "journal") ∨
            ((s.journals pid).last < m.seq ∧ m.seq ≤ (s.journals pid).last + ps.length) := by
          intro m hm; rw [hjn, List.mem_append] at hm
          rcases hm with hm | hm
          · exact .inl hm
          · exact .inr (hb m hm)
        have hr : r.step (.batch ps .ok) = ⟨r.view.step (.batch ps .ok), true, r.edge⟩ := by
          simp [RedisFlags.step, hps]
        rw [hr]
        constructor <;> (try rw [hsn]) <;> (try rw [hj])
        · rw [hjn]
          refine List.pairwise_append.2 ⟨h1, numberBatch_strict _ _, ?_⟩
          intro a ha b hb'
          have := h2 a ha; have := hb b hb'; omega
        · intro m hm
          rcases hmem m hm with hm | hm
          · have := h2 m hm; simp; omega
          · simp; omega
        · intro m hm
          rcases hmem m hm with hm | hm
          · exact h3 m hm
          · omega
        · simp
        · simp; omega
        · exact h6
        · intro e he; have := h7 e he; simp; omega
        · exact h8
        · exact h9
        · rw [hjn]
          simp only [View.step, h10, readFrom, List.filter_append, List.map_append]
          congr 1
          rw [List.filter_eq_self.2, numberBatch_payload]
          intro a ha
          have := hb a ha
          simp; omega
        · intro hd e he m hm
          rcases hmem m hm with hm | hm
          · exact h11 hd e he m hm
          · have := h7 e (List.mem_of_getLast? he); omega
  | snapshot p o =>
    cases o with
    | lostAck => exact absurd rfl ho
    | rejected =>
      have : s.step (redisStorage key) pid (.snapshot p .rejected) = s := by
        simp only [Sys.step, persistSnapshot, WriteOutcome.acked, applyWrite, WriteOutcome.stored, Sys.setJ]
        congr 1; funext q; split <;> simp_all
      rw [this]; exact h
    | ok =>
      obtain ⟨h1, h2, h3, h4, h5, h6, h7, h8, h9, h10, h11⟩ := h
      have hlt : ∀ x ∈ s.store (key pid "snapshot"), x.seq < (s.journals pid).last + 1 := fun x hx => by
        have := h7 x hx; omega
      have hst : (s.step (redisStorage key) pid (.snapshot p .ok)).store
          = s.store.set (key pid "snapshot")
              (s.store (key pid "snapshot") ++ [⟨(s.journals pid).last + 1, p.ptype, p.bytes⟩]) := by
        rw [← zadd_append (e := ⟨(s.journals pid).last + 1, p.ptype, p.bytes⟩) hlt]
        simp [Sys.step, persistSnapshot, WriteOutcome.acked, applyWrite, WriteOutcome.stored, Sys.setJ,
          redisStorage, hpid, redisWrite]
      have hj : (s.step (redisStorage key) pid (.snapshot p .ok)).journals pid
          = ⟨pid, (s.journals pid).last + 1, some ((s.journals pid).last + 1)⟩ := by
        simp [Sys.step, persistSnapshot, WriteOutcome.acked, Sys.setJ, hpid]
      generalize (s.step (redisStorage key) pid (.snapshot p .ok)) = s' at hst hj
      have hjn : s'.store (key pid "journal") = s.store (key pid "journal") := by
        rw [hst, RedisStore.set_other _ _ (hk.ne' pid pid)]
      have hsn : s'.store (key pid "snapshot") =
          s.store (key pid "snapshot") ++ [⟨(s.journals pid).last + 1, p.ptype, p.bytes⟩] := by
        rw [hst, RedisStore.set_same]
      constructor <;> (try rw [hsn]) <;> (try rw [hjn]) <;> (try rw [hj])
      · exact h1
      · intro m hm; have := h2 m hm; simp; omega
      · exact h3
      · intro _ m hm; have := h2 m hm; simp; omega
      · simp; omega
      · exact h6.append_one hlt
      · intro e he
        simp only [List.mem_append, List.mem_singleton] at he
        rcases he with he | rfl
        · have := h7 e he; simp; omega
        · simp; omega
      · simp
      · simp [RedisFlags.step, View.step, Entry.payload]
      · simp only [RedisFlags.step, View.step, readFrom, fromSeq, List.getLast?_append,
          List.getLast?_singleton, Option.some_or, Option.map_some, Option.getD_some]
        symm
        rw [List.map_eq_nil_iff, List.filter_eq_nil_iff]
        intro m hm; have := h2 m hm; simp; omega
      · intro _ e he m hm
        simp only [List.getLast?_append, List.getLast?_singleton, Option.some_or, Option.some.injEq] at he
        subst he
        have := h2 m hm; simp; omega

theorem RedisInv.run1 {key} (hk : KeyOk key) {s : Sys RedisStore} {pid : String} {r : RedisFlags}
    (hp : PidOk s) (h : RedisInv key s pid r) (ops : List Op) (ho : ∀ op ∈ ops, op.Honest)
    (hs : RedisSafe r ops = true) :
    RedisInv key (run1 (redisStorage key) s pid ops) pid (ops.foldl RedisFlags.step r) := by
  induction ops generalizing s r with
  | nil => exact h
  | cons op ops ih =>
    simp only [RedisSafe, Bool.and_eq_true] at hs
    exact ih (hp.step pid op) (h.step hk hp op (ho op (by simp)) hs.1) (fun o h' => ho o (by simp [h'])) hs.2

theorem RedisInv.recovered {key} {s : Sys RedisStore} {pid : String} {r : RedisFlags}
    (h : RedisInv key s pid r) (K : Known) :
    s.recovered (redisStorage key) K pid = r.view.seen K := by
  have hl := loadJournal_redis key K s.store pid
  unfold Sys.recovered
  rw [hl]
  obtain ⟨⟨vs, vm⟩, _, _⟩ := r
  have h1 := h.snap; have h2 := h.msgs
  simp only at h1 h2 ⊢
  rw [h1, h2]

/-- the flag machine follows the expected view. -/
theorem RedisFlags.view_run (r : RedisFlags) (ops : List Op) :
    (ops.foldl RedisFlags.step r).view = r.view.run ops := by
  induction ops generalizing r with
  | nil => rfl
  | cons op ops ih =>
    simp only [List.foldl_cons, View.run]
    rw [ih]
    congr 1
    cases op with
    | persist p o => cases o <;> rfl
    | batch ps o =>
      cases o <;> simp only [RedisFlags.step, View.step]
      split
      · rename_i h; simp [h]
      · rfl
    | snapshot p o => cases o <;> rfl
    | trim o => rfl
    | restart K => rfl

/-! ### nothing is lost on Redis (any honest history without trims) -/

structure RedisWeak (key : String → String → String) (s : Sys RedisStore) (pid : String) (v : View) :
    Prop where
  sorted : SortedSeq (s.store (key pid "journal"))
  le_last : ∀ m ∈ s.store (key pid "journal"), m.seq ≤ (s.journals pid).last
  last_nonneg : 0 ≤ (s.journals pid).last
  snaps : StrictSeq (s.store (key pid "snapshot"))
  snap_le : ∀ e ∈ s.store (key pid "snapshot"), 1 ≤ e.seq ∧ e.seq ≤ (s.journals pid).last
  snap : v.snap = (s.store (key pid "snapshot")).getLast?.map Entry.payload
  msgs : ∀ p, p ∈ v.msgs ↔ p ∈ (readFrom (fromSeq (s.store (key pid "snapshot")))
    (s.store (key pid "journal"))).map Entry.payload

theorem RedisWeak.init (key) (pid : String) : RedisWeak key (Sys.init fun _ => []) pid .empty := by
  constructor <;> simp [Sys.init, StrictSeq, SortedSeq, Journal.new, View.empty, readFrom]

def Op.isTrim : Op → Bool
  | .trim _ => true
  | _ => false

theorem RedisWeak.step {key} (hk : KeyOk key) {s : Sys RedisStore} {pid : String} {v : View}
    (hp : PidOk s) (h : RedisWeak key s pid v) (op : Op) (ho : op.Honest) (ht : op.isTrim = false) :
    RedisWeak key (s.step (redisStorage key) pid op) pid (v.step op) := by
  have hpid := hp pid
  cases op with
  | trim o => simp [Op.isTrim] at ht
  | restart K =>
    have hl := loadJournal_redis key K s.store pid
    obtain ⟨h1, h2, h5, h6, h7, h9, h10⟩ := h
    have hf := fromSeq_le h5 h7
    simp only [Sys.step, Sys.setJ]
    have hsub : SortedSeq (readFrom (fromSeq (s.store (key pid "snapshot"))) (s.store (key pid "journal"))) :=
      h1.sublist List.filter_sublist
    have hge : fromSeq (s.store (key pid "snapshot")) ≤ lastSeq (fromSeq (s.store (key pid "snapshot")))
        (readFrom (fromSeq (s.store (key pid "snapshot"))) (s.store (key pid "journal"))) := by
      by_cases hn : readFrom (fromSeq (s.store (key pid "snapshot"))) (s.store (key pid "journal")) = []
      · rw [hn]; exact Int.le_refl _
      · obtain ⟨e, he1, he2⟩ := lastSeq_mem (l := fromSeq (s.store (key pid "snapshot"))) hn
        rw [he2]; exact (mem_readFrom.1 he1).2
    constructor <;> simp only [hl, if_true, View.step]
    · exact h1
    · intro m hm
      by_cases hm2 : fromSeq (s.store (key pid "snapshot")) ≤ m.seq
      · exact le_lastSeq hsub m (mem_readFrom.2 ⟨hm, hm2⟩)
      · omega
    · omega
    · exact h6
    · intro e he
      refine ⟨(h7 e he).1, ?_⟩
      have : e.seq ≤ fromSeq (s.store (key pid "snapshot")) := by
        have hne : s.store (key pid "snapshot") ≠ [] := by intro h'; rw [h'] at he; simp at he
        have hgl := List.getLast?_eq_some_getLast hne
        have := le_getLast h6.sorted hgl e he
        unfold fromSeq; rw [hgl]; simpa using this
      omega
    · exact h9
    · exact h10
  | persist p o =>
    cases o with
    | lostAck => exact absurd rfl ho
    | rejected =>
      have : s.step (redisStorage key) pid (.persist p .rejected) = s := by
        simp only [Sys.step, persistMessage, WriteOutcome.acked, applyWrite, WriteOutcome.stored, Sys.setJ]
        congr 1; funext q; split <;> simp_all
      rw [this]; exact h
    | ok =>
      obtain ⟨h1, h2, h5, h6, h7, h9, h10⟩ := h
      have hf := fromSeq_le h5 h7
      have hst : (s.step (redisStorage key) pid (.persist p .ok)).store
          = s.store.set (key pid "journal")
              (zadd (s.store (key pid "journal")) ⟨(s.journals pid).last, p.ptype, p.bytes⟩) := by
        simp [Sys.step, persistMessage, WriteOutcome.acked, applyWrite, WriteOutcome.stored, Sys.setJ,
          redisStorage, hpid, redisWrite]
      have hj : (s.step (redisStorage key) pid (.persist p .ok)).journals pid
          = ⟨pid, (s.journals pid).last + 1, (s.journals pid).lastSnap⟩ := by
        simp [Sys.step, persistMessage, WriteOutcome.acked, Sys.setJ, hpid]
      generalize (s.step (redisStorage key) pid (.persist p .ok)) = s' at hst hj
      have hjn : s'.store (key pid "journal") =
          zadd (s.store (key pid "journal")) ⟨(s.journals pid).last, p.ptype, p.bytes⟩ := by
        rw [hst, RedisStore.set_same]
      have hsn : s'.store (key pid "snapshot") = s.store (key pid "snapshot") := by
        rw [hst, RedisStore.set_other _ _ (hk.ne'' pid pid)]
      constructor <;> (try rw [hsn]) <;> (try rw [hjn]) <;> (try rw [hj])
      · exact zadd_sorted h1
      · intro m hm
        rcases mem_zadd.1 hm with hm | rfl
        · have := h2 m hm; simp; omega
        · simp; omega
      · simp; omega
      · exact h6
      · intro e he; have := h7 e he; simp; omega
      · exact h9
      · intro q
        simp only [View.step, List.mem_append, h10, List.mem_map, mem_readFrom, mem_zadd,
          List.mem_singleton]
        constructor
        · rintro (⟨a, ha, rfl⟩ | rfl)
          · exact ⟨a, ⟨.inl ha.1, ha.2⟩, rfl⟩
          · exact ⟨⟨(s.journals pid).last, q.ptype, q.bytes⟩, ⟨.inr rfl, hf.2⟩, rfl⟩
        · rintro ⟨a, ⟨ha | rfl, ha2⟩, rfl⟩
          · exact .inl ⟨a, ⟨ha, ha2⟩, rfl⟩
          · exact .inr rfl
  | batch ps o =>
    cases o with
    | lostAck => exact absurd rfl ho
    | rejected =>
      have : s.step (redisStorage key) pid (.batch ps .rejected) = s := by
        simp only [Sys.step, persistBatch, journalPersistBatch, WriteOutcome.acked, applyWrite,
          WriteOutcome.stored, Sys.setJ]
        split <;> (congr 1; funext q; split <;> simp_all)
      rw [this]; exact h
    | ok =>
      by_cases hps : ps = []
      · have : s.step (redisStorage key) pid (.batch ps .ok) = s := by
          simp only [Sys.step, persistBatch, hps, if_true, Sys.setJ]
          congr 1; funext q; split <;> simp_all
        rw [this]; simpa [View.step, hps] using h
      · obtain ⟨h1, h2, h5, h6, h7, h9, h10⟩ := h
        have hf := fromSeq_le h5 h7
        have hst : (s.step (redisStorage key) pid (.batch ps .ok)).store
            = s.store.set (key pid "journal")
                (s.store (key pid "journal") ++ numberBatch (s.journals pid).last ps) := by
          rw [← zadd_batch ps h2]
          simp [Sys.step, persistBatch, hps, journalPersistBatch, WriteOutcome.acked, applyWrite,
            WriteOutcome.stored, Sys.setJ, redisStorage, hpid, redisWriteBatch]
        have hj : (s.step (redisStorage key) pid (.batch ps .ok)).journals pid
            = ⟨pid, (s.journals pid).last + ps.length, (s.journals pid).lastSnap⟩ := by
          simp [Sys.step, persistBatch, hps, journalPersistBatch, WriteOutcome.acked, Sys.setJ, hpid]
        have hb := numberBatch_bounds (s.journals pid).last ps
        generalize (s.step (redisStorage key) pid (.batch ps .ok)) = s' at hst hj
        have hjn : s'.store (key pid "journal") =
            s.store (key pid "journal") ++ numberBatch (s.journals pid).last ps := by
          rw [hst, RedisStore.set_same]
        have hsn : s'.store (key pid "snapshot") = s.store (key pid "snapshot") := by
          rw [hst, RedisStore.set_other _ _ (hk.ne'' pid pid)]
        constructor <;> (try rw [hsn]) <;> (try rw [hjn]) <;> (try rw [hj])
        · refine h1.append (numberBatch_sorted _ _) ?_
          intro a ha b hb'
          have := h2 a ha; have := hb b hb'; omega
        · intro m hm
          rw [List.mem_append] at hm
          rcases hm with hm | hm
          · have := h2 m hm; simp; omega
          · have := hb m hm; simp; omega
        · simp; omega
        · exact h6
        · intro e he; have := h7 e he; simp; omega
        · exact h9
        · intro q
          have hfl : readFrom (fromSeq (s.store (key pid "snapshot"))) (numberBatch (s.journals pid).last ps)
              = numberBatch (s.journals pid).last ps := by
            unfold readFrom
            rw [List.filter_eq_self]
            intro a ha
            have := hb a ha
            simp; omega
          have : readFrom (fromSeq (s.store (key pid "snapshot")))
              (s.store (key pid "journal") ++ numberBatch (s.journals pid).last ps)
              = readFrom (fromSeq (s.store (key pid "snapshot"))) (s.store (key pid "journal")) ++
                numberBatch (s.journals pid).last ps := by
            rw [← hfl]; unfold readFrom; simp
          rw [this]
          simp only [View.step, List.mem_append, h10, List.map_append, numberBatch_payload]
  | snapshot p o =>
    cases o with
    | lostAck => exact absurd rfl ho
    | rejected =>
      have : s.step (redisStorage key) pid (.snapshot p .rejected) = s := by
        simp only [Sys.step, persistSnapshot, WriteOutcome.acked, applyWrite, WriteOutcome.stored, Sys.setJ]
        congr 1; funext q; split <;> simp_all
      rw [this]; exact h
    | ok =>
      obtain ⟨h1, h2, h5, h6, h7, h9, h10⟩ := h
      have hlt : ∀ x ∈ s.store (key pid "snapshot"), x.seq < (s.journals pid).last + 1 := fun x hx => by
        have := h7 x hx; omega
      have hst : (s.step (redisStorage key) pid (.snapshot p .ok)).store
          = s.store.set (key pid "snapshot")
              (s.store (key pid "snapshot") ++ [⟨(s.journals pid).last + 1, p.ptype, p.bytes⟩]) := by
        rw [← zadd_append (e := ⟨(s.journals pid).last + 1, p.ptype, p.bytes⟩) hlt]
        simp [Sys.step, persistSnapshot, WriteOutcome.acked, applyWrite, WriteOutcome.stored, Sys.setJ,
          redisStorage, hpid, redisWrite]
      have hj : (s.step (redisStorage key) pid (.snapshot p .ok)).journals pid
          = ⟨pid, (s.journals pid).last + 1, some ((s.journals pid).last + 1)⟩ := by
        simp [Sys.step, persistSnapshot, WriteOutcome.acked, Sys.setJ, hpid]
      generalize (s.step (redisStorage key) pid (.snapshot p .ok)) = s' at hst hj
      have hjn : s'.store (key pid "journal") = s.store (key pid "journal") := by
        rw [hst, RedisStore.set_other _ _ (hk.ne' pid pid)]
      have hsn : s'.store (key pid "snapshot") =
          s.store (key pid "snapshot") ++ [⟨(s.journals pid).last + 1, p.ptype, p.bytes⟩] := by
        rw [hst, RedisStore.set_same]
      constructor <;> (try rw [hsn]) <;> (try rw [hjn]) <;> (try rw [hj])
      · exact h1
      · intro m hm; have := h2 m hm; simp; omega
      · simp; omega
      · exact h6.append_one hlt
      · intro e he
        simp only [List.mem_append, List.mem_singleton] at he
        rcases he with he | rfl
        · have := h7 e he; simp; omega
        · simp; omega
      · simp [View.step, Entry.payload]
      · intro q
        simp only [View.step, List.not_mem_nil, false_iff, List.mem_map, mem_readFrom, fromSeq,
          List.getLast?_append, List.getLast?_singleton, Option.some_or, Option.map_some, Option.getD_some]
        rintro ⟨a, ⟨ha, ha2⟩, _⟩
        have := h2 a ha; omega

theorem RedisWeak.run1 {key} (hk : KeyOk key) {s : Sys RedisStore} {pid : String} {v : View}
    (hp : PidOk s) (h : RedisWeak key s pid v) (ops : List Op) (ho : ∀ op ∈ ops, op.Honest)
    (ht : ∀ op ∈ ops, op.isTrim = false) :
    RedisWeak key (run1 (redisStorage key) s pid ops) pid (v.run ops) := by
  induction ops generalizing s v with
  | nil => exact h
  | cons op ops ih =>
    exact ih (hp.step pid op) (h.step hk hp op (ho op (by simp)) (ht op (by simp)))
      (fun o h' => ho o (by simp [h'])) (fun o h' => ht o (by simp [h']))

end Verif.Persist
