import Verif.Persist.Lemmas
import Verif.Persist.Spec

namespace Verif.Persist

/-! ### one actor alone -/

/-- a run of one actor's own operations. -/
def run1 {σ : Type} (S : Storage σ) (s : Sys σ) (pid : String) (ops : List Op) : Sys σ :=
  ops.foldl (fun s op => s.step S pid op) s

theorem run_filter_eq_run1 {σ : Type} (S : Storage σ) (s : Sys σ) (pid : String)
    (ops : List (String × Op)) :
    s.run S (ops.filter fun x => x.1 = pid) = run1 S s pid (own pid ops) := by
  unfold own
  induction ops generalizing s with
  | nil => rfl
  | cons x ops ih =>
    by_cases h : x.1 = pid
    · simp only [List.filter_cons, h, decide_true, if_true, Sys.run, List.foldl_cons, List.map_cons,
        run1] at ih ⊢
      exact ih _
    · simp only [List.filter_cons, h, decide_false] at ih ⊢
      exact ih _

/-- what an actor recovers, and its journal, depend on its own operations only. -/
theorem Isolated.run_own {σ ν : Type} {S : Storage σ} (I : Isolated S ν) (st : σ) (pid : String)
    (ops : List (String × Op)) :
    I.Agree ((Sys.init st).run S ops) (run1 S (Sys.init st) pid (own pid ops)) pid := by
  rw [← run_filter_eq_run1]
  exact Isolated.Agree.run I (PidOk.init st) (PidOk.init st) ⟨rfl, rfl⟩ ops

theorem Isolated.recovered_own {σ ν : Type} {S : Storage σ} (I : Isolated S ν) (st : σ) (pid : String)
    (ops : List (String × Op)) (K : Known) :
    ((Sys.init st).run S ops).recovered S K pid
      = (run1 S (Sys.init st) pid (own pid ops)).recovered S K pid := by
  unfold Sys.recovered
  rw [loadJournal_congr I (I.run_own st pid ops).1 K]

theorem PidOk.run1 {σ : Type} {S : Storage σ} {s : Sys σ} (h : PidOk s) (pid : String) (ops : List Op) :
    PidOk (run1 S s pid ops) := by
  induction ops generalizing s with
  | nil => exact h
  | cons x ops ih => exact ih (h.step pid x)

/-! ### recovery from the in-memory store -/

theorem filter_map_payload (K : Known) (es : List Entry) :
    (es.filter fun e => K.message e.ptype).map Entry.payload
      = (es.map Entry.payload).filter fun p => K.message p.ptype := by
  induction es with
  | nil => rfl
  | cons e es ih =>
    simp only [List.filter_cons, List.map_cons, Entry.payload] at *
    split <;> simp_all [Entry.payload]

/-- the entries handed to the loop of `recover_messages`. -/
def memRead (frm : Int) (l : List Entry) : List Entry := if frm = 0 then l else suffixAfter frm l

theorem loadJournal_mem (K : Known) (st : MemStore) (pid : String) :
    let frm := ((snapsOf st pid).getLast?.map (·.seq)).getD 0
    let es := memRead frm (msgsOf st pid)
    loadJournal memStorage K st pid =
      (⟨pid, lastSeq frm es, (snapsOf st pid).getLast?.map (·.seq)⟩,
       View.seen K ⟨(snapsOf st pid).getLast?.map Entry.payload, es.map Entry.payload⟩) := by
  simp only [loadJournal, recoverSnapshot, recoverMessages, Journal.new, memStorage,
    memReadLatestSnapshot, memReadLatestMessages, snapsOf, msgsOf, View.seen, ← filter_map_payload]
  cases h : st pid with
  | none => simp [h, memRead, lastSeq]
  | some j =>
    cases h2 : j.snapshots.getLast? with
    | none => simp [h, h2, memRead]
    | some e =>
      by_cases hk : K.snapshot e.ptype <;>
        by_cases h0 : e.seq = 0 <;> simp [h, h2, memRead, h0, hk, Entry.payload, Option.filter]

/-! ### the invariant behind C01/C02/C04/C05/C11 for the in-memory store -/

structure MemInv (s : Sys MemStore) (pid : String) (v : MemView) : Prop where
  sorted : SortedSeq (msgsOf s.store pid)
  le_last : ∀ m ∈ msgsOf s.store pid, m.seq ≤ (s.journals pid).last
  nonneg : ∀ m ∈ msgsOf s.store pid, 0 ≤ m.seq
  last_nonneg : 0 ≤ (s.journals pid).last
  lastSnap : (s.journals pid).lastSnap = (snapsOf s.store pid).getLast?.map (·.seq)
  snap : v.view.snap = (snapsOf s.store pid).getLast?.map Entry.payload
  body : match (snapsOf s.store pid).getLast? with
    | none => v.view.msgs = (msgsOf s.store pid).map Entry.payload ∧ v.armed = false
    | some e => 1 ≤ e.seq ∧ e.seq ≤ (s.journals pid).last ∧
        v.view.msgs = (suffixAfter e.seq (msgsOf s.store pid)).map Entry.payload ∧
        (v.armed = true → (s.journals pid).last = e.seq ∧ suffixAfter e.seq (msgsOf s.store pid) = []) ∧
        (v.armed = false → suffixAfter e.seq (msgsOf s.store pid) = [] → e.seq < (s.journals pid).last)

theorem MemInv.init (pid : String) : MemInv (Sys.init fun _ => none) pid .empty := by
  constructor <;> simp [msgsOf, snapsOf, Sys.init, SortedSeq, Journal.new, MemView.empty, View.empty]

theorem SortedSeq.append {l r : List Entry} (hl : SortedSeq l) (hr : SortedSeq r)
    (h : ∀ a ∈ l, ∀ b ∈ r, a.seq ≤ b.seq) : SortedSeq (l ++ r) :=
  List.pairwise_append.2 ⟨hl, hr, h⟩

theorem SortedSeq.sublist {l r : List Entry} (h : SortedSeq r) (hs : l.Sublist r) : SortedSeq l :=
  List.Pairwise.sublist hs h

/-- adding entries numbered beyond (or, for one entry, at) the counter. -/
theorem MemInv.restart {s : Sys MemStore} {pid : String} {v : MemView} (h : MemInv s pid v) (K : Known) :
    MemInv (s.step memStorage pid (.restart K)) pid (v.step (.restart K)) := by
  have hl := loadJournal_mem K s.store pid
  obtain ⟨h1, h2, h3, h4, h5, h6, h7⟩ := h
  simp only [Sys.step, Sys.setJ]
  cases hs : (snapsOf s.store pid).getLast? with
  | none =>
    rw [hs] at hl h6 h7
    simp only [Option.map_none, Option.getD_none, memRead, if_true] at hl h6 h7
    obtain ⟨h7, h8⟩ := h7
    constructor <;> simp only [hl, if_true, hs, MemView.step]
    · exact h1
    · exact le_lastSeq h1
    · exact h3
    · by_cases he : msgsOf s.store pid = []
      · simp [he, lastSeq]
      · obtain ⟨e, he1, he2⟩ := lastSeq_mem (l := 0) he
        rw [he2]; exact h3 e he1
    · rfl
    · exact h6
    · simp [h6, h7]
  | some e =>
    rw [hs] at hl h6 h7
    simp only [Option.map_some, Option.getD_some] at hl h6 h7
    obtain ⟨h7, h8, h9, h10, h11⟩ := h7
    simp only [memRead, if_neg (by omega : ¬ e.seq = 0)] at hl
    have hsub : SortedSeq (suffixAfter e.seq (msgsOf s.store pid)) := h1.sublist (List.dropWhile_sublist _)
    have hge : ∀ es : List Entry, es = suffixAfter e.seq (msgsOf s.store pid) → e.seq ≤ lastSeq e.seq es := by
      intro es hes
      cases es with
      | nil => exact Int.le_refl _
      | cons a es =>
        have hgt : e.seq < a.seq := by
          have hd := List.head?_dropWhile_not (fun e' : Entry => !(decide (e'.seq > e.seq))) (msgsOf s.store pid)
          unfold suffixAfter at hes
          rw [← hes] at hd
          simp at hd; omega
        have := le_lastSeq (l := e.seq) (hes ▸ hsub) a (by simp)
        omega
    have hle : ∀ m ∈ msgsOf s.store pid, m.seq ≤ lastSeq e.seq (suffixAfter e.seq (msgsOf s.store pid)) := by
      intro m hm
      obtain ⟨pre, hp1, hp2⟩ := suffixAfter_split e.seq (msgsOf s.store pid)
      rw [hp1, List.mem_append] at hm
      rcases hm with hm | hm
      · have := hp2 m hm; have := hge _ rfl; omega
      · exact le_lastSeq hsub m hm
    constructor <;> simp only [hl, if_true, hs, MemView.step]
    · exact h1
    · exact hle
    · exact h3
    · have := hge _ rfl; omega
    · rfl
    · exact h6
    · refine ⟨h7, hge _ rfl, h9, ?_, ?_⟩
      · intro ha
        simp [h6, h9] at ha
        simp [ha, lastSeq]
      · intro ha hnil
        simp [h6, h9, hnil] at ha

theorem MemInv.step {s : Sys MemStore} {pid : String} {v : MemView} (hp : PidOk s) (h : MemInv s pid v)
    (op : Op) (ho : op.Honest) : MemInv (s.step memStorage pid op) pid (v.step op) := by
  have hpid := hp pid
  cases op with
  | restart K => exact h.restart K
  | trim o =>
    obtain ⟨h1, h2, h3, h4, h5, h6, h7⟩ := h
    simp only [Sys.step, MemView.step, clearOldMessages, h5]
    cases hs : (snapsOf s.store pid).getLast? with
    | none =>
      simp only [Option.map_none]
      exact ⟨h1, h2, h3, h4, h5, h6, h7⟩
    | some e =>
      simp only [Option.map_some, hpid, applyWrite]
      split
      · have hms := msgsOf_delete s.store pid e.seq h1
        have hsn := snapsOf_delete s.store pid e.seq
        have hsub : (msgsOf (memStorage.deleteMessagesTo s.store pid e.seq) pid).Sublist (msgsOf s.store pid) := by
          show (msgsOf (memDeleteMessagesTo s.store pid e.seq) pid).Sublist _
          rw [hms]; exact List.dropWhile_sublist _
        have hsx := suffixAfter_dropWhile e.seq (msgsOf s.store pid)
        rw [← hms] at hsx
        constructor
        · exact h1.sublist hsub
        · exact fun m hm => h2 m (hsub.mem hm)
        · exact fun m hm => h3 m (hsub.mem hm)
        · exact h4
        · show _ = (snapsOf (memDeleteMessagesTo s.store pid e.seq) pid).getLast?.map _
          rw [hsn]; exact h5
        · show _ = (snapsOf (memDeleteMessagesTo s.store pid e.seq) pid).getLast?.map _
          rw [hsn]; exact h6
        · show match (snapsOf (memDeleteMessagesTo s.store pid e.seq) pid).getLast? with
            | none => _
            | some e => _
          simp only [hsn, hs] at h7 ⊢
          have e1 : memStorage.deleteMessagesTo s.store pid e.seq = memDeleteMessagesTo s.store pid e.seq := rfl
          rw [e1, hsx]
          exact h7
      · exact ⟨h1, h2, h3, h4, h5, h6, h7⟩
  | persist p o =>
    cases o with
    | lostAck => exact absurd rfl ho
    | rejected =>
      have : s.step memStorage pid (.persist p .rejected) = s := by
        simp only [Sys.step, persistMessage, WriteOutcome.acked, applyWrite, WriteOutcome.stored, Sys.setJ]
        congr 1; funext q; split
        · rename_i hq; rw [hq]; simp
        · rfl
      rw [this]; exact h
    | ok =>
      obtain ⟨h1, h2, h3, h4, h5, h6, h7⟩ := h
      have hst : (s.step memStorage pid (.persist p .ok)).store
          = memWriteMessage s.store pid ⟨(s.journals pid).last, p.ptype, p.bytes⟩ := by
        simp [Sys.step, persistMessage, WriteOutcome.acked, applyWrite, WriteOutcome.stored, Sys.setJ,
          memStorage, hpid]
      have hj : (s.step memStorage pid (.persist p .ok)).journals pid
          = ⟨pid, (s.journals pid).last + 1, (s.journals pid).lastSnap⟩ := by
        simp [Sys.step, persistMessage, WriteOutcome.acked, Sys.setJ, hpid]
      have hms := msgsOf_writeMessage s.store pid ⟨(s.journals pid).last, p.ptype, p.bytes⟩
      have hsn := snapsOf_writeMessage s.store pid ⟨(s.journals pid).last, p.ptype, p.bytes⟩
      generalize (s.step memStorage pid (.persist p .ok)) = s' at hst hj
      constructor <;> try rw [hst]
      · rw [hms]
        refine h1.append (by simp [SortedSeq]) ?_
        intro a ha b hb
        simp at hb; subst hb; exact h2 a ha
      · rw [hms, hj]
        intro m hm
        simp only [List.mem_append, List.mem_singleton] at hm
        rcases hm with hm | rfl
        · have := h2 m hm; simp; omega
        · simp; omega
      · rw [hms]
        intro m hm
        simp only [List.mem_append, List.mem_singleton] at hm
        rcases hm with hm | rfl
        · exact h3 m hm
        · exact h4
      · rw [hj]; simp; omega
      · rw [hj, hsn]; exact h5
      · rw [hsn, ← h6]; simp only [MemView.step]; split <;> rfl
      · rw [hsn, hms, hj]
        cases hs : (snapsOf s.store pid).getLast? with
        | none =>
          rw [hs] at h7
          obtain ⟨h7, h8⟩ := h7
          simp [MemView.step, h8, View.step, h7, Entry.payload]
        | some e =>
          rw [hs] at h7
          obtain ⟨h7, h8, h9, h10, h11⟩ := h7
          simp only [MemView.step]
          refine ⟨h7, by omega, ?_⟩
          by_cases ha : v.armed = true
          · obtain ⟨h12, h13⟩ := h10 ha
            have hnil : suffixAfter e.seq [(⟨(s.journals pid).last, p.ptype, p.bytes⟩ : Entry)] = [] :=
              suffixAfter_nil_of_le (by simp; omega)
            rw [suffixAfter_append_nil h13, hnil]
            simp [ha, h9, h13]; omega
          · have ha' : v.armed = false := by simpa using ha
            by_cases hn : suffixAfter e.seq (msgsOf s.store pid) = []
            · have hlt := h11 ha' hn
              rw [suffixAfter_append_nil hn, suffixAfter_of_gt (by simp; omega)]
              simp [ha', h9, hn, View.step, Entry.payload]
            · rw [suffixAfter_append_ne hn]
              simp [ha', h9, View.step, Entry.payload]
  | batch ps o =>
    cases o with
    | lostAck => exact absurd rfl ho
    | rejected =>
      have : s.step memStorage pid (.batch ps .rejected) = s := by
        simp only [Sys.step, persistBatch, journalPersistBatch, WriteOutcome.acked, applyWrite,
          WriteOutcome.stored, Sys.setJ]
        split <;> (congr 1; funext q; split <;> simp_all)
      rw [this]; exact h
    | ok =>
      by_cases hps : ps = []
      · have : s.step memStorage pid (.batch ps .ok) = s := by
          simp only [Sys.step, persistBatch, hps, if_true, Sys.setJ]
          congr 1; funext q; split <;> simp_all
        rw [this]; simp only [MemView.step, hps, if_true]; exact h
      · obtain ⟨h1, h2, h3, h4, h5, h6, h7⟩ := h
        have hst : (s.step memStorage pid (.batch ps .ok)).store
            = memWriteBatch s.store pid (numberBatch (s.journals pid).last ps) := by
          simp [Sys.step, persistBatch, hps, journalPersistBatch, WriteOutcome.acked, applyWrite,
            WriteOutcome.stored, Sys.setJ, memStorage, hpid]
        have hj : (s.step memStorage pid (.batch ps .ok)).journals pid
            = ⟨pid, (s.journals pid).last + ps.length, (s.journals pid).lastSnap⟩ := by
          simp [Sys.step, persistBatch, hps, journalPersistBatch, WriteOutcome.acked, Sys.setJ, hpid]
        have hms := msgsOf_writeBatch s.store pid (numberBatch (s.journals pid).last ps)
        have hsn := snapsOf_writeBatch s.store pid (numberBatch (s.journals pid).last ps)
        have hb := numberBatch_bounds (s.journals pid).last ps
        have hne : numberBatch (s.journals pid).last ps ≠ [] := by simpa [numberBatch_eq_nil] using hps
        have hlen : 0 < ps.length := List.length_pos_iff.2 hps
        generalize (s.step memStorage pid (.batch ps .ok)) = s' at hst hj
        constructor <;> try rw [hst]
        · rw [hms]
          refine h1.append (numberBatch_sorted _ _) ?_
          intro a ha b hb'
          have := h2 a ha; have := hb b hb'; omega
        · rw [hms, hj]
          intro m hm
          rw [List.mem_append] at hm
          rcases hm with hm | hm
          · have := h2 m hm; simp; omega
          · have := hb m hm; simp; omega
        · rw [hms]
          intro m hm
          rw [List.mem_append] at hm
          rcases hm with hm | hm
          · exact h3 m hm
          · have := hb m hm; omega
        · rw [hj]; simp; omega
        · rw [hj, hsn]; exact h5
        · rw [hsn, ← h6]; simp [MemView.step, hps, View.step]
        · rw [hsn, hms, hj]
          cases hs : (snapsOf s.store pid).getLast? with
          | none =>
            rw [hs] at h7
            obtain ⟨h7, h8⟩ := h7
            simp [MemView.step, hps, View.step, h7, numberBatch_payload]
          | some e =>
            rw [hs] at h7
            obtain ⟨h7, h8, h9, h10, h11⟩ := h7
            simp only [MemView.step, if_neg hps]
            refine ⟨h7, by omega, ?_⟩
            have hsuf : suffixAfter e.seq (msgsOf s.store pid ++ numberBatch (s.journals pid).last ps)
                = suffixAfter e.seq (msgsOf s.store pid) ++ numberBatch (s.journals pid).last ps := by
              by_cases hn : suffixAfter e.seq (msgsOf s.store pid) = []
              · rw [suffixAfter_append_nil hn, hn, List.nil_append]
                exact suffixAfter_of_gt fun x hx => by have := hb x hx; omega
              · exact suffixAfter_append_ne hn
            rw [hsuf]
            refine ⟨by simp [View.step, h9, numberBatch_payload], by simp, ?_⟩
            intro _ hnil
            simp [hne] at hnil
  | snapshot p o =>
    cases o with
    | lostAck => exact absurd rfl ho
    | rejected =>
      have : s.step memStorage pid (.snapshot p .rejected) = s := by
        simp only [Sys.step, persistSnapshot, WriteOutcome.acked, applyWrite, WriteOutcome.stored, Sys.setJ]
        congr 1; funext q; split <;> simp_all
      rw [this]; exact h
    | ok =>
      obtain ⟨h1, h2, h3, h4, h5, h6, h7⟩ := h
      have hst : (s.step memStorage pid (.snapshot p .ok)).store
          = memWriteSnapshot s.store pid ⟨(s.journals pid).last + 1, p.ptype, p.bytes⟩ := by
        simp [Sys.step, persistSnapshot, WriteOutcome.acked, applyWrite, WriteOutcome.stored, Sys.setJ,
          memStorage, hpid]
      have hj : (s.step memStorage pid (.snapshot p .ok)).journals pid
          = ⟨pid, (s.journals pid).last + 1, some ((s.journals pid).last + 1)⟩ := by
        simp [Sys.step, persistSnapshot, WriteOutcome.acked, Sys.setJ, hpid]
      have hms := msgsOf_writeSnapshot s.store pid ⟨(s.journals pid).last + 1, p.ptype, p.bytes⟩
      have hsn := snapsOf_writeSnapshot s.store pid ⟨(s.journals pid).last + 1, p.ptype, p.bytes⟩
      generalize (s.step memStorage pid (.snapshot p .ok)) = s' at hst hj
      constructor <;> try rw [hst]
      · rw [hms]; exact h1
      · rw [hms, hj]; intro m hm; have := h2 m hm; simp; omega
      · rw [hms]; exact h3
      · rw [hj]; simp; omega
      · rw [hj, hsn]; simp
      · rw [hsn]; simp [MemView.step, View.step, Entry.payload]
      · rw [hsn, hms, hj]
        have hnil : suffixAfter ((s.journals pid).last + 1) (msgsOf s.store pid) = [] :=
          suffixAfter_nil_of_le fun m hm => by have := h2 m hm; omega
        simp only [List.getLast?_append, List.getLast?_singleton, Option.some_or, MemView.step, View.step, hnil]
        simp; omega

theorem MemInv.run1 {s : Sys MemStore} {pid : String} {v : MemView} (hp : PidOk s) (h : MemInv s pid v)
    (ops : List Op) (ho : ∀ op ∈ ops, op.Honest) :
    MemInv (run1 memStorage s pid ops) pid (v.run ops) := by
  induction ops generalizing s v with
  | nil => exact h
  | cons op ops ih =>
    exact ih (hp.step pid op) (h.step hp op (ho op (by simp))) fun o h' => ho o (by simp [h'])

/-- recovery under the invariant yields the view. -/
theorem MemInv.recovered {s : Sys MemStore} {pid : String} {v : MemView} (h : MemInv s pid v) (K : Known) :
    s.recovered memStorage K pid = v.view.seen K := by
  have hl := loadJournal_mem K s.store pid
  obtain ⟨h1, h2, h3, h4, h5, h6, h7⟩ := h
  unfold Sys.recovered
  obtain ⟨⟨vs, vm⟩, va⟩ := v
  simp only at h6 h7 ⊢
  cases hs : (snapsOf s.store pid).getLast? with
  | none =>
    rw [hs] at hl h6 h7
    simp only [Option.map_none, Option.getD_none, memRead, if_true] at hl h6 h7
    rw [hl, h6, h7.1]
  | some e =>
    rw [hs] at hl h6 h7
    simp only [Option.map_some, Option.getD_some] at hl h6 h7
    simp only [memRead, if_neg (by omega : ¬ e.seq = 0)] at hl
    rw [hl, h6, h7.2.2.1]

end Verif.Persist
