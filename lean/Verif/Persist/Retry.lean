import Verif.Persist.RefineRedis

namespace Verif.Persist

/-! ### the retry loop -/

section
variable {α : Type} (attempt : α → WriteOutcome → α × Bool)

/-- state after making the given attempts. -/
def attempts (st : α) (os : List WriteOutcome) : α := os.foldl (fun st o => (attempt st o).1) st

/-- an attempt is reported as successful exactly when the storage acknowledged it. -/
def Reports : Prop := ∀ st o, (attempt st o).2 = o.acked

theorem persistLoop_attempts_ge (policy : PersistPolicy) (st : α) (n : Nat) (os : List WriteOutcome) :
    n - 1 ≤ (persistLoop policy attempt st n os).attempts := by
  induction os generalizing st n with
  | nil => simp [persistLoop]
  | cons o os ih =>
    simp only [persistLoop]
    have := ih (attempt st o).1 (n + 1)
    split <;> simp only <;> omega

theorem persistLoop_attempts_le (policy : PersistPolicy) (st : α) (n : Nat) (hn : 1 ≤ n)
    (os : List WriteOutcome) :
    (persistLoop policy attempt st n os).attempts ≤ n - 1 + os.length := by
  induction os generalizing st n with
  | nil => simp [persistLoop]
  | cons o os ih =>
    simp only [persistLoop, List.length_cons]
    have := ih (attempt st o).1 (n + 1) (by omega)
    split <;> simp only <;> omega

theorem persistLoop_state (policy : PersistPolicy) (st : α) (n : Nat) (hn : 1 ≤ n) (os : List WriteOutcome) :
    (persistLoop policy attempt st n os).state
      = attempts attempt st (os.take ((persistLoop policy attempt st n os).attempts - (n - 1))) := by
  induction os generalizing st n with
  | nil => simp [persistLoop, attempts]
  | cons o os ih =>
    simp only [persistLoop]
    split
    · have : n - (n - 1) = 1 := by omega
      simp [this, attempts]
    · have h := ih (attempt st o).1 (n + 1) (by omega)
      have hge := persistLoop_attempts_ge attempt policy (attempt st o).1 (n + 1) os
      simp only
      rw [h]
      have e : (persistLoop policy attempt (attempt st o).1 (n + 1) os).attempts - (n - 1)
          = ((persistLoop policy attempt (attempt st o).1 (n + 1) os).attempts - (n + 1 - 1)) + 1 := by omega
      rw [e, List.take_succ_cons]
      rfl

theorem persistLoop_untilSuccess (hr : Reports attempt) (st : α) (n : Nat) (fails : List WriteOutcome)
    (hf : ∀ o ∈ fails, o.acked = false) (o : WriteOutcome) (ho : o.acked = true) (rest : List WriteOutcome) :
    let c := persistLoop (.retry .untilSuccess) attempt st n (fails ++ o :: rest)
    c.res = .ok ∧ c.attempts = n + fails.length ∧ c.stopped = false := by
  induction fails generalizing st n with
  | nil => simp [persistLoop, check, hr st o, ho]
  | cons f fs ih =>
    have h1 := hf f (by simp)
    have h2 := ih (attempt st f).1 (n + 1) fun o h => hf o (by simp [h])
    simp only [List.cons_append, persistLoop, hr st f, h1, check, shouldRetry, List.length_cons] at h2 ⊢
    refine ⟨h2.1, ?_, ?_⟩
    · have := h2.2.1; simp only [Bool.false_eq_true, if_false]; omega
    · simpa using h2.2.2

theorem persistLoop_untilSuccess_pending (hr : Reports attempt) (st : α) (n : Nat) (fails : List WriteOutcome)
    (hf : ∀ o ∈ fails, o.acked = false) :
    (persistLoop (.retry .untilSuccess) attempt st n fails).res = .pending := by
  induction fails generalizing st n with
  | nil => rfl
  | cons f fs ih =>
    have h1 := hf f (by simp)
    have h2 := ih (attempt st f).1 (n + 1) fun o h => hf o (by simp [h])
    simpa [persistLoop, hr st f, h1, check, shouldRetry] using h2

theorem persistLoop_max_ok (hr : Reports attempt) (m : Nat) (st : α) (n : Nat) (fails : List WriteOutcome)
    (hf : ∀ o ∈ fails, o.acked = false) (o : WriteOutcome) (ho : o.acked = true) (rest : List WriteOutcome)
    (hm : fails = [] ∨ n + fails.length ≤ m) :
    let c := persistLoop (.retry (.maxAttempts m)) attempt st n (fails ++ o :: rest)
    c.res = .ok ∧ c.attempts = n + fails.length ∧ c.stopped = false := by
  induction fails generalizing st n with
  | nil => simp [persistLoop, check, hr st o, ho]
  | cons f fs ih =>
    have h1 := hf f (by simp)
    simp only [List.length_cons] at hm
    have hm' : n + (fs.length + 1) ≤ m := by rcases hm with h | h <;> simp_all
    have h2 := ih (attempt st f).1 (n + 1) (fun o h => hf o (by simp [h])) (.inr (by omega))
    have hlt : ¬ n ≥ m := by omega
    simp only [List.cons_append, persistLoop, hr st f, h1, check, shouldRetry, List.length_cons, hlt,
      if_false, Bool.false_eq_true] at h2 ⊢
    refine ⟨h2.1, ?_, ?_⟩
    · have := h2.2.1; omega
    · simpa using h2.2.2

theorem persistLoop_max_err (hr : Reports attempt) (m : Nat) (st : α) (n : Nat) (fails : List WriteOutcome)
    (hf : ∀ o ∈ fails, o.acked = false) (rest : List WriteOutcome)
    (hne : fails ≠ []) (hm : n + fails.length = max (n + 1) (m + 1)) :
    let c := persistLoop (.retry (.maxAttempts m)) attempt st n (fails ++ rest)
    c.res = .err ∧ c.attempts = max n m ∧ c.stopped = true := by
  induction fails generalizing st n with
  | nil => exact absurd rfl hne
  | cons f fs ih =>
    have h1 := hf f (by simp)
    simp only [List.length_cons] at hm
    by_cases hlt : n ≥ m
    · simp only [List.cons_append, persistLoop, hr st f, h1, check, shouldRetry, hlt,
        if_true, if_false, Bool.false_eq_true, true_and, and_true]
      omega
    · have hfs : fs ≠ [] := by rintro rfl; simp at hm; omega
      have h2 := ih (attempt st f).1 (n + 1) (fun o h => hf o (by simp [h])) hfs (by omega)
      simp only [List.cons_append, persistLoop, hr st f, h1, check, shouldRetry, hlt,
        if_false, Bool.false_eq_true] at h2 ⊢
      refine ⟨h2.1, ?_, ?_⟩
      · have := h2.2.1; omega
      · simpa using h2.2.2

theorem persistLoop_max_bound (m : Nat) (st : α) (n : Nat) (hn : 1 ≤ n) (os : List WriteOutcome) :
    (persistLoop (.retry (.maxAttempts m)) attempt st n os).attempts ≤ max n m := by
  induction os generalizing st n with
  | nil => simp only [persistLoop]; omega
  | cons o os ih =>
    simp only [persistLoop]
    have h2 := ih (attempt st o).1 (n + 1) (by omega)
    split
    · simp only; omega
    · rename_i heq
      simp only
      have : ¬ n ≥ m := by
        intro hge
        simp only [check, shouldRetry, hge, if_true] at heq
        split at heq <;> simp at heq
      omega

/-- an `Ok` comes from an acknowledged last attempt, all earlier ones being unacknowledged. -/
theorem persistLoop_ok (hr : Reports attempt) (policy : PersistPolicy) (st : α) (n : Nat)
    (os : List WriteOutcome) (h : (persistLoop policy attempt st n os).res = .ok) :
    ∃ fails o rest, os = fails ++ o :: rest ∧ (∀ f ∈ fails, f.acked = false) ∧ o.acked = true ∧
      (persistLoop policy attempt st n os).attempts = n + fails.length := by
  induction os generalizing st n with
  | nil => simp [persistLoop] at h
  | cons o os ih =>
    by_cases ho : o.acked = true
    · exact ⟨[], o, os, rfl, by simp, ho, by simp [persistLoop, check, hr st o, ho]⟩
    · have ho' : o.acked = false := by simpa using ho
      simp only [persistLoop, hr st o, ho', check] at h ⊢
      cases policy with
      | returnErr => simp at h
      | stopActor => simp at h
      | panic => simp at h
      | retry r =>
        cases hsr : shouldRetry n r with
        | mk b s =>
          cases b with
          | false => simp [hsr] at h
          | true =>
            simp only [hsr, Bool.false_eq_true, if_false] at h ⊢
            obtain ⟨fs, o', rest, h1, h2, h3, h4⟩ := ih (attempt st o).1 (n + 1) h
            refine ⟨o :: fs, o', rest, by simp [h1], ?_, h3, ?_⟩
            · intro f hf
              rw [List.mem_cons] at hf
              rcases hf with rfl | hf
              · exact ho'
              · exact h2 f hf
            · rw [h4]; simp; omega

end

/-! ### what one attempt does -/

theorem WriteOutcome.eq_rejected {o : WriteOutcome} (h : o.acked = false) (h2 : o ≠ .lostAck) : o = .rejected := by
  cases o <;> simp_all [WriteOutcome.acked]

theorem WriteOutcome.eq_ok {o : WriteOutcome} (h : o.acked = true) : o = .ok := by
  cases o <;> simp_all [WriteOutcome.acked]

section
variable {σ : Type} (S : Storage σ)

def attemptMsg (p : Payload) : σ × Journal → WriteOutcome → (σ × Journal) × Bool := fun x o =>
  let r := persistMessage S x.1 x.2 p o
  ((r.1, r.2.1), r.2.2)

def attemptBatch (ps : List Payload) : σ × Journal → WriteOutcome → (σ × Journal) × Bool := fun x o =>
  let r := journalPersistBatch S x.1 x.2 ps o
  ((r.1, r.2.1), r.2.2)

def attemptSnap (p : Payload) : σ × Journal → WriteOutcome → (σ × Journal) × Bool := fun x o =>
  let r := persistSnapshot S x.1 x.2 p o
  ((r.1, r.2.1), r.2.2)

theorem reports_msg (p) : Reports (attemptMsg S p) := by
  intro x o; cases o <;> simp [attemptMsg, persistMessage, WriteOutcome.acked]

theorem reports_batch (p) : Reports (attemptBatch S p) := by
  intro x o; cases o <;> simp [attemptBatch, journalPersistBatch, WriteOutcome.acked]

theorem reports_snap (p) : Reports (attemptSnap S p) := by
  intro x o; cases o <;> simp [attemptSnap, persistSnapshot, WriteOutcome.acked]

/-- an attempt that does nothing when rejected. -/
def Quiet {α : Type} (attempt : α → WriteOutcome → α × Bool) : Prop := ∀ st, (attempt st .rejected).1 = st

theorem quiet_msg (p) : Quiet (attemptMsg S p) := by
  intro x; simp [attemptMsg, persistMessage, WriteOutcome.acked, applyWrite, WriteOutcome.stored]

theorem quiet_batch (p) : Quiet (attemptBatch S p) := by
  intro x; simp [attemptBatch, journalPersistBatch, WriteOutcome.acked, applyWrite, WriteOutcome.stored]

theorem quiet_snap (p) : Quiet (attemptSnap S p) := by
  intro x; simp [attemptSnap, persistSnapshot, WriteOutcome.acked, applyWrite, WriteOutcome.stored]

theorem attempts_rejected {α : Type} {attempt : α → WriteOutcome → α × Bool} (hq : Quiet attempt) (st : α)
    (os : List WriteOutcome) (h : ∀ o ∈ os, o = .rejected) : attempts attempt st os = st := by
  induction os generalizing st with
  | nil => rfl
  | cons o os ih =>
    have := h o (by simp)
    subst this
    simp only [attempts, List.foldl_cons, hq st]
    exact ih st fun o ho => h o (by simp [ho])

/-- an `Ok` without lost acknowledgements is the effect of one successful attempt. -/
theorem loop_ok_once {α : Type} {attempt : α → WriteOutcome → α × Bool} (hq : Quiet attempt)
    (hr : Reports attempt) (policy : PersistPolicy) (st : α) (os : List WriteOutcome)
    (hl : ∀ o ∈ os, o ≠ .lostAck) (h : (persistLoop policy attempt st 1 os).res = .ok) :
    (persistLoop policy attempt st 1 os).state = (attempt st .ok).1 := by
  obtain ⟨fails, o, rest, h1, h2, h3, h4⟩ := persistLoop_ok attempt hr policy st 1 os h
  rw [persistLoop_state attempt policy st 1 (by omega) os, h4]
  have e : 1 + fails.length - (1 - 1) = fails.length + 1 := by omega
  rw [e, h1]
  have e2 : (fails ++ o :: rest).take (fails.length + 1) = fails ++ [o] := by
    rw [List.take_append]; simp
    exact List.take_of_length_le (by omega)
  rw [e2]
  have hrej : ∀ f ∈ fails, f = .rejected := fun f hf =>
    WriteOutcome.eq_rejected (h2 f hf) (hl f (by rw [h1]; simp [hf]))
  have := attempts_rejected hq st fails hrej
  simp only [attempts, List.foldl_append, List.foldl_cons, List.foldl_nil] at this ⊢
  rw [this, WriteOutcome.eq_ok h3]

/-- a call is the history of its attempts. -/
theorem attempts_msg_eq_run1 (s : Sys σ) (pid : String) (p : Payload) (os : List WriteOutcome) :
    attempts (attemptMsg S p) (s.store, s.journals pid) os
      = ((run1 S s pid (os.map (.persist p))).store, (run1 S s pid (os.map (.persist p))).journals pid) := by
  induction os generalizing s with
  | nil => rfl
  | cons o os ih =>
    have h := ih (s.step S pid (.persist p o))
    simp only [List.map_cons, run1, List.foldl_cons, attempts] at h ⊢
    rw [← h]
    congr 1
    simp [attemptMsg, Sys.step, Sys.setJ]

end

/-! ### recovery loop -/

theorem recoverLoop_max_ok (m n : Nat) (k : Nat) (rest : List Bool) (h : k = 0 ∨ n + k ≤ m) :
    recoverLoop (.retry (.maxAttempts m)) n (List.replicate k false ++ true :: rest)
      = (.recovered, n + k, false, k) := by
  induction k generalizing n with
  | zero => simp [recoverLoop]
  | succ k ih =>
    have hlt : ¬ n ≥ m := by omega
    rw [List.replicate_succ, List.cons_append]
    simp only [recoverLoop, shouldRetry, hlt, if_false]
    rw [ih (n + 1) (.inr (by omega))]
    simp; omega

theorem recoverLoop_max_err (m n : Nat) (k : Nat) (rest : List Bool) (hk : n + k = max (n + 1) (m + 1)) :
    recoverLoop (.retry (.maxAttempts m)) n (List.replicate k false ++ rest)
      = (.failed, max n m, true, k) := by
  induction k generalizing n with
  | zero => omega
  | succ k ih =>
    rw [List.replicate_succ, List.cons_append]
    by_cases hge : n ≥ m
    · simp only [recoverLoop, shouldRetry, hge, if_true]
      have : k = 0 := by omega
      subst this
      have : max n m = n := by omega
      rw [this]
    · simp only [recoverLoop, shouldRetry, hge, if_false]
      rw [ih (n + 1) (by omega)]
      have : max (n + 1) m = max n m := by omega
      simp [this]

theorem recoverLoop_untilSuccess (n k : Nat) (rest : List Bool) :
    recoverLoop (.retry .untilSuccess) n (List.replicate k false ++ true :: rest)
      = (.recovered, n + k, false, k) := by
  induction k generalizing n with
  | zero => simp [recoverLoop]
  | succ k ih =>
    rw [List.replicate_succ, List.cons_append]
    simp only [recoverLoop, shouldRetry]
    rw [ih (n + 1)]
    simp; omega

end Verif.Persist
