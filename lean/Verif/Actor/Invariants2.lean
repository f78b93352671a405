import Verif.Actor.Invariants

/-! # Invariants of the actor loop: outcomes, lifecycle, watchers, stop requests -/

namespace Verif.Actor

variable {S M R : Type} {B : Behav S M R} {tracked : Bool}

/-! ### Outcomes -/

def asks (n : Nat) (i : Item M) : Bool := i.wantsReply && i.num == n
def asksStop (n : Nat) (i : Item M) : Bool :=
  i.num == n && i.awaitsStop

/-- the item being handled -/
def current (σ : St S M R) : List (Item M) :=
  match σ.phase with
  | .handling i => [i]
  | _ => []

theorem outcomes_append (n : Nat) (a b : List (Ev M R)) :
    outcomes n (a ++ b) = outcomes n a + outcomes n b := by simp [outcomes]
theorem stopOutcomes_append (n : Nat) (a b : List (Ev M R)) :
    stopOutcomes n (a ++ b) = stopOutcomes n a + stopOutcomes n b := by simp [stopOutcomes]

theorem outcomes_drop (n : Nat) (i : Item M) :
    outcomes n (dropEvents (R := R) i) = if asks n i then 1 else 0 := by
  unfold dropEvents asks
  rw [outcomes_append]
  have h2 : outcomes n (if i.awaitsStop then [Ev.ackLost (M := M) (R := R) i.num] else []) = 0 := by
    split <;> rfl
  rw [h2]
  cases i.wantsReply <;> simp [outcomes, settles, List.countP_cons]

theorem stopOutcomes_drop (n : Nat) (i : Item M) :
    stopOutcomes n (dropEvents (R := R) i) = if asksStop n i then 1 else 0 := by
  unfold dropEvents asksStop
  rw [stopOutcomes_append]
  have h1 : stopOutcomes n (if i.wantsReply then [Ev.lost (M := M) (R := R) i.num] else []) = 0 := by
    split <;> rfl
  rw [h1]
  cases i.awaitsStop <;> simp [stopOutcomes, settlesStop, List.countP_cons]

theorem outcomes_flat (n : Nat) (is : List (Item M)) :
    outcomes n (is.flatMap (dropEvents (R := R))) = is.countP (asks n) := by
  induction is with
  | nil => rfl
  | cons i is ih =>
    rw [List.flatMap_cons, outcomes_append, ih, outcomes_drop, List.countP_cons]; omega

theorem stopOutcomes_flat (n : Nat) (is : List (Item M)) :
    stopOutcomes n (is.flatMap (dropEvents (R := R))) = is.countP (asksStop n) := by
  induction is with
  | nil => rfl
  | cons i is ih =>
    rw [List.flatMap_cons, stopOutcomes_append, ih, stopOutcomes_drop, List.countP_cons]; omega

theorem outcomes_crash (n : Nat) (σ : St S M R) (c : Option (Item M)) :
    outcomes n (crash σ c).log
      = outcomes n σ.log + c.toList.countP (asks n) + σ.mailbox.countP (asks n) := by
  have h2 : outcomes n (σ.stopSenders.map (Ev.ackLost (M := M) (R := R))) = 0 := by
    simp [outcomes, List.countP_eq_zero, settles]
  have h3 : outcomes n (if σ.starter then [Ev.startFailed (M := M) (R := R)] else []) = 0 := by
    split <;> rfl
  have h4 : outcomes n (match c with | some i => dropEvents (R := R) i | none => [])
      = c.toList.countP (asks n) := by
    cases c with
    | none => rfl
    | some i => simp [outcomes_drop, List.countP_cons]
  simp only [crash, outcomes_append, outcomes_flat, h2, h3]
  have h5 : outcomes n [Ev.crashed (M := M) (R := R)] = 0 := rfl
  have h6 : outcomes n [Ev.parentTold (M := M) (R := R)] = 0 := rfl
  rw [h5, h6, ← h4]
  cases c <;> simp

theorem outcomes_finalise (n : Nat) (σ : St S M R) :
    outcomes n (finalise σ).log = outcomes n σ.log + σ.mailbox.countP (asks n) := by
  have h2 : outcomes n (σ.stopSenders.map (Ev.ack (M := M) (R := R))) = 0 := by
    simp [outcomes, List.countP_eq_zero, settles]
  have h3 : outcomes n (if σ.starter then [Ev.startFailed (M := M) (R := R)] else []) = 0 := by
    split <;> rfl
  have h4 : outcomes n (σ.watchers.map (fun w => Ev.told (M := M) (R := R) w.1 w.2)) = 0 := by
    simp [outcomes, List.countP_eq_zero, settles]
  have h6 : outcomes n [Ev.parentTold (M := M) (R := R)] = 0 := rfl
  simp only [finalise, outcomes_append, outcomes_flat, h2, h3, h4, h6]
  omega

theorem stopOutcomes_crash (n : Nat) (σ : St S M R) (c : Option (Item M)) :
    stopOutcomes n (crash σ c).log = stopOutcomes n σ.log + c.toList.countP (asksStop n)
      + σ.stopSenders.count n + σ.mailbox.countP (asksStop n) := by
  have h2 : stopOutcomes n (σ.stopSenders.map (Ev.ackLost (M := M) (R := R)))
      = σ.stopSenders.count n := by
    simp [stopOutcomes, List.count, List.countP_map, Function.comp_def, settlesStop]
  have h3 : stopOutcomes n (if σ.starter then [Ev.startFailed (M := M) (R := R)] else []) = 0 := by
    split <;> rfl
  have h4 : stopOutcomes n (match c with | some i => dropEvents (R := R) i | none => [])
      = c.toList.countP (asksStop n) := by
    cases c with
    | none => rfl
    | some i => simp [stopOutcomes_drop, List.countP_cons]
  simp only [crash, stopOutcomes_append, stopOutcomes_flat, h2, h3]
  have h5 : stopOutcomes n [Ev.crashed (M := M) (R := R)] = 0 := rfl
  have h6 : stopOutcomes n [Ev.parentTold (M := M) (R := R)] = 0 := rfl
  rw [h5, h6, ← h4]
  cases c <;> simp

theorem stopOutcomes_finalise (n : Nat) (σ : St S M R) :
    stopOutcomes n (finalise σ).log = stopOutcomes n σ.log + σ.stopSenders.count n
      + σ.mailbox.countP (asksStop n) := by
  have h2 : stopOutcomes n (σ.stopSenders.map (Ev.ack (M := M) (R := R)))
      = σ.stopSenders.count n := by
    simp [stopOutcomes, List.count, List.countP_map, Function.comp_def, settlesStop]
  have h3 : stopOutcomes n (if σ.starter then [Ev.startFailed (M := M) (R := R)] else []) = 0 := by
    split <;> rfl
  have h4 : stopOutcomes n (σ.watchers.map (fun w => Ev.told (M := M) (R := R) w.1 w.2)) = 0 := by
    simp [stopOutcomes, List.countP_eq_zero, settlesStop]
  have h6 : stopOutcomes n [Ev.parentTold (M := M) (R := R)] = 0 := rfl
  simp only [finalise, stopOutcomes_append, stopOutcomes_flat, h2, h3, h4, h6]
  omega

structure Balance (n : Nat) (σ : St S M R) : Prop where
  req : outcomes n σ.log + σ.mailbox.countP (asks n) + (current σ).countP (asks n)
    = (attempts σ.log).countP (asks n)
  stop : stopOutcomes n σ.log + σ.mailbox.countP (asksStop n) + (current σ).countP (asksStop n)
    + σ.stopSenders.count n = (attempts σ.log).countP (asksStop n)
  empty : σ.phase = .gone → σ.mailbox = [] ∧ σ.stopSenders = []

theorem outcomes_reply (n : Nat) (i : Item M) (r : Reply R) :
    outcomes n (if i.wantsReply then [Ev.replied (M := M) i.num r] else [])
      = if asks n i then 1 else 0 := by
  unfold asks
  cases i.wantsReply <;> simp [outcomes, settles, List.countP_cons]

theorem stopOutcomes_reply (n : Nat) (i : Item M) (r : Reply R) :
    stopOutcomes n (if i.wantsReply then [Ev.replied (M := M) i.num r] else []) = 0 := by
  split <;> rfl

theorem count_ackOf (n : Nat) (i : Item M) :
    (ackOf i).count n = if asksStop n i then 1 else 0 := by
  unfold ackOf asksStop
  cases i.awaitsStop <;> simp [List.count, List.countP_cons]

theorem balance_run (n : Nat) (s0 : S) (ins : List (Input M)) :
    Balance n (run B tracked s0 ins) := by
  refine run_inv_shape ⟨by simp [init, current, outcomes], by simp [init, current, stopOutcomes],
    by simp [init]⟩ ?_ ins
  intro σ σ' hok h st
  obtain ⟨h1, h2, h3⟩ := h
  cases st with
  | refuse i hg =>
    have hc : current σ = [] := by simp [current, hg]
    rw [hc] at h1 h2
    obtain ⟨hm, hs⟩ := h3 hg
    refine ⟨?_, ?_, fun _ => h3 hg⟩
    · simp only [current, hg, outcomes_append, attempts_append, List.countP_append]
      have e1 : outcomes n [Ev.refused (R := R) i] = if asks n i then 1 else 0 := by
        simp [outcomes, settles, asks, List.countP_cons]
      have e2 : attempts [Ev.refused (R := R) i] = [i] := rfl
      simp [hm] at h1 ⊢
      rw [e1, e2, ← h1, List.countP_cons]; simp
    · simp only [current, hg, stopOutcomes_append, attempts_append, List.countP_append]
      have e1 : stopOutcomes n [Ev.refused (R := R) i] = if asksStop n i then 1 else 0 := by
        simp [stopOutcomes, settlesStop, asksStop, List.countP_cons]
      have e2 : attempts [Ev.refused (R := R) i] = [i] := rfl
      simp [hm, hs] at h2 ⊢
      rw [e1, e2, ← h2, List.countP_cons]; simp
  | accept i hg =>
    have e1 : outcomes n [Ev.accepted (R := R) i] = 0 := rfl
    have e2 : attempts [Ev.accepted (R := R) i] = [i] := rfl
    have e3 : stopOutcomes n [Ev.accepted (R := R) i] = 0 := rfl
    refine ⟨?_, ?_, fun h => absurd h hg⟩
    · simp only [outcomes_append, attempts_append, List.countP_append, e1, e2, List.countP_cons]
      simp only [current] at h1 ⊢
      omega
    · simp only [stopOutcomes_append, attempts_append, List.countP_append, e3, e2, List.countP_cons]
      simp only [current] at h2 ⊢
      omega
  | idle => exact ⟨h1, h2, h3⟩
  | startPanic hg hb =>
    have hc : current σ = [] := by simp [current, hg]
    rw [hc] at h1 h2
    have e1 : outcomes n [Ev.startedHook (M := M) (R := R)] = 0 := rfl
    have e2 : attempts [Ev.startedHook (M := M) (R := R)] = [] := rfl
    have e3 : stopOutcomes n [Ev.startedHook (M := M) (R := R)] = 0 := rfl
    refine ⟨?_, ?_, fun _ => ⟨rfl, rfl⟩⟩
    · rw [outcomes_crash, attempts_crash]
      simp only [outcomes_append, attempts_append, e1, e2]
      simp [current] at h1 ⊢; omega
    · rw [stopOutcomes_crash, attempts_crash]
      simp only [stopOutcomes_append, attempts_append, e3, e2]
      simp [current, crash] at h2 ⊢; omega
  | startStop s u hg hb =>
    have hc : current σ = [] := by simp [current, hg]
    rw [hc] at h1 h2
    have e1 : outcomes n [Ev.startedHook (M := M) (R := R)] = 0 := rfl
    have e2 : attempts [Ev.startedHook (M := M) (R := R)] = [] := rfl
    have e3 : stopOutcomes n [Ev.startedHook (M := M) (R := R)] = 0 := rfl
    refine ⟨?_, ?_, by simp⟩
    · simp only [outcomes_append, attempts_append, e1, e2, current]
      simp at h1 ⊢; omega
    · simp only [stopOutcomes_append, attempts_append, e3, e2, current]
      simp at h2 ⊢; omega
  | startOk s u hg hb =>
    have hc : current σ = [] := by simp [current, hg]
    rw [hc] at h1 h2
    have e1 : outcomes n [Ev.startedHook (M := M) (R := R)] = 0 := rfl
    have e2 : attempts [Ev.startedHook (M := M) (R := R)] = [] := rfl
    have e3 : stopOutcomes n [Ev.startedHook (M := M) (R := R)] = 0 := rfl
    have e4 : outcomes n [Ev.up (M := M) (R := R)] = 0 := rfl
    have e5 : attempts [Ev.up (M := M) (R := R)] = [] := rfl
    have e6 : stopOutcomes n [Ev.up (M := M) (R := R)] = 0 := rfl
    refine ⟨?_, ?_, by simp⟩
    · simp only [outcomes_append, attempts_append, e1, e2, e4, e5, current]
      simp at h1 ⊢; omega
    · simp only [stopOutcomes_append, attempts_append, e3, e2, e6, e5, current]
      simp at h2 ⊢; omega
  | take i rest hg hm =>
    have hc : current σ = [] := by simp [current, hg]
    rw [hc] at h1 h2
    have e1 : outcomes n [Ev.begin (R := R) i] = 0 := rfl
    have e2 : attempts [Ev.begin (R := R) i] = [] := rfl
    have e3 : stopOutcomes n [Ev.begin (R := R) i] = 0 := rfl
    refine ⟨?_, ?_, by simp⟩
    · simp only [outcomes_append, attempts_append, e1, e2, current]
      simp [hm, List.countP_cons] at h1 ⊢; omega
    · simp only [stopOutcomes_append, attempts_append, e3, e2, current]
      simp [hm, List.countP_cons] at h2 ⊢; omega
  | servePanic i hg hs =>
    have hc : current σ = [i] := by simp [current, hg]
    rw [hc] at h1 h2
    refine ⟨?_, ?_, fun _ => ⟨rfl, rfl⟩⟩
    · rw [outcomes_crash, attempts_crash]
      simp [current] at h1 ⊢; omega
    · rw [stopOutcomes_crash, attempts_crash]
      simp [current, crash] at h2 ⊢; omega
  | serveOk i s r hg hs =>
    have hc : current σ = [i] := by simp [current, hg]
    rw [hc] at h1 h2
    have e1 : outcomes n [Ev.finish (R := R) i] = 0 := rfl
    have e2 : attempts [Ev.finish (R := R) i] = [] := rfl
    have e3 : stopOutcomes n [Ev.finish (R := R) i] = 0 := rfl
    refine ⟨?_, ?_, ?_⟩
    · simp only [outcomes_append, attempts_append, e1, e2, outcomes_reply, attempts_reply, current]
      cases stops B σ.actor i <;> simp [List.countP_cons] at h1 ⊢ <;> omega
    · simp only [stopOutcomes_append, attempts_append, e3, e2, stopOutcomes_reply, attempts_reply,
        current, List.count_append, count_ackOf]
      cases stops B σ.actor i <;> simp [List.countP_cons] at h2 ⊢ <;> omega
    · cases stops B σ.actor i <;> simp
  | stopPanic hg hb =>
    have hc : current σ = [] := by simp [current, hg]
    rw [hc] at h1 h2
    have e1 : outcomes n [Ev.stoppedHook (M := M) (R := R)] = 0 := rfl
    have e2 : attempts [Ev.stoppedHook (M := M) (R := R)] = [] := rfl
    have e3 : stopOutcomes n [Ev.stoppedHook (M := M) (R := R)] = 0 := rfl
    refine ⟨?_, ?_, fun _ => ⟨rfl, rfl⟩⟩
    · rw [outcomes_crash, attempts_crash]
      simp only [outcomes_append, attempts_append, e1, e2]
      simp [current] at h1 ⊢; omega
    · rw [stopOutcomes_crash, attempts_crash]
      simp only [stopOutcomes_append, attempts_append, e3, e2]
      simp [current, crash] at h2 ⊢; omega
  | stopDereg s u b hg hb =>
    have hc : current σ = [] := by simp [current, hg]
    rw [hc] at h1 h2
    have e1 : outcomes n [Ev.stoppedHook (M := M) (R := R)] = 0 := rfl
    have e2 : attempts [Ev.stoppedHook (M := M) (R := R)] = [] := rfl
    have e3 : stopOutcomes n [Ev.stoppedHook (M := M) (R := R)] = 0 := rfl
    have e4 : outcomes n [Ev.deregister (M := M) (R := R)] = 0 := rfl
    have e5 : attempts [Ev.deregister (M := M) (R := R)] = [] := rfl
    have e6 : stopOutcomes n [Ev.deregister (M := M) (R := R)] = 0 := rfl
    refine ⟨?_, ?_, by simp⟩
    · simp only [outcomes_append, attempts_append, e1, e2, e4, e5, current]
      simp at h1 ⊢; omega
    · simp only [stopOutcomes_append, attempts_append, e3, e2, e6, e5, current]
      simp at h2 ⊢; omega
  | stopFinal s u b hg hb =>
    have hc : current σ = [] := by simp [current, hg]
    rw [hc] at h1 h2
    have e1 : outcomes n [Ev.stoppedHook (M := M) (R := R)] = 0 := rfl
    have e2 : attempts [Ev.stoppedHook (M := M) (R := R)] = [] := rfl
    have e3 : stopOutcomes n [Ev.stoppedHook (M := M) (R := R)] = 0 := rfl
    refine ⟨?_, ?_, fun _ => ⟨rfl, rfl⟩⟩
    · rw [outcomes_finalise, attempts_finalise]
      simp only [outcomes_append, attempts_append, e1, e2]
      simp [current] at h1 ⊢; omega
    · rw [stopOutcomes_finalise, attempts_finalise]
      simp only [stopOutcomes_append, attempts_append, e3, e2]
      simp [current, finalise] at h2 ⊢; omega
  | deregOk hg =>
    have hc : current σ = [] := by simp [current, hg]
    rw [hc] at h1 h2
    refine ⟨?_, ?_, fun _ => ⟨rfl, rfl⟩⟩
    · rw [outcomes_finalise, attempts_finalise]
      simp [current] at h1 ⊢; omega
    · rw [stopOutcomes_finalise, attempts_finalise]
      simp [current, finalise] at h2 ⊢; omega
  | deregFail hg =>
    have hc : current σ = [] := by simp [current, hg]
    rw [hc] at h1 h2
    refine ⟨?_, ?_, fun _ => ⟨rfl, rfl⟩⟩
    · rw [outcomes_crash, attempts_crash]
      simp [current] at h1 ⊢; omega
    · rw [stopOutcomes_crash, attempts_crash]
      simp [current, crash] at h2 ⊢; omega

theorem attempts_step (σ : St S M R) (inp : Input M) :
    attempts (step B tracked σ inp).log = attempts σ.log ++ requests [inp] := by
  cases inp with
  | send i =>
    simp only [step, enqueue]
    split <;> simp [attempts, requests]
  | tick down =>
    simp only [step, tick, requests, List.filterMap_cons, List.filterMap_nil, List.append_nil]
    split
    · split
      · rw [attempts_crash]; simp [attempts]
      · split <;> simp [attempts]
    · split <;> simp [attempts]
    · simp only [handle]
      split
      · split
        · simp
        · rename_i stop _
          cases stop <;> simp [handled, ctxStop, attempts_reply] <;> simp [attempts]
      all_goals (simp [handled, ctxStop, attempts_reply]; simp [attempts])
    · split
      · rw [attempts_crash]; simp [attempts]
      · split
        · simp [attempts]
        · rw [attempts_finalise]; simp [attempts]
    · rfl
    · rfl
  | deregAnswer ok =>
    simp only [step, requests, List.filterMap_cons, List.filterMap_nil, List.append_nil]
    split
    · split <;> simp
    · rfl

/-- every attempt in the log is a request of the execution, in order -/
theorem attempts_run (s0 : S) (ins : List (Input M)) :
    attempts (run B tracked s0 ins).log = requests ins := by
  have key : ∀ σ : St S M R, attempts (ins.foldl (step B tracked) σ).log
      = attempts σ.log ++ requests ins := by
    induction ins with
    | nil => intro σ; simp [requests]
    | cons inp ins ih =>
      intro σ
      rw [List.foldl_cons, ih, attempts_step]
      have : requests (inp :: ins) = requests [inp] ++ requests ins := by
        unfold requests; rw [← List.filterMap_append]; rfl
      rw [this, List.append_assoc]
  simpa [run, init] using key (init s0)

/-! ### Lifecycle -/

def Working (l : List Life) : Prop := ∃ k, l = [.startedHook, .up] ++ List.replicate k .message

def LifeOk (B : Behav S M R) (s0 : S) (σ : St S M R) : Prop :=
  match σ.phase with
  | .created => life σ.log = [] ∧ σ.actor = s0 ∧ σ.starter = true
  | .looping | .handling _ => Working (life σ.log) ∧ σ.starter = false
      ∧ ∃ s1 u, B.started s0 = .done s1 u false
  | .ending =>
      (life σ.log = [.startedHook] ∧ σ.starter = true ∧ ∃ s1 u, B.started s0 = .done s1 u true) ∨
      (Working (life σ.log) ∧ σ.starter = false ∧ ∃ s1 u, B.started s0 = .done s1 u false)
  | .deregistering =>
      (life σ.log = [.startedHook, .stoppedHook] ∧ σ.starter = true
        ∧ ∃ s1 u, B.started s0 = .done s1 u true) ∨
      (∃ l, Working l ∧ life σ.log = l ++ [.stoppedHook] ∧ σ.starter = false
        ∧ ∃ s1 u, B.started s0 = .done s1 u false)
  | .gone => σ.starter = false ∧
      ((life σ.log <+: [.startedHook, .stoppedHook]
          ∧ (¬ hasCrashed σ.log → life σ.log = [.startedHook, .stoppedHook]
              ∧ ∃ s1 u, B.started s0 = .done s1 u true)) ∨
       (∃ l, Working l ∧ (life σ.log = l ∨ life σ.log = l ++ [.stoppedHook])
          ∧ (¬ hasCrashed σ.log → life σ.log = l ++ [.stoppedHook])
          ∧ ∃ s1 u, B.started s0 = .done s1 u false))

theorem hasCrashed_append (a b : List (Ev M R)) :
    hasCrashed (a ++ b) ↔ hasCrashed a ∨ hasCrashed b := by simp [hasCrashed]

theorem life_run (s0 : S) (ins : List (Input M)) : LifeOk B s0 (run B tracked s0 ins) := by
  refine run_inv_shape (by simp [LifeOk, init]) ?_ ins
  intro σ σ' hok h st
  unfold LifeOk at h
  cases st with
  | refuse i hg =>
    rw [hg] at h
    simp only [LifeOk, hg, hasCrashed_append]
    have : ¬ hasCrashed [Ev.refused (R := R) i] := by simp [hasCrashed]
    simpa [life, this] using h
  | accept i hg =>
    simp only [LifeOk]
    have : life [Ev.accepted (R := R) i] = [] := rfl
    split <;> rename_i hp <;> simp_all
  | idle => exact h
  | startPanic hg hb =>
    rw [hg] at h; simp only at h
    simp only [LifeOk, phase_crash]
    refine ⟨rfl, .inl ⟨?_, fun hc => absurd (crashed_crash _ _) hc⟩⟩
    simp [h.1]; exact ⟨[.stoppedHook], rfl⟩
  | startStop s u hg hb =>
    rw [hg] at h; simp only at h
    simp only [LifeOk]
    refine .inl ⟨?_, h.2.2, s, u, h.2.1 ▸ hb⟩
    simp [h.1]; rfl
  | startOk s u hg hb =>
    rw [hg] at h; simp only at h
    simp only [LifeOk]
    refine ⟨⟨0, ?_⟩, by first | rfl | trivial, s, u, h.2.1 ▸ hb⟩
    simp [h.1]; rfl
  | take i rest hg hm =>
    rw [hg] at h; simp only at h
    obtain ⟨⟨k, hk⟩, h2, h3⟩ := h
    simp only [LifeOk]
    refine ⟨⟨k + 1, ?_⟩, h2, h3⟩
    simp [hk, List.replicate_succ']; rfl
  | servePanic i hg hs =>
    rw [hg] at h; simp only at h
    obtain ⟨hk, h2, h3⟩ := h
    simp only [LifeOk, phase_crash]
    refine ⟨rfl, .inr ⟨_, hk, .inl (by simp), fun hc => absurd (crashed_crash _ _) hc, h3⟩⟩
  | serveOk i s r hg hs =>
    rw [hg] at h; simp only at h
    obtain ⟨hk, h2, h3⟩ := h
    have hl : life (σ.log ++ [.finish i] ++ (if i.wantsReply then [.replied i.num r] else []))
        = life σ.log := by
      simp only [life_append, life_reply]; simp [life]
    simp only [LifeOk, hl]
    cases stops B σ.actor i
    · exact ⟨hk, h2, h3⟩
    · exact .inr ⟨hk, h2, h3⟩
  | stopPanic hg hb =>
    rw [hg] at h; simp only at h
    simp only [LifeOk, phase_crash]
    refine ⟨rfl, ?_⟩
    rcases h with ⟨h1, h2, h3⟩ | ⟨h1, h2, h3⟩
    · refine .inl ⟨?_, fun hc => absurd (crashed_crash _ _) hc⟩
      simp [h1]; exact ⟨[], rfl⟩
    · refine .inr ⟨_, h1, .inr ?_, fun hc => absurd (crashed_crash _ _) hc, h3⟩
      rw [life_crash]; simp [life]
  | stopDereg s u b hg hb =>
    rw [hg] at h; simp only at h
    simp only [LifeOk]
    rcases h with ⟨h1, h2, h3⟩ | ⟨h1, h2, h3⟩
    · exact .inl ⟨by simp [h1]; rfl, h2, h3⟩
    · exact .inr ⟨_, h1, by simp; rfl, h2, h3⟩
  | stopFinal s u b hg hb =>
    rw [hg] at h; simp only at h
    simp only [LifeOk, phase_finalise, life_finalise]
    refine ⟨rfl, ?_⟩
    rcases h with ⟨h1, h2, h3⟩ | ⟨h1, h2, h3⟩
    · have e : life (σ.log ++ [Ev.stoppedHook]) = [.startedHook, .stoppedHook] := by simp [h1]; rfl
      exact .inl ⟨by rw [e]; exact ⟨[], rfl⟩, fun _ => ⟨e, h3⟩⟩
    · have e : life (σ.log ++ [Ev.stoppedHook]) = life σ.log ++ [.stoppedHook] := by simp; rfl
      exact .inr ⟨_, h1, .inr e, fun _ => e, h3⟩
  | deregOk hg =>
    rw [hg] at h; simp only at h
    simp only [LifeOk, phase_finalise, life_finalise]
    refine ⟨rfl, ?_⟩
    rcases h with ⟨h1, h2, h3⟩ | ⟨l, hl, h1, h2, h3⟩
    · exact .inl ⟨by rw [h1]; exact ⟨[], rfl⟩, fun _ => ⟨h1, h3⟩⟩
    · exact .inr ⟨l, hl, .inr h1, fun _ => h1, h3⟩
  | deregFail hg =>
    rw [hg] at h; simp only at h
    simp only [LifeOk, phase_crash, life_crash]
    refine ⟨rfl, ?_⟩
    rcases h with ⟨h1, h2, h3⟩ | ⟨l, hl, h1, h2, h3⟩
    · exact .inl ⟨by rw [h1]; exact ⟨[], rfl⟩, fun hc => absurd (crashed_crash _ _) hc⟩
    · exact .inr ⟨l, hl, .inr h1, fun hc => absurd (crashed_crash _ _) hc, h3⟩

/-! ### The starter hears exactly one answer -/

def starterAnswers (log : List (Ev M R)) : List Bool :=
  log.filterMap fun | .up => some true | .startFailed => some false | _ => none

theorem starter_flat (is : List (Item M)) :
    starterAnswers (is.flatMap (dropEvents (R := R))) = [] :=
  filterMap_flatMap_nil _ fun i _ => filterMap_dropEvents (fun _ => rfl) (fun _ => rfl) i

theorem starter_append (a b : List (Ev M R)) :
    starterAnswers (a ++ b) = starterAnswers a ++ starterAnswers b := by simp [starterAnswers]

theorem starter_crash (σ : St S M R) (c : Option (Item M)) :
    starterAnswers (crash σ c).log
      = starterAnswers σ.log ++ (if σ.starter then [false] else []) := by
  have h2 : starterAnswers (σ.stopSenders.map (Ev.ackLost (M := M) (R := R))) = [] := by
    simp [starterAnswers, List.filterMap_map, Function.comp_def]
  have h4 : starterAnswers (match c with | some i => dropEvents (R := R) i | none => []) = [] := by
    cases c with
    | none => rfl
    | some i => exact filterMap_dropEvents (fun _ => rfl) (fun _ => rfl) i
  have h3 : starterAnswers (if σ.starter then [Ev.startFailed (M := M) (R := R)] else [])
      = if σ.starter then [false] else [] := by split <;> rfl
  simp only [crash, starter_append, starter_flat, h2, h3]
  have h5 : starterAnswers [Ev.crashed (M := M) (R := R)] = [] := rfl
  have h6 : starterAnswers [Ev.parentTold (M := M) (R := R)] = [] := rfl
  rw [h5, h6]
  cases c with
  | none => simp [starterAnswers]
  | some i => simp at h4 ⊢; rw [h4]

theorem starter_finalise (σ : St S M R) :
    starterAnswers (finalise σ).log
      = starterAnswers σ.log ++ (if σ.starter then [false] else []) := by
  have h2 : starterAnswers (σ.stopSenders.map (Ev.ack (M := M) (R := R))) = [] := by
    simp [starterAnswers, List.filterMap_map, Function.comp_def]
  have h4 : starterAnswers (σ.watchers.map (fun w => Ev.told (M := M) (R := R) w.1 w.2)) = [] := by
    simp [starterAnswers, List.filterMap_map, Function.comp_def]
  have h3 : starterAnswers (if σ.starter then [Ev.startFailed (M := M) (R := R)] else [])
      = if σ.starter then [false] else [] := by split <;> rfl
  have h6 : starterAnswers [Ev.parentTold (M := M) (R := R)] = [] := rfl
  simp only [finalise, starter_append, starter_flat, h2, h3, h4, h6, List.append_nil]

/-- The starter has heard nothing yet, or exactly one answer; `true` only if `started` returned
without asking to stop. -/
structure Told (B : Behav S M R) (s0 : S) (σ : St S M R) : Prop where
  pending : σ.starter = true → starterAnswers σ.log = []
  answered : σ.starter = false → starterAnswers σ.log
    = [match B.started s0 with | .done _ _ false => true | _ => false]
  flag : σ.phase = .created → σ.actor = s0 ∧ σ.starter = true
  ending : σ.starter = true → σ.phase ≠ .created → ∀ s1 u, B.started s0 ≠ .done s1 u false

theorem Told.calm {s0 : S} {σ σ' : St S M R} (h : Told B s0 σ) (l : List (Ev M R))
    (hl : σ'.log = σ.log ++ l) (hc : starterAnswers l = []) (hs : σ'.starter = σ.starter)
    (hp : σ'.phase = σ.phase ∧ σ'.actor = σ.actor ∨ (σ'.phase ≠ .created ∧ σ.phase ≠ .created)) :
    Told B s0 σ' := by
  obtain ⟨h1, h2, h3, h4⟩ := h
  refine ⟨?_, ?_, ?_, ?_⟩
  · intro h; rw [hl, starter_append, hc, h1 (hs ▸ h)]; rfl
  · intro h; rw [hl, starter_append, hc, h2 (hs ▸ h)]; rfl
  · intro h
    rcases hp with hp | hp
    · rw [hs, hp.2]; exact h3 (hp.1 ▸ h)
    · exact absurd h hp.1
  · intro h hn
    rcases hp with hp | hp
    · exact h4 (hs ▸ h) (hp.1 ▸ hn)
    · exact h4 (hs ▸ h) hp.2

theorem Told.close {s0 : S} {σ σ' : St S M R} (h : Told B s0 σ)
    (hl : starterAnswers σ'.log = starterAnswers σ.log ++ (if σ.starter then [false] else []))
    (hs : σ'.starter = false) (hg : σ'.phase = .gone)
    (hp : σ.phase ≠ .created ∨ ∀ s1 u, B.started s0 ≠ .done s1 u false) : Told B s0 σ' := by
  obtain ⟨h1, h2, h3, h4⟩ := h
  refine ⟨by simp [hs], ?_, by simp [hg], by simp [hs]⟩
  intro _
  rw [hl]
  cases hst : σ.starter with
  | false => simp [h2 hst]
  | true =>
    have : ∀ s1 u, B.started s0 ≠ .done s1 u false := by
      rcases hp with hp | hp
      · exact h4 hst hp
      · exact hp
    rw [h1 hst]
    cases hb : B.started s0 with
    | panic => rfl
    | done s u b =>
      cases b with
      | true => rfl
      | false => exact absurd hb (this s u)

theorem told_run (s0 : S) (ins : List (Input M)) : Told B s0 (run B tracked s0 ins) := by
  refine run_inv_shape ⟨by simp [init, starterAnswers], by simp [init], by simp [init], by simp [init]⟩
    ?_ ins
  intro σ σ' hok h st
  cases st with
  | refuse i hg => exact h.calm [.refused i] rfl rfl rfl (.inl ⟨rfl, rfl⟩)
  | accept i hg => exact h.calm [.accepted i] rfl rfl rfl (.inl ⟨rfl, rfl⟩)
  | idle => exact h
  | startPanic hg hb =>
    have h' : Told B s0 { σ with log := σ.log ++ [.startedHook] } :=
      h.calm [.startedHook] rfl rfl rfl (.inl ⟨rfl, rfl⟩)
    refine h'.close (starter_crash _ _) rfl rfl (.inr ?_)
    intro s1 u; rw [← (h.flag hg).1, hb]; simp
  | startStop s u hg hb =>
    obtain ⟨h1, h2⟩ := h.flag hg
    refine ⟨?_, by simp [h2], by simp, ?_⟩
    · intro _
      simp only [starter_append, h.pending h2]; rfl
    · intro _ _ s1 u; rw [← h1, hb]; simp
  | startOk s u hg hb =>
    obtain ⟨h1, h2⟩ := h.flag hg
    refine ⟨by simp, ?_, by simp, by simp⟩
    intro _
    simp only [starter_append, h.pending h2, ← h1, hb]; rfl
  | take i rest hg hm =>
    exact h.calm [.begin i] rfl rfl rfl (.inr (by simp [hg]))
  | servePanic i hg hs =>
    exact h.close (starter_crash _ _) rfl rfl (.inl (by simp [hg]))
  | serveOk i s r hg hs =>
    refine h.calm ([.finish i] ++ (if i.wantsReply then [.replied i.num r] else [])) (by simp) ?_ rfl
      (.inr ?_)
    · split <;> rfl
    · cases stops B σ.actor i <;> simp [hg]
  | stopPanic hg hb =>
    have h' : Told B s0 { σ with log := σ.log ++ [.stoppedHook] } :=
      h.calm [.stoppedHook] rfl rfl rfl (.inl ⟨rfl, rfl⟩)
    exact h'.close (starter_crash _ _) rfl rfl (.inl (by simp [hg]))
  | stopDereg s u b hg hb =>
    exact h.calm [.stoppedHook, .deregister] (by simp) rfl rfl (.inr (by simp [hg]))
  | stopFinal s u b hg hb =>
    have h' : Told B s0 { σ with actor := s, status := .stopped, log := σ.log ++ [.stoppedHook] } :=
      h.calm [.stoppedHook] rfl rfl rfl (.inr (by simp [hg]))
    exact h'.close (starter_finalise _) rfl rfl (.inl (by simp [hg]))
  | deregOk hg => exact h.close (starter_finalise _) rfl rfl (.inl (by simp [hg]))
  | deregFail hg => exact h.close (starter_crash _ _) rfl rfl (.inl (by simp [hg]))

/-! ### Watchers -/

theorem subscribed_snoc (w : String) (is : List (Item M)) (i : Item M) :
    subscribed w (is ++ [i]) = match aboutWatcher w i with
      | some x => x
      | none => subscribed w is := by
  unfold subscribed
  rw [List.filterMap_append]
  cases h : aboutWatcher w i <;> simp [h]

/-- the entry for `w` in a watcher list -/
def entry (w : String) (o : Option Nat) : List (String × Nat) := o.toList.map (fun r => (w, r))

theorem watchAfter_filter (w : String) (ws : List (String × Nat)) (i : Item M) (is : List (Item M))
    (h : ws.filter (fun p => p.1 = w) = entry w (subscribed w is)) :
    (watchAfter ws i).filter (fun p => p.1 = w) = entry w (subscribed w (is ++ [i])) := by
  rw [subscribed_snoc]
  unfold watchAfter aboutWatcher
  cases hb : i.body with
  | watch id rcv =>
    simp only [addWatcher]
    by_cases hw : id = w
    · subst hw
      simp [entry, List.filter_filter]
    · have : (ws.filter (fun p => p.1 ≠ id)).filter (fun p => p.1 = w)
          = ws.filter (fun p => p.1 = w) := by
        rw [List.filter_filter]; congr 1; funext p
        by_cases hp : p.1 = w <;> simp [hp]
        exact fun h => hw h.symm
      simp [hw, List.filter_cons] at this ⊢
      rw [this, h]
  | unwatch id =>
    simp only [removeWatcher]
    by_cases hw : id = w
    · subst hw
      simp [entry, List.filter_filter]
    · have : (ws.filter (fun p => p.1 ≠ id)).filter (fun p => p.1 = w)
          = ws.filter (fun p => p.1 = w) := by
        rw [List.filter_filter]; congr 1; funext p
        by_cases hp : p.1 = w <;> simp [hp]
        exact fun h => hw h.symm
      simp [hw] at this ⊢
      rw [this, h]
  | user m => simpa using h
  | stop a => simpa using h
  | status => simpa using h

structure Watch (w : String) (σ : St S M R) : Prop where
  live : σ.phase ≠ .gone → σ.watchers.filter (fun p => p.1 = w) = entry w (subscribed w (finished σ.log))
  quiet : σ.phase ≠ .gone → notifications σ.log = [] ∧ ¬ hasCrashed σ.log
  done : σ.phase = .gone → ¬ hasCrashed σ.log →
    (notifications σ.log).filter (fun p => p.1 = w) = entry w (subscribed w (finished σ.log))
  crash : hasCrashed σ.log → notifications σ.log = []

theorem watch_run (w : String) (s0 : S) (ins : List (Input M)) :
    Watch w (run B tracked s0 ins) := by
  refine run_inv_shape ⟨by simp [init, entry, subscribed], by simp [init, hasCrashed],
    by simp [init], by simp [init]⟩ ?_ ins
  intro σ σ' hok h st
  obtain ⟨h1, h2, h3, h4⟩ := h
  cases st with
  | refuse i hg =>
    have e : ¬ hasCrashed [Ev.refused (R := R) i] := by simp [hasCrashed]
    refine ⟨by simp [hg], by simp [hg], ?_, ?_⟩
    · intro _; simp only [hasCrashed_append, e]; simpa [notifications, finished] using h3 hg
    · simp only [hasCrashed_append, e]; simpa [notifications] using h4
  | accept i hg =>
    have e : ¬ hasCrashed [Ev.accepted (R := R) i] := by simp [hasCrashed]
    refine ⟨?_, ?_, fun h => absurd h hg, ?_⟩
    · intro _; simpa [finished] using h1 hg
    · intro _; simp only [hasCrashed_append, e]; simpa [notifications] using h2 hg
    · simp only [hasCrashed_append, e]; simpa [notifications] using h4
  | idle => exact ⟨h1, h2, h3, h4⟩
  | startPanic hg hb =>
    refine ⟨by simp, by simp, fun _ hc => absurd (crashed_crash _ _) hc, ?_⟩
    intro _; rw [notifications_crash]; simpa [notifications] using (h2 (by simp [hg])).1
  | startStop s u hg hb =>
    have := h1 (by simp [hg]); have h2' := h2 (by simp [hg])
    have e : ¬ hasCrashed [Ev.startedHook (M := M) (R := R)] := by simp [hasCrashed]
    refine ⟨fun _ => by simpa [finished] using this, fun _ => ?_, by simp, ?_⟩
    · simp only [hasCrashed_append, e]; simpa [notifications] using h2'
    · intro hc; simp only [hasCrashed_append, e, or_false] at hc; exact absurd hc h2'.2
  | startOk s u hg hb =>
    have := h1 (by simp [hg]); have h2' := h2 (by simp [hg])
    have e : ¬ hasCrashed [Ev.startedHook (M := M) (R := R)] := by simp [hasCrashed]
    have e2 : ¬ hasCrashed [Ev.up (M := M) (R := R)] := by simp [hasCrashed]
    refine ⟨fun _ => by simpa [finished] using this, fun _ => ?_, by simp, ?_⟩
    · simp only [hasCrashed_append, e, e2]; simpa [notifications] using h2'
    · intro hc; simp only [hasCrashed_append, e, e2, or_false] at hc; exact absurd hc h2'.2
  | take i rest hg hm =>
    have := h1 (by simp [hg]); have h2' := h2 (by simp [hg])
    have e : ¬ hasCrashed [Ev.begin (R := R) i] := by simp [hasCrashed]
    refine ⟨fun _ => by simpa [finished] using this, fun _ => ?_, by simp, ?_⟩
    · simp only [hasCrashed_append, e]; simpa [notifications] using h2'
    · intro hc; simp only [hasCrashed_append, e, or_false] at hc; exact absurd hc h2'.2
  | servePanic i hg hs =>
    refine ⟨by simp, by simp, fun _ hc => absurd (crashed_crash _ _) hc, ?_⟩
    intro _; rw [notifications_crash]; exact (h2 (by simp [hg])).1
  | serveOk i s r hg hs =>
    have h1' := h1 (by simp [hg]); have h2' := h2 (by simp [hg])
    have e : ¬ hasCrashed [Ev.finish (R := R) i] := by simp [hasCrashed]
    have e2 : ¬ hasCrashed (if i.wantsReply then [Ev.replied (M := M) i.num r] else []) := by
      split <;> simp [hasCrashed]
    have hf : finished (σ.log ++ [.finish i] ++ (if i.wantsReply then [.replied i.num r] else []))
        = finished σ.log ++ [i] := by
      simp only [finished_append, finished_reply]; simp [finished]
    refine ⟨fun _ => ?_, fun _ => ?_, ?_, ?_⟩
    · simp only [hf]; exact watchAfter_filter w _ i _ h1'
    · simp only [hasCrashed_append, e, e2, notifications_append, notifications_reply]
      simpa [notifications] using h2'
    · cases stops B σ.actor i <;> simp
    · intro hc; simp only [hasCrashed_append, e, e2, or_false] at hc; exact absurd hc h2'.2
  | stopPanic hg hb =>
    refine ⟨by simp, by simp, fun _ hc => absurd (crashed_crash _ _) hc, ?_⟩
    intro _; rw [notifications_crash]; simpa [notifications] using (h2 (by simp [hg])).1
  | stopDereg s u b hg hb =>
    have := h1 (by simp [hg]); have h2' := h2 (by simp [hg])
    have e : ¬ hasCrashed [Ev.stoppedHook (M := M) (R := R)] := by simp [hasCrashed]
    have e2 : ¬ hasCrashed [Ev.deregister (M := M) (R := R)] := by simp [hasCrashed]
    refine ⟨fun _ => by simpa [finished] using this, fun _ => ?_, by simp, ?_⟩
    · simp only [hasCrashed_append, e, e2]; simpa [notifications] using h2'
    · intro hc; simp only [hasCrashed_append, e, e2, or_false] at hc; exact absurd hc h2'.2
  | stopFinal s u b hg hb =>
    have h1' := h1 (by simp [hg]); have h2' := h2 (by simp [hg])
    have e : ¬ hasCrashed [Ev.stoppedHook (M := M) (R := R)] := by simp [hasCrashed]
    refine ⟨by simp, by simp, fun _ _ => ?_, ?_⟩
    · rw [notifications_finalise, finished_finalise]
      simp only [notifications_append, h2'.1, finished_append]
      simpa [notifications, finished] using h1'
    · intro hc
      rw [crashed_finalise] at hc
      simp only [hasCrashed_append, e, or_false] at hc; exact absurd hc h2'.2
  | deregOk hg =>
    have h1' := h1 (by simp [hg]); have h2' := h2 (by simp [hg])
    refine ⟨by simp, by simp, fun _ _ => ?_, ?_⟩
    · rw [notifications_finalise, finished_finalise]; simpa [h2'.1] using h1'
    · intro hc
      rw [crashed_finalise] at hc; exact absurd hc h2'.2
  | deregFail hg =>
    refine ⟨by simp, by simp, fun _ hc => absurd (crashed_crash _ _) hc, ?_⟩
    intro _; rw [notifications_crash]; exact (h2 (by simp [hg])).1

/-! ### Stop requests to an actor that does not stop by itself -/

def QuietOk (σ : St S M R) : Prop :=
  match σ.phase with
  | .created => finished σ.log = [] ∧ begun σ.log = []
  | .looping => (∀ i ∈ finished σ.log, i.isStop = false) ∧ begun σ.log = finished σ.log
  | .handling i => (∀ i ∈ finished σ.log, i.isStop = false) ∧ begun σ.log = finished σ.log ++ [i]
  | _ => (∃ pre i, finished σ.log = pre ++ [i] ∧ i.isStop = true ∧ ∀ j ∈ pre, j.isStop = false)
      ∧ begun σ.log = finished σ.log

theorem stops_quiet (hq : B.Quiet) (s : S) (i : Item M) : stops B s i = i.isStop := by
  unfold stops Item.isStop
  cases hb : i.body with
  | user m => obtain ⟨s', r, h⟩ := hq.2.1 s m; simp [h]
  | _ => rfl

theorem serve_quiet (hq : B.Quiet) (s : S) (i : Item M) : serve B s i ≠ none := by
  unfold serve
  cases hb : i.body with
  | user m => obtain ⟨s', r, h⟩ := hq.2.1 s m; simp [h]
  | _ => simp

theorem quiet_run (hq : B.Quiet) (s0 : S) (ins : List (Input M)) :
    QuietOk (run B tracked s0 ins) := by
  refine run_inv_shape (by simp [QuietOk, init]) ?_ ins
  intro σ σ' hok h st
  unfold QuietOk at h
  cases st with
  | refuse i hg => rw [hg] at h; simpa [QuietOk, hg, finished, begun] using h
  | accept i hg =>
    have e1 : finished [Ev.accepted (R := R) i] = [] := rfl
    have e2 : begun [Ev.accepted (R := R) i] = [] := rfl
    simp only [QuietOk, finished_append, begun_append, e1, e2, List.append_nil]
    exact h
  | idle => exact h
  | startPanic hg hb => obtain ⟨s', u, hs⟩ := hq.1 σ.actor; simp [hs] at hb
  | startStop s u hg hb => obtain ⟨s', u, hs⟩ := hq.1 σ.actor; simp [hs] at hb
  | startOk s u hg hb =>
    rw [hg] at h; simp only at h
    simp [QuietOk, finished, begun] at *
    exact ⟨fun i e he hi => by have := h.1 e he; simp_all, by
      rw [List.filterMap_eq_nil_iff.2 h.1, List.filterMap_eq_nil_iff.2 h.2]⟩
  | take i rest hg hm =>
    rw [hg] at h; simp only at h
    simp only [QuietOk, finished_append, begun_append]
    have e1 : finished [Ev.begin (R := R) i] = [] := rfl
    have e2 : begun [Ev.begin (R := R) i] = [i] := rfl
    rw [e1, e2, h.2]; simpa using h.1
  | servePanic i hg hs => exact absurd hs (serve_quiet hq _ _)
  | serveOk i s r hg hs =>
    rw [hg] at h; simp only at h
    have hf : finished (σ.log ++ [.finish i] ++ (if i.wantsReply then [.replied i.num r] else []))
        = finished σ.log ++ [i] := by
      simp only [finished_append, finished_reply]; simp [finished]
    have hb : begun (σ.log ++ [.finish i] ++ (if i.wantsReply then [.replied i.num r] else []))
        = begun σ.log := by
      simp only [begun_append, begun_reply]; simp [begun]
    simp only [QuietOk, hf, hb, stops_quiet hq]
    cases hi : i.isStop
    · refine ⟨?_, h.2⟩
      intro j hj
      rcases List.mem_append.1 hj with hj | hj
      · exact h.1 j hj
      · simp at hj; subst hj; exact hi
    · exact ⟨⟨_, i, rfl, hi, h.1⟩, h.2⟩
  | stopPanic hg hb => obtain ⟨s', u, b, hs⟩ := hq.2.2 σ.actor; simp [hs] at hb
  | stopDereg s u b hg hb => rw [hg] at h; simpa [QuietOk, finished, begun] using h
  | stopFinal s u b hg hb =>
    rw [hg] at h; simp only at h
    simp only [QuietOk, phase_finalise, finished_finalise, begun_finalise]
    simpa [finished, begun] using h
  | deregOk hg =>
    rw [hg] at h
    simpa only [QuietOk, phase_finalise, finished_finalise, begun_finalise] using h
  | deregFail hg =>
    rw [hg] at h
    simpa only [QuietOk, phase_crash, finished_crash, begun_crash] using h

end Verif.Actor
