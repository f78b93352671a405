import Verif.Actor.Lemmas

/-! # Invariants of the actor loop, one per property -/

namespace Verif.Actor

variable {S M R : Type} {B : Behav S M R} {tracked : Bool}

@[simp] theorem accepted_nil : accepted ([] : List (Ev M R)) = [] := rfl
@[simp] theorem begun_nil : begun ([] : List (Ev M R)) = [] := rfl
@[simp] theorem finished_nil : finished ([] : List (Ev M R)) = [] := rfl
@[simp] theorem attempts_nil : attempts ([] : List (Ev M R)) = [] := rfl
@[simp] theorem replies_nil : replies ([] : List (Ev M R)) = [] := rfl
@[simp] theorem life_nil : life ([] : List (Ev M R)) = [] := rfl
@[simp] theorem notifications_nil : notifications ([] : List (Ev M R)) = [] := rfl

/-! ### Order -/

structure Queue (σ : St S M R) : Prop where
  eq : σ.phase ≠ .gone → accepted σ.log = begun σ.log ++ σ.mailbox
  pre : begun σ.log <+: accepted σ.log
  empty : σ.phase = .gone → σ.mailbox = []

theorem queue_run (s : S) (ins : List (Input M)) : Queue (run B tracked s ins) := by
  refine run_inv_shape ⟨by simp [init], by simp [init], by simp [init]⟩ ?_ ins
  intro σ σ' hok h st
  obtain ⟨h1, h2, h3⟩ := h
  cases st with
  | refuse i h => exact ⟨by simp [h], by simpa [accepted, begun] using h2, by simpa using h3⟩
  | accept i h =>
    have := h1 h
    refine ⟨fun _ => ?_, ?_, fun h' => absurd h' h⟩
    · simp [accepted, begun] at *; simp [this]
    · simp [accepted, begun] at *; simp [this]
  | idle => exact ⟨h1, h2, h3⟩
  | startPanic h hb =>
    exact ⟨by simp, by rw [begun_crash, accepted_crash]; simpa [accepted, begun] using h2, by simp⟩
  | startStop s u h hb =>
    have := h1 (by simp [h])
    exact ⟨by simpa [accepted, begun] using this, by simpa [accepted, begun] using h2, by simp⟩
  | startOk s u h hb =>
    have := h1 (by simp [h])
    exact ⟨by simpa [accepted, begun] using this, by simpa [accepted, begun] using h2, by simp⟩
  | take i rest h hm =>
    have := h1 (by simp [h])
    rw [hm] at this
    refine ⟨fun _ => ?_, ?_, by simp⟩
    · simp [accepted, begun] at *; simp [this]
    · simp [accepted, begun] at *; simp [this]
  | servePanic i h hs => exact ⟨by simp, by simpa using h2, by simp⟩
  | serveOk i s r h hs =>
    have := h1 (by simp [h])
    have ha : accepted (if i.wantsReply then [Ev.replied (M := M) i.num r] else []) = [] := by
      split <;> rfl
    have hb : begun (if i.wantsReply then [Ev.replied (M := M) i.num r] else []) = [] := by
      split <;> rfl
    refine ⟨fun _ => ?_, ?_, ?_⟩
    · simp only [accepted_append, begun_append, ha, hb, this]; simp [accepted, begun]
    · simp only [accepted_append, begun_append, ha, hb]; simpa [accepted, begun] using h2
    · split <;> simp
  | stopPanic h hb =>
    exact ⟨by simp, by rw [begun_crash, accepted_crash]; simpa [accepted, begun] using h2, by simp⟩
  | stopDereg s u b h hb =>
    have := h1 (by simp [h])
    exact ⟨by simpa [accepted, begun] using this, by simpa [accepted, begun] using h2, by simp⟩
  | stopFinal s u b h hb =>
    exact ⟨by simp, by rw [begun_finalise, accepted_finalise]; simpa [accepted, begun] using h2,
      by simp⟩
  | deregOk h => exact ⟨by simp, by simpa using h2, by simp⟩
  | deregFail h => exact ⟨by simp, by simpa using h2, by simp⟩

/-! ### One at a time -/

/-- what is being handled after these events -/
def cur : Option Nat → List (Ev M R) → Option Nat
  | c, [] => c
  | _, .begin i :: l => cur (some i.num) l
  | _, .finish _ :: l => cur none l
  | c, _ :: l => cur c l

theorem oneAtATime_append (c : Option Nat) (a b : List (Ev M R)) :
    oneAtATime c (a ++ b) ↔ oneAtATime c a ∧ oneAtATime (cur c a) b := by
  induction a generalizing c with
  | nil => simp [oneAtATime, cur]
  | cons e a ih => cases e <;> simp [oneAtATime, cur, ih, and_assoc]

theorem cur_append (c : Option Nat) (a b : List (Ev M R)) :
    cur c (a ++ b) = cur (cur c a) b := by
  induction a generalizing c with
  | nil => simp [cur]
  | cons e a ih => cases e <;> simp [cur, ih]

/-- no handler is entered or left in these events -/
def Calm (l : List (Ev M R)) : Prop := ∀ e ∈ l, (∀ i, e ≠ .begin i) ∧ (∀ i, e ≠ .finish i)

theorem calm_ok (c : Option Nat) (l : List (Ev M R)) (h : Calm l) :
    oneAtATime c l ∧ cur c l = c := by
  induction l generalizing c with
  | nil => simp [oneAtATime, cur]
  | cons e l ih =>
    have he := h e (by simp)
    have := ih c (fun x hx => h x (by simp [hx]))
    cases e <;> simp_all [oneAtATime, cur]

theorem calm_dropEvents (i : Item M) : Calm (dropEvents (R := R) i) := by
  intro e he
  unfold dropEvents at he
  simp only [List.mem_append] at he
  rcases he with he | he
  · split at he <;> simp_all
  · split at he <;> simp_all

theorem calm_append {a b : List (Ev M R)} (ha : Calm a) (hb : Calm b) : Calm (a ++ b) := by
  intro e he; rcases List.mem_append.1 he with h | h
  · exact ha e h
  · exact hb e h

theorem calm_flat (is : List (Item M)) : Calm (is.flatMap (dropEvents (R := R))) := by
  intro e he
  obtain ⟨i, _, hi⟩ := List.mem_flatMap.1 he
  exact calm_dropEvents i e hi

theorem crash_calm (σ : St S M R) (c : Option (Item M)) :
    ∃ l, (crash σ c).log = σ.log ++ l ∧ Calm l := by
  refine ⟨[.crashed] ++ (match c with | some i => dropEvents i | none => [])
      ++ (if σ.starter then [.startFailed] else []) ++ σ.stopSenders.map .ackLost
      ++ σ.mailbox.flatMap dropEvents ++ [.parentTold], by simp [crash]; cases c <;> rfl, ?_⟩
  refine calm_append (calm_append (calm_append (calm_append (calm_append ?_ ?_) ?_) ?_) (calm_flat _)) ?_
  · intro e he; simp_all
  · cases c with
    | none => intro e he; simp at he
    | some i => exact calm_dropEvents i
  · intro e he; split at he <;> simp_all
  · intro e he; obtain ⟨n, _, rfl⟩ := List.mem_map.1 he; simp
  · intro e he; simp_all

theorem finalise_calm (σ : St S M R) :
    ∃ l, (finalise σ).log = σ.log ++ l ∧ Calm l := by
  refine ⟨σ.stopSenders.map .ack ++ σ.watchers.map (fun w => .told w.1 w.2)
      ++ (if σ.starter then [.startFailed] else [])
      ++ σ.mailbox.flatMap dropEvents ++ [.parentTold], by simp [finalise], ?_⟩
  refine calm_append (calm_append (calm_append (calm_append ?_ ?_) ?_) (calm_flat _)) ?_
  · intro e he; obtain ⟨n, _, rfl⟩ := List.mem_map.1 he; simp
  · intro e he; obtain ⟨n, _, rfl⟩ := List.mem_map.1 he; simp
  · intro e he; split at he <;> simp_all
  · intro e he; simp_all

structure Alone (σ : St S M R) : Prop where
  ok : oneAtATime none σ.log
  cur : ∀ i, σ.phase = .handling i → cur none σ.log = some i.num
  free : (∀ i, σ.phase ≠ .handling i) → σ.phase ≠ .gone → Actor.cur none σ.log = none

theorem Alone.calm {σ σ' : St S M R} (h : Alone σ) (l : List (Ev M R)) (hl : σ'.log = σ.log ++ l)
    (hc : Calm l) (hp : (σ'.phase = σ.phase) ∨
      ((∀ i, σ'.phase ≠ .handling i) ∧ (∀ i, σ.phase ≠ .handling i) ∧ σ.phase ≠ .gone)
      ∨ σ'.phase = .gone) : Alone σ' := by
  obtain ⟨h1, h2, h3⟩ := h
  have := calm_ok (Actor.cur none σ.log) l hc
  refine ⟨?_, ?_, ?_⟩
  · rw [hl, oneAtATime_append]; exact ⟨h1, this.1⟩
  · intro i hi
    rw [hl, cur_append, this.2]
    rcases hp with hp | hp | hp
    · exact h2 i (hp ▸ hi)
    · exact absurd hi (hp.1 i)
    · simp [hp] at hi
  · intro hi hg
    rw [hl, cur_append, this.2]
    rcases hp with hp | hp | hp
    · exact h3 (hp ▸ hi) (hp ▸ hg)
    · exact h3 hp.2.1 hp.2.2
    · exact absurd hp hg

theorem alone_run (s : S) (ins : List (Input M)) : Alone (run B tracked s ins) := by
  refine run_inv_shape ⟨by simp [init, oneAtATime], by simp [init], by simp [init, cur]⟩ ?_ ins
  intro σ σ' hok h st
  cases st with
  | refuse i hg => exact h.calm [.refused i] rfl (by intro e he; simp_all) (.inl rfl)
  | accept i hg => exact h.calm [.accepted i] rfl (by intro e he; simp_all) (.inl rfl)
  | idle => exact h
  | startPanic hg hb =>
    have h' : Alone { σ with log := σ.log ++ [.startedHook] } :=
      h.calm [.startedHook] rfl (by intro e he; simp_all) (.inl rfl)
    obtain ⟨l, hl, hc⟩ := crash_calm { σ with log := σ.log ++ [.startedHook] } none
    exact h'.calm l hl hc (.inr (.inr rfl))
  | startStop s u hg hb =>
    exact h.calm [.startedHook] rfl (by intro e he; simp_all)
      (.inr (.inl (by simp [hg])))
  | startOk s u hg hb =>
    exact h.calm [.startedHook, .up] (by simp) (by intro e he; simp_all; rcases he with h | h <;> simp [h])
      (.inr (.inl (by simp [hg])))
  | take i rest hg hm =>
    have := h.free (by simp [hg]) (by simp [hg])
    refine ⟨?_, ?_, ?_⟩
    · simp only [oneAtATime_append, this, oneAtATime]; simp [h.ok]
    · intro j hj
      simp at hj; subst hj
      simp [cur_append, cur]
    · intro hi; exact absurd rfl (hi i)
  | servePanic i hg hs =>
    obtain ⟨l, hl, hc⟩ := crash_calm σ (some i)
    exact h.calm l hl hc (.inr (.inr rfl))
  | serveOk i s r hg hs =>
    have := h.cur i hg
    have hc : Calm (if i.wantsReply then [Ev.replied (M := M) i.num r] else []) := by
      intro e he; split at he <;> simp_all
    refine ⟨?_, ?_, ?_⟩
    · simp only [oneAtATime_append, this, oneAtATime, cur_append, cur]
      exact ⟨⟨h.ok, by simp⟩, (calm_ok _ _ hc).1⟩
    · intro j hj; simp at hj; split at hj <;> simp at hj
    · intro _ _
      simp only [cur_append, cur]; exact (calm_ok _ _ hc).2
  | stopPanic hg hb =>
    have h' : Alone { σ with log := σ.log ++ [.stoppedHook] } :=
      h.calm [.stoppedHook] rfl (by intro e he; simp_all) (.inl rfl)
    obtain ⟨l, hl, hc⟩ := crash_calm { σ with log := σ.log ++ [.stoppedHook] } none
    exact h'.calm l hl hc (.inr (.inr rfl))
  | stopDereg s u b hg hb =>
    exact h.calm [.stoppedHook, .deregister] (by simp) (by intro e he; simp_all; rcases he with h | h <;> simp [h])
      (.inr (.inl (by simp [hg])))
  | stopFinal s u b hg hb =>
    have h' : Alone { σ with actor := s, status := .stopped, log := σ.log ++ [.stoppedHook] } :=
      h.calm [.stoppedHook] rfl (by intro e he; simp_all) (.inl rfl)
    obtain ⟨l, hl, hc⟩ := finalise_calm { σ with actor := s, status := .stopped, log := σ.log ++ [.stoppedHook] }
    exact h'.calm l hl hc (.inr (.inr rfl))
  | deregOk hg =>
    obtain ⟨l, hl, hc⟩ := finalise_calm σ
    exact h.calm l hl hc (.inr (.inr rfl))
  | deregFail hg =>
    obtain ⟨l, hl, hc⟩ := crash_calm σ none
    exact h.calm l hl hc (.inr (.inr rfl))

/-! ### Sequential execution -/

theorem begun_reply (i : Item M) (r : Reply R) :
    begun (if i.wantsReply then [Ev.replied (M := M) i.num r] else []) = [] := by split <;> rfl
theorem finished_reply (i : Item M) (r : Reply R) :
    finished (if i.wantsReply then [Ev.replied (M := M) i.num r] else []) = [] := by split <;> rfl
theorem life_reply (i : Item M) (r : Reply R) :
    life (if i.wantsReply then [Ev.replied (M := M) i.num r] else []) = [] := by split <;> rfl
theorem notifications_reply (i : Item M) (r : Reply R) :
    notifications (if i.wantsReply then [Ev.replied (M := M) i.num r] else []) = [] := by
  split <;> rfl
theorem attempts_reply (i : Item M) (r : Reply R) :
    attempts (if i.wantsReply then [Ev.replied (M := M) i.num r] else []) = [] := by
  split <;> rfl

/-- what has been begun and what finished -/
def Cur (σ : St S M R) : Prop :=
  match σ.phase with
  | .handling i => begun σ.log = finished σ.log ++ [i]
  | .gone => finished σ.log <+: begun σ.log
      ∧ (¬ hasCrashed σ.log → begun σ.log = finished σ.log)
  | _ => begun σ.log = finished σ.log

theorem cur_run (s : S) (ins : List (Input M)) : Cur (run B tracked s ins) := by
  refine run_inv_shape (by simp [Cur, init]) ?_ ins
  intro σ σ' hok h st
  unfold Cur at h
  cases st with
  | refuse i hg =>
    rw [hg] at h
    simp only [Cur, hg]
    simpa [begun, finished, hasCrashed] using h
  | accept i hg =>
    simp only [Cur]
    split <;> rename_i hp <;> simp_all [begun, finished]
  | idle => exact h
  | startPanic hg hb =>
    rw [hg] at h; simp only at h
    simp only [Cur, phase_crash]
    refine ⟨?_, fun hc => absurd (crashed_crash _ _) hc⟩
    simp [h]; simp [begun, finished]
  | startStop s u hg hb => rw [hg] at h; simpa [Cur, begun, finished] using h
  | startOk s u hg hb => rw [hg] at h; simpa [Cur, begun, finished] using h
  | take i rest hg hm =>
    rw [hg] at h
    simp [Cur, begun, finished] at *
    exact h
  | servePanic i hg hs =>
    rw [hg] at h; simp only at h
    simp only [Cur, phase_crash]
    refine ⟨?_, fun hc => absurd (crashed_crash _ _) hc⟩
    simp [h]
  | serveOk i s r hg hs =>
    rw [hg] at h; simp only at h
    have : begun (σ.log ++ [.finish i] ++ (if i.wantsReply then [.replied i.num r] else []))
        = finished (σ.log ++ [.finish i] ++ (if i.wantsReply then [.replied i.num r] else [])) := by
      simp only [begun_append, finished_append, begun_reply, finished_reply, h]
      simp [begun, finished]
    simp only [Cur]
    cases stops B σ.actor i <;> simpa using this
  | stopPanic hg hb =>
    rw [hg] at h; simp only at h
    simp only [Cur, phase_crash]
    refine ⟨?_, fun hc => absurd (crashed_crash _ _) hc⟩
    simp [h]; simp [begun, finished]
  | stopDereg s u b hg hb => rw [hg] at h; simpa [Cur, begun, finished] using h
  | stopFinal s u b hg hb =>
    rw [hg] at h; simp only at h
    simp only [Cur, phase_finalise, begun_finalise, finished_finalise]
    simp [h]; simp [begun, finished]
  | deregOk hg =>
    rw [hg] at h; simp only at h
    simp only [Cur, phase_finalise, begun_finalise, finished_finalise]
    simp [h]
  | deregFail hg =>
    rw [hg] at h; simp only at h
    simp only [Cur, phase_crash]
    refine ⟨?_, fun hc => absurd (crashed_crash _ _) hc⟩
    simp [h]

/-- The answers of handling these requests one after another. -/
def answers (B : Behav S M R) (s : S) : List (Item M) → List (Nat × Reply R)
  | [] => []
  | i :: is =>
    match serve B s i with
    | some (s', r) => (if i.wantsReply then [(i.num, r)] else []) ++ answers B s' is
    | none => []

theorem answers_append (s s' : S) (a b : List (Item M)) (h : serveAll B s a = some s') :
    answers B s (a ++ b) = answers B s a ++ answers B s' b := by
  induction a generalizing s with
  | nil => simp [serveAll] at h; simp [answers, h]
  | cons i a ih =>
    simp only [serveAll] at h
    cases hs : serve B s i with
    | none => simp [hs] at h
    | some p =>
      simp [hs] at h
      simp [answers, hs, ih p.1 h]

theorem serveAll_append (s s' : S) (a b : List (Item M)) (h : serveAll B s a = some s') :
    serveAll B s (a ++ b) = serveAll B s' b := by
  induction a generalizing s with
  | nil => simp [serveAll] at h; simp [h]
  | cons i a ih =>
    simp only [serveAll] at h
    cases hs : serve B s i with
    | none => simp [hs] at h
    | some p =>
      simp [hs] at h
      simp [serveAll, hs, ih p.1 h]

/-- Requests so far were handled one after another, starting from the state left by `started`. -/
def Seq (B : Behav S M R) (s0 : S) (σ : St S M R) : Prop :=
  match σ.phase with
  | .created => σ.actor = s0 ∧ finished σ.log = [] ∧ replies σ.log = []
  | .looping | .handling _ => ∃ s1 u, B.started s0 = .done s1 u false
      ∧ serveAll B s1 (finished σ.log) = some σ.actor
      ∧ replies σ.log = answers B s1 (finished σ.log)
  | _ => (finished σ.log = [] ∧ replies σ.log = []) ∨ ∃ s1 u, B.started s0 = .done s1 u false
      ∧ (serveAll B s1 (finished σ.log)).isSome
      ∧ replies σ.log = answers B s1 (finished σ.log)

theorem seq_run (s0 : S) (ins : List (Input M)) : Seq B s0 (run B tracked s0 ins) := by
  refine run_inv_shape (by simp [Seq, init]) ?_ ins
  intro σ σ' hok h st
  unfold Seq at h
  cases st with
  | refuse i hg =>
    rw [hg] at h
    simp only [Seq, hg]
    simpa [finished, replies] using h
  | accept i hg =>
    simp only [Seq]
    split <;> rename_i hp <;> simp_all [finished, replies]
  | idle => exact h
  | startPanic hg hb =>
    rw [hg] at h; simp only at h
    simp only [Seq, phase_crash]
    left; simp [h.2.1, h.2.2]; simp [finished, replies]
  | startStop s u hg hb =>
    rw [hg] at h; simp only at h
    simp only [Seq]
    left; simp [h.2.1, h.2.2]; simp [finished, replies]
  | startOk s u hg hb =>
    rw [hg] at h; simp only at h
    simp only [Seq]
    refine ⟨s, u, h.1 ▸ hb, ?_, ?_⟩
    · simp [h.2.1]; simp [finished, serveAll]
    · simp [h.2.1, h.2.2]; simp [finished, replies, answers]
  | take i rest hg hm =>
    rw [hg] at h
    simpa [Seq, finished, replies] using h
  | servePanic i hg hs =>
    rw [hg] at h; simp only at h
    obtain ⟨s1, u, h1, h2, h3⟩ := h
    simp only [Seq, phase_crash, finished_crash, replies_crash]
    exact .inr ⟨s1, u, h1, by simp [h2], h3⟩
  | serveOk i s r hg hs =>
    rw [hg] at h; simp only at h
    obtain ⟨s1, u, h1, h2, h3⟩ := h
    have hf : finished (σ.log ++ [.finish i] ++ (if i.wantsReply then [.replied i.num r] else []))
        = finished σ.log ++ [i] := by
      simp only [finished_append, finished_reply]; simp [finished]
    have hr : replies (σ.log ++ [.finish i] ++ (if i.wantsReply then [.replied i.num r] else []))
        = replies σ.log ++ answers B σ.actor [i] := by
      simp only [replies_append]
      have : replies [Ev.finish (R := R) i] = [] := rfl
      simp [this, answers, hs]
      split <;> simp [replies]
    have key : serveAll B s1 (finished σ.log ++ [i]) = some s := by
      rw [serveAll_append _ _ _ _ h2]; simp [serveAll, hs]
    have key2 : replies σ.log ++ answers B σ.actor [i] = answers B s1 (finished σ.log ++ [i]) := by
      rw [answers_append _ _ _ _ h2, h3]
    simp only [Seq, hf, hr]
    cases stops B σ.actor i
    · exact ⟨s1, u, h1, key, key2⟩
    · exact .inr ⟨s1, u, h1, by simp [key], key2⟩
  | stopPanic hg hb =>
    rw [hg] at h
    simp only [Seq, phase_crash, finished_crash, replies_crash]
    simpa [finished, replies] using h
  | stopDereg s u b hg hb => rw [hg] at h; simpa [Seq, finished, replies] using h
  | stopFinal s u b hg hb =>
    rw [hg] at h
    simp only [Seq, phase_finalise, finished_finalise, replies_finalise]
    simpa [finished, replies] using h
  | deregOk hg =>
    rw [hg] at h
    simpa only [Seq, phase_finalise, finished_finalise, replies_finalise] using h
  | deregFail hg =>
    rw [hg] at h
    simpa only [Seq, phase_crash, finished_crash, replies_crash] using h

end Verif.Actor
