import Verif.Actor.BlockingLemmas

/-! # C118: a blocking call gives what the same call gives when it is awaited -/

namespace Verif.Actor.Blocking

variable {S M R : Type} {W : World S M R}

/-! ## Small facts used below -/

theorem calls_put (σ : Sys S M R) (a c : Nat) (st : St S M R) (v : Call R) :
    ((σ.actor a st).at c v).calls c = v := at_self _ _ _

/-- a call that waits for the scheduler is in its mailbox -/
theorem queued_run (ops : List (Op M)) (c j : Nat) (h : (run W ops).calls c = .register j) :
    (c, j) ∈ (run W ops).queue ∧ (run W ops).up = true := by
  induction ops using snoc_induction generalizing c j with
  | nil => simp [run, Sys.init] at h
  | snoc ops op ih =>
    rw [run_snoc] at h ⊢
    generalize run W ops = σ at h ih
    have keep : ∀ c' v, (∀ j, v ≠ .register j) → (σ.at c' v).calls c = .register j →
        (c, j) ∈ σ.queue ∧ σ.up = true := by
      intro c' v hv e
      by_cases hk : c = c'
      · subst hk; rw [at_self] at e; exact absurd e (hv j)
      · rw [at_other _ _ _ _ hk] at e; exact ih c j e
    cases op with
    | call c' t k =>
      simp only [Sys.step, Sys.call] at h ⊢
      split at h
      · rename_i hi
        cases k with
        | send a b =>
          cases ha : σ.acts a with
          | none => simp only [ha] at h ⊢; exact ih c j h
          | some st =>
            cases t with
            | none =>
              simp only [ha, Sys.send] at h ⊢
              split at h <;> split <;> first | contradiction | exact keep c' _ (by simp) h
            | some t =>
              simp only [ha, Sys.sendBlocking] at h ⊢
              repeat' split at h
              all_goals (repeat' split)
              all_goals first | contradiction | exact keep c' _ (by simp) h
        | stop a =>
          cases ha : σ.acts a with
          | none => simp only [ha] at h ⊢; exact ih c j h
          | some st =>
            cases t with
            | none =>
              simp only [ha, Sys.stop] at h ⊢
              split at h <;> split <;> first | contradiction | exact keep c' _ (by simp) h
            | some t =>
              simp only [ha, Sys.stopBlocking] at h ⊢
              repeat' split at h
              all_goals (repeat' split)
              all_goals first | contradiction | exact keep c' _ (by simp) h
        | tell a b =>
          cases ha : σ.acts a with
          | none => simp only [ha] at h ⊢; exact ih c j h
          | some st =>
            simp only [ha, Sys.tell] at h ⊢
            split at h <;> split <;> first | contradiction | exact keep c' _ (by simp) h
        | create j' =>
          have new : ((σ.actor j' (Actor.init (W.value j'))).post c' j' |>.at c' (.register j')).calls c = .register j →
              σ.up = true → (c, j) ∈ σ.queue ++ [(c', j')] ∧ σ.up = true := by
            intro e hu
            by_cases hk : c = c'
            · subst hk
              rw [at_self] at e
              injection e with e
              subst e
              exact ⟨by simp, hu⟩
            · rw [at_other _ _ _ _ hk] at e
              have := ih c j e
              exact ⟨by simp [this.1], hu⟩
          have post : ∀ v, (∀ j, v ≠ .register j) →
              (((σ.actor j' (Actor.init (W.value j'))).post c' j').at c' v).calls c = .register j →
              (c, j) ∈ σ.queue ++ [(c', j')] ∧ σ.up = true := by
            intro v hv e
            have := keep c' v hv e
            exact ⟨by simp [this.1], this.2⟩
          cases ha : σ.acts j' with
          | some st => simp only [ha] at h ⊢; exact ih c j h
          | none =>
            cases t with
            | none =>
              simp only [ha, Sys.create] at h ⊢
              repeat' split at h
              all_goals (repeat' split)
              all_goals first | contradiction | exact new h (by assumption) | exact keep c' _ (by simp) h
            | some t =>
              simp only [ha, Sys.createBlocking] at h ⊢
              repeat' split at h
              all_goals (repeat' split)
              all_goals first
                | contradiction
                | exact new h (by assumption)
                | exact post _ (by simp) h
                | exact keep c' _ (by simp) h
      · exact ih c j h
    | wake c' =>
      simp only [Sys.step] at h ⊢
      rcases wake_shape σ c' with e | ⟨o, e, _⟩
      · rw [e] at h ⊢; exact ih c j h
      · rw [e] at h ⊢; exact keep c' _ (by simp) h
    | tick a down =>
      simp only [Sys.step] at h ⊢
      split at h <;> exact ih c j h
    | dereg a ok =>
      simp only [Sys.step] at h ⊢
      split at h <;> exact ih c j h
    | sched =>
      simp only [Sys.step, Sys.sched] at h ⊢
      cases hq : σ.queue with
      | nil => simp only [hq] at h ⊢; have := ih c j h; rw [hq] at this; exact this
      | cons p q =>
        obtain ⟨c', j'⟩ := p
        simp only [hq] at h ⊢
        by_cases hk : c = c'
        · subst hk
          rw [at_self] at h
          cases hv : σ.calls c <;> rw [hv] at h <;> simp [Call.past] at h
        · rw [at_other _ _ _ _ hk] at h
          have := ih c j h
          rw [hq] at this
          refine ⟨?_, this.2⟩
          rcases List.mem_cons.mp this.1 with e | e
          · exact absurd (Prod.mk.inj e).1 hk
          · exact e
    | schedEnds =>
      simp only [Sys.step, Sys.schedEnds] at h
      cases hv : σ.calls c <;> rw [hv] at h <;> simp [Call.past] at h

/-! ## The property -/

/-- Full statement: whatever threads the blocking calls are made from, everything is as if they had been awaited. It is
false (`C118_inside_refuted`, `C118_outside_refuted`, `C118_silent_refuted`). Proved here for calls made where tokio
lets them wait: blocking calls not made by tasks of the runtime, and actors created from threads that have entered the
runtime. Then the actors, the scheduler and all callers are where they would be with the calls awaited, throughout. -/
theorem C118_as_awaited_partial (ops : List (Op M)) (h : ∀ op ∈ ops, op.wellPlaced) :
    run W ops = run W (ops.map Op.awaited) := by
  induction ops using snoc_induction with
  | nil => rfl
  | snoc ops op ih =>
    rw [List.map_append, List.map_singleton, run_snoc, run_snoc, ih fun o ho => h o (by simp [ho])]
    exact step_wellPlaced _ _ (h op (by simp))

/-- Wherever blocking calls are made from, the actors and the scheduler do what they would do if the calls were awaited,
unless an actor is created from outside the runtime; and every caller is where it would be, or has panicked. -/
theorem C118_actors (ops : List (Op M)) (h : ∀ op ∈ ops, ¬ op.createsOutside) :
    SameActors (run W ops) (run W (ops.map Op.awaited)) ∧
    ∀ c, (run W ops).calls c = (run W (ops.map Op.awaited)).calls c ∨ (run W ops).calls c = .panicked :=
  ⟨(near_run ops h).same, fun c => ((near_run ops h).calls c).imp id And.left⟩

/-- Exactly when a blocking call panics: a request, from a task of the runtime, if the actor has not gone; creating an
actor, from everywhere but a thread that has entered the runtime and may block. `notify` never. -/
theorem C118_panics (ops : List (Op M)) (c : Nat) (t : Thread) (k : Kind M) (hc : (run W ops).calls c = .idle) :
    (run W (ops ++ [.call c (some t) k])).calls c = .panicked ↔
      match k with
      | .send a _ => t = .inside ∧ ∃ st, (run W ops).acts a = some st ∧ st.phase ≠ .gone
      | .stop a => t = .inside ∧ ∃ st, (run W ops).acts a = some st ∧ st.phase ≠ .gone
      | .tell _ _ => False
      | .create j => t ≠ .entered ∧ (run W ops).acts j = none := by
  rw [run_snoc]
  generalize run W ops = σ at hc
  simp only [Sys.step, Sys.call, hc]
  have hal : ∀ st : St S M R, alive st = true ↔ st.phase ≠ .gone := by
    intro st; unfold alive; cases st.phase <;> simp
  cases k with
  | send a b =>
    simp only
    cases ha : σ.acts a with
    | none => simp [hc]
    | some st =>
      simp only [Sys.sendBlocking]
      cases hl : alive st with
      | false =>
        have : ¬ st.phase ≠ .gone := fun h => by rw [(hal st).mpr h] at hl; cases hl
        simp [at_self]
        intro _; simpa using this
      | true =>
        have := (hal st).mp hl
        cases t <;> simp [Thread.mayBlock, at_self, this]
  | stop a =>
    simp only
    cases ha : σ.acts a with
    | none => simp [hc]
    | some st =>
      simp only [Sys.stopBlocking]
      cases hl : alive st with
      | false =>
        have : ¬ st.phase ≠ .gone := fun h => by rw [(hal st).mpr h] at hl; cases hl
        simp [at_self]
        intro _; simpa using this
      | true =>
        have := (hal st).mp hl
        cases t <;> simp [Thread.mayBlock, at_self, this]
  | tell a b =>
    simp only
    cases ha : σ.acts a with
    | none => simp [hc]
    | some st => simp only [ha, Sys.tell]; split <;> simp [at_self]
  | create j =>
    simp only
    cases ha : σ.acts j with
    | some st => simp [hc]
    | none =>
      simp only [Sys.createBlocking]
      cases t <;> simp [Thread.maySpawn, Thread.mayBlock, at_self] <;> (repeat' split) <;> simp [at_self]

/-- An awaited call never panics. -/
theorem C118_awaited (ops : List (Op M)) (c : Nat) : (run W (ops.map Op.awaited)).calls c ≠ .panicked := by
  induction ops using snoc_induction generalizing c with
  | nil => simp [run, Sys.init]
  | snoc ops op ih =>
    rw [List.map_append, List.map_singleton, run_snoc]
    generalize run W (ops.map Op.awaited) = σ at ih
    have keep : ∀ (τ : Sys S M R) c' v, τ.calls = σ.calls → v ≠ .panicked → (τ.at c' v).calls c ≠ .panicked := by
      intro τ c' v ht hv
      by_cases hk : c = c'
      · subst hk; rw [at_self]; exact hv
      · rw [at_other _ _ _ _ hk, ht]; exact ih c
    cases op with
    | call c' t k =>
      simp only [Op.awaited, Sys.step, Sys.call]
      split
      · cases k with
        | send a b =>
          cases ha : σ.acts a with
          | none => simp only [ha]; exact ih c
          | some st => simp only [ha, Sys.send]; split <;> exact keep _ _ _ rfl (by simp)
        | stop a =>
          cases ha : σ.acts a with
          | none => simp only [ha]; exact ih c
          | some st => simp only [ha, Sys.stop]; split <;> exact keep _ _ _ rfl (by simp)
        | tell a b =>
          cases ha : σ.acts a with
          | none => simp only [ha]; exact ih c
          | some st => simp only [ha, Sys.tell]; split <;> exact keep _ _ _ rfl (by simp)
        | create j =>
          cases ha : σ.acts j with
          | some st => simp only [ha]; exact ih c
          | none => simp only [ha, Sys.create]; (repeat' split) <;> exact keep _ _ _ rfl (by simp)
      · exact ih c
    | wake c' =>
      simp only [Op.awaited, Sys.step]
      rcases wake_shape σ c' with e | ⟨o, e, _⟩
      · rw [e]; exact ih c
      · rw [e]; exact keep _ _ _ rfl (by simp)
    | tick a down => simp only [Op.awaited, Sys.step]; split <;> exact ih c
    | dereg a ok => simp only [Op.awaited, Sys.step]; split <;> exact ih c
    | sched =>
      simp only [Op.awaited, Sys.step, Sys.sched]
      split
      · exact ih c
      · rename_i c' j' q _
        refine keep _ _ _ rfl ?_
        have := ih c'
        cases hv : σ.calls c' <;> simp_all [Call.past]
    | schedEnds =>
      simp only [Op.awaited, Sys.step, Sys.schedEnds]
      have := ih c
      cases hv : σ.calls c <;> simp_all [Call.past]

/-- What a call returns is true: an answer is the answer of the actor asked to this very call, `ResultChannelClosed` says
that the actor dropped it, `InvalidRef` that the actor had gone before or ended without acknowledging the stop, `Ok` of a
stop that the actor has ended, and a reference that the actor is up. -/
theorem C118_true (ops : List (Op M)) (c : Nat) (o : Outcome R) (h : (run W ops).calls c = .returned o) :
    Truth (run W ops) ops c o := by
  have := (inv_run (W := W) ops).waits c
  rw [h] at this
  exact this

/-- The result that a call returns is what the actor's handler gave for the message of this call, in the state the
messages handled before had left. -/
theorem C118_result (ops : List (Op M)) (c : Nat) (r : Reply R) (h : (run W ops).calls c = .returned (.result r)) :
    ∃ a b st, asks c (.send a b) ops ∧ (run W ops).acts a = some st ∧
      ∃ s1 u pre post s2 s3, (W.code a).started (W.value a) = .done s1 u false ∧
        finished st.log = pre ++ ⟨c, b, true⟩ :: post ∧
        serveAll (W.code a) s1 pre = some s2 ∧ serve (W.code a) s2 ⟨c, b, true⟩ = some (s3, r) := by
  obtain ⟨a, b, h1, st, h2, h3⟩ := C118_true ops c _ h
  obtain ⟨ins, e, hn, hc, hk⟩ := (inv_run (W := W) ops).alone a st h2
  have hm : (c, r) ∈ replies (Actor.run (W.code a) (W.tracked a) (W.value a) ins).log := by
    rw [← e]
    exact List.mem_filterMap.mpr ⟨_, h3, rfl⟩
  obtain ⟨s1, u, pre, i, post, s2, s3, g1, g2, g3, g4, g5, g6⟩ := C13_own_result _ ins c r hm
  have hi : i ∈ requests ins := by
    rw [← attempts_run (B := W.code a) (tracked := W.tracked a) (W.value a) ins]
    have hf : i ∈ finished (Actor.run (W.code a) (W.tracked a) (W.value a) ins).log := by rw [g2]; simp
    have hb : i ∈ begun (Actor.run (W.code a) (W.tracked a) (W.value a) ins).log := by
      have hcur := cur_run (B := W.code a) (tracked := W.tracked a) (W.value a) ins
      unfold Cur at hcur
      split at hcur
      · rw [hcur]; simp [hf]
      · exact hcur.1.subset hf
      · rw [hcur]; exact hf
    have ha := (C12_fifo (B := W.code a) (tracked := W.tracked a) (W.value a) ins).subset hb
    obtain ⟨ev, hev, hea⟩ := List.mem_filterMap.mp ha
    refine List.mem_filterMap.mpr ⟨ev, hev, ?_⟩
    cases ev <;> simp_all
  obtain ⟨k, k1, k2⟩ := hk i hi
  rw [g3] at k1 k2
  cases k with
  | send a' b' =>
    simp only [Kind.item, Option.some.injEq, Prod.mk.injEq] at k2
    obtain ⟨rfl, rfl⟩ := k2
    exact ⟨a', b', st, k1, h2, s1, u, pre, post, s2, s3, g1, by rw [e]; exact g2, g5, g6⟩
  | stop a' =>
    simp only [Kind.item, Option.some.injEq, Prod.mk.injEq] at k2
    obtain ⟨rfl, rfl⟩ := k2
    cases g4
  | tell a' b' =>
    simp only [Kind.item, Option.some.injEq, Prod.mk.injEq] at k2
    obtain ⟨rfl, rfl⟩ := k2
    cases g4
  | create j => cases k2

theorem answerOf_some {c : Nat} {l : List (Ev M R)} (h : ∃ e ∈ l, e = .lost c ∨ ∃ r, e = .replied c r) :
    ∃ o, answerOf c l = some o := by
  induction l with
  | nil => obtain ⟨e, he, _⟩ := h; cases he
  | cons e l ih =>
    obtain ⟨e', he, hx⟩ := h
    rcases List.mem_cons.mp he with rfl | he
    · rcases hx with rfl | ⟨r, rfl⟩ <;> simp [answerOf]
    · have := ih ⟨e', he, hx⟩
      cases e <;> simp only [answerOf] <;> first | exact this | (split; exact ⟨_, rfl⟩; exact this)

theorem stopAnswerOf_some {c : Nat} {l : List (Ev M R)} (h : ∃ e ∈ l, e = .ack c ∨ e = .ackLost c) :
    ∃ o, stopAnswerOf c l = some o := by
  induction l with
  | nil => obtain ⟨e, he, _⟩ := h; cases he
  | cons e l ih =>
    obtain ⟨e', he, hx⟩ := h
    rcases List.mem_cons.mp he with rfl | he
    · rcases hx with rfl | rfl <;> simp [stopAnswerOf]
    · have := ih ⟨e', he, hx⟩
      cases e <;> simp only [stopAnswerOf] <;> first | exact this | (split; exact ⟨_, rfl⟩; exact this)

theorem startAnswerOf_eq (j : Nat) (l : List (Ev M R)) :
    startAnswerOf j l = (starterAnswers l).head?.map fun b => if b then .ref j else .startFailed := by
  induction l with
  | nil => rfl
  | cons e l ih => cases e <;> simp_all [startAnswerOf, starterAnswers]

/-- two attempts under one number are one -/
theorem attempts_once (l : List (Ev M R)) (i j : Item M) (h : ((attempts l).map (·.num)).Nodup)
    (hi : Ev.accepted i ∈ l) (hj : Ev.refused j ∈ l) : i.num ≠ j.num := by
  induction l with
  | nil => cases hi
  | cons e l ih =>
    have mem : ∀ x : Item M, (Ev.accepted x ∈ l ∨ Ev.refused x ∈ l) → x ∈ attempts l := by
      rintro x (hx | hx) <;> exact List.mem_filterMap.mpr ⟨_, hx, rfl⟩
    have hsub : ((attempts l).map (·.num)).Nodup := by
      have : (attempts l).Sublist (attempts (e :: l)) := by
        simp only [attempts, List.filterMap_cons]
        split
        · exact List.Sublist.refl _
        · exact List.sublist_cons_self _ _
      exact (this.map _).nodup h
    rcases List.mem_cons.mp hi with rfl | hi'
    · rcases List.mem_cons.mp hj with e | hj'
      · cases e
      · simp only [attempts, List.filterMap_cons, List.map_cons, List.nodup_cons] at h
        intro e
        apply h.1
        rw [e]
        exact List.mem_map_of_mem (mem j (.inr hj'))
    · rcases List.mem_cons.mp hj with rfl | hj'
      · simp only [attempts, List.filterMap_cons, List.map_cons, List.nodup_cons] at h
        intro e
        apply h.1
        rw [← e]
        exact List.mem_map_of_mem (mem i (.inl hi'))
      · exact ih hsub hi' hj'

/-- Nobody waits longer than the actor lives: a call, blocking or awaited, that waits for an actor which has gone returns
as soon as it looks. -/
theorem C118_returns (ops : List (Op M)) (c a : Nat) (st : St S M R)
    (hw : (run W ops).calls c = .answer a ∨ (run W ops).calls c = .stopped a ∨ (run W ops).calls c = .start a)
    (ha : (run W ops).acts a = some st) (hg : st.phase = .gone) :
    ∃ o, (run W (ops ++ [.wake c])).calls c = .returned o := by
  have hi := inv_run (W := W) ops
  have hwt := hi.waits c
  obtain ⟨ins, e, hn, _, _⟩ := hi.alone a st ha
  rw [run_snoc]
  generalize run W ops = σ at *
  simp only [Sys.step, Sys.wake]
  have hatt : attempts st.log = requests ins := by rw [e]; exact attempts_run _ _
  rcases hw with hw | hw | hw
  · rw [hw] at hwt ⊢
    obtain ⟨b, _, st0, h0, hacc⟩ := hwt
    rw [ha] at h0
    injection h0 with h0
    subst h0
    have hm : (⟨c, b, true⟩ : Item M) ∈ requests ins := by
      rw [← hatt]; exact List.mem_filterMap.mpr ⟨_, hacc, rfl⟩
    have h1 := C13_exactly_one (B := W.code a) (tracked := W.tracked a) (W.value a) ins hn (by rw [← e]; exact hg)
      ⟨c, b, true⟩ hm rfl
    rw [← e] at h1
    have h2 : 0 < st.log.countP (settles c) := by
      have h1 : st.log.countP (settles c) = 1 := h1
      omega
    obtain ⟨ev, hev, hs⟩ := List.countP_pos_iff.mp h2
    have h3 : ∃ e ∈ st.log, e = Ev.lost c ∨ ∃ r, e = Ev.replied c r := by
      refine ⟨ev, hev, ?_⟩
      cases ev <;> simp [settles] at hs
      · rename_i j
        exact absurd hs.2.symm (attempts_once st.log ⟨c, b, true⟩ j (by rw [hatt]; exact hn) hacc hev)
      · exact .inr ⟨_, by rw [hs]⟩
      · exact .inl (by rw [hs])
    obtain ⟨o, ho⟩ := answerOf_some h3
    exact ⟨o, by simp [ha, ho, at_self]⟩
  · rw [hw] at hwt ⊢
    obtain ⟨_, st0, h0, hacc⟩ := hwt
    rw [ha] at h0
    injection h0 with h0
    subst h0
    have hm : (⟨c, .stop true, false⟩ : Item M) ∈ requests ins := by
      rw [← hatt]; exact List.mem_filterMap.mpr ⟨_, hacc, rfl⟩
    have h1 := C13_stop_exactly_one (B := W.code a) (tracked := W.tracked a) (W.value a) ins hn
      (by rw [← e]; exact hg) ⟨c, .stop true, false⟩ hm rfl
    rw [← e] at h1
    have h2 : 0 < st.log.countP (settlesStop c) := by
      have h1 : st.log.countP (settlesStop c) = 1 := h1
      omega
    obtain ⟨ev, hev, hs⟩ := List.countP_pos_iff.mp h2
    have h3 : ∃ e ∈ st.log, e = Ev.ack c ∨ e = Ev.ackLost c := by
      refine ⟨ev, hev, ?_⟩
      cases ev <;> simp [settlesStop] at hs
      · rename_i j
        exact absurd hs.1.symm
          (attempts_once st.log ⟨c, .stop true, false⟩ j (by rw [hatt]; exact hn) hacc hev)
      · exact .inl (by rw [hs])
      · exact .inr (by rw [hs])
    obtain ⟨o, ho⟩ := stopAnswerOf_some h3
    exact ⟨o, by simp [ha, ho, at_self]⟩
  · rw [hw]
    have h1 := C14_starter_answered (B := W.code a) (tracked := W.tracked a) (W.value a) ins (by rw [← e]; exact hg)
    rw [← e] at h1
    have h2 : ∃ o, startAnswerOf a st.log = some o := by rw [startAnswerOf_eq, h1]; simp
    obtain ⟨o, ho⟩ := h2
    exact ⟨o, by simp [ha, ho, at_self]⟩

/-- Whoever creates a tracked actor waits for the scheduler no longer than it takes the scheduler to get through what is
in its mailbox, and not at all for one that has ended. -/
theorem C118_registered (ops : List (Op M)) (c j : Nat) (h : (run W ops).calls c = .register j) :
    (∃ n ≤ (run W ops).queue.length, (run W (ops ++ List.replicate n .sched)).calls c = .start j) ∧
    (run W (ops ++ [.schedEnds])).calls c = .start j := by
  constructor
  · obtain ⟨n, hn⟩ : ∃ n, (run W ops).queue.length = n := ⟨_, rfl⟩
    induction n generalizing ops with
    | zero =>
      have := (queued_run ops c j h).1
      rw [List.length_eq_zero_iff.mp hn] at this
      cases this
    | succ n ih =>
      cases hq : (run W ops).queue with
      | nil => rw [hq] at hn; cases hn
      | cons p q =>
        obtain ⟨c', j'⟩ := p
        have hs : run W (ops ++ [.sched]) = _ := run_snoc ops .sched
        simp only [Sys.step, Sys.sched, hq] at hs
        by_cases hk : c = c'
        · subst hk
          refine ⟨1, by simp, ?_⟩
          simp only [List.replicate_one]
          rw [hs, at_self, h]
          rfl
        · have h' : (run W (ops ++ [.sched])).calls c = .register j := by
            rw [hs, at_other _ _ _ _ hk]; exact h
          have hl : (run W (ops ++ [.sched])).queue.length = n := by
            rw [hs]
            rw [hq] at hn
            simpa [Sys.at] using hn
          obtain ⟨m, hm, he⟩ := ih (ops ++ [.sched]) h' hl
          refine ⟨m + 1, by simp only [List.length_cons]; rw [hq] at hn; simp at hn; omega, ?_⟩
          rw [List.replicate_succ, List.append_cons]
          exact he
  · rw [run_snoc]
    simp only [Sys.step, Sys.schedEnds, h, Call.past]

/-- Once the scheduler has ended nobody ever waits for it again. -/
theorem C118_ended (ops more : List (Op M)) (c j : Nat) :
    (run W (ops ++ .schedEnds :: more)).calls c ≠ .register j := by
  have key : (run W (ops ++ .schedEnds :: more)).up = false ∧ (run W (ops ++ .schedEnds :: more)).queue = [] := by
    have e : run W (ops ++ .schedEnds :: more) = more.foldl (Sys.step W) (run W ops).schedEnds := by
      simp [run, Sys.step]
    rw [e]
    have h0 : (run W ops).schedEnds.up = false ∧ (run W ops).schedEnds.queue = [] := ⟨rfl, rfl⟩
    generalize (run W ops).schedEnds = σ at h0
    clear e
    induction more generalizing σ with
    | nil => exact h0
    | cons o more ih =>
      refine ih _ ?_
      obtain ⟨hu, hq⟩ := h0
      cases o with
      | call d t k =>
        simp only [Sys.step, Sys.call]
        split
        · cases k <;> simp only <;> (repeat' split) <;>
            simp [Sys.sendBlocking, Sys.send, Sys.stopBlocking, Sys.stop, Sys.tell, Sys.createBlocking, Sys.create,
              Sys.at, Sys.actor, Sys.post, hu, hq] <;> (repeat' split) <;> simp [hu, hq]
        · exact ⟨hu, hq⟩
      | wake d =>
        simp only [Sys.step, Sys.wake]
        (repeat' split) <;> exact ⟨hu, hq⟩
      | tick a d => simp only [Sys.step]; split <;> exact ⟨hu, hq⟩
      | dereg a d => simp only [Sys.step]; split <;> exact ⟨hu, hq⟩
      | sched => simp only [Sys.step, Sys.sched, hq]; exact ⟨hu, trivial⟩
      | schedEnds => exact ⟨rfl, rfl⟩
  intro h
  have := (queued_run _ c j h).1
  rw [key.2] at this
  cases this

/-- While the scheduler has not ended, whoever creates a tracked actor waits for it to be registered, whether the call is
awaited or blocks a thread that may be blocked. -/
theorem C118_waits (ops : List (Op M)) (c j : Nat) (t : Option Thread) (ht : t = none ∨ t = some .entered)
    (hs : .schedEnds ∉ ops) (hc : (run W ops).calls c = .idle) (hj : (run W ops).acts j = none)
    (hw : W.tracked j = true) :
    (run W (ops ++ [.call c t (.create j)])).calls c = .register j ∧
    (run W (ops ++ [.call c t (.create j)])).queue = (run W ops).queue ++ [(c, j)] := by
  have hu : (run W ops).up = true := by
    clear hc hj
    induction ops using snoc_induction with
    | nil => rfl
    | snoc ops o ih =>
      simp only [List.mem_append, List.mem_singleton, not_or] at hs
      have hu := ih hs.1
      rw [run_snoc]
      generalize run W ops = σ at hu ⊢
      cases o with
      | call d t k =>
        simp only [Sys.step, Sys.call]
        split
        · cases k <;> simp only <;> (repeat' split) <;>
            simp [Sys.sendBlocking, Sys.send, Sys.stopBlocking, Sys.stop, Sys.tell, Sys.createBlocking, Sys.create,
              Sys.at, Sys.actor, Sys.post, hu] <;> (repeat' split) <;> simp [hu]
        · exact hu
      | wake d =>
        simp only [Sys.step, Sys.wake]
        (repeat' split) <;> exact hu
      | tick a d => simp only [Sys.step]; split <;> exact hu
      | dereg a d => simp only [Sys.step]; split <;> exact hu
      | sched => simp only [Sys.step, Sys.sched]; split <;> exact hu
      | schedEnds => exact absurd rfl hs.2
  rw [run_snoc]
  generalize run W ops = σ at *
  rcases ht with rfl | rfl <;>
    simp [Sys.step, Sys.call, hc, hj, Sys.create, Sys.createBlocking, Thread.maySpawn, Thread.mayBlock, hw, hu, Sys.at,
      Sys.actor, Sys.post]

/-- An actor created by a task of the runtime with `new_actor_blocking` is there and will run, and is registered if it is
tracked; but the call panics, so that nobody has a reference to it. -/
theorem C118_inside_refuted (ops : List (Op M)) (c j : Nat) (hc : (run W ops).calls c = .idle)
    (hj : (run W ops).acts j = none) :
    (run W (ops ++ [.call c (some .inside) (.create j)])).calls c = .panicked ∧
    (run W (ops ++ [.call c (some .inside) (.create j)])).acts j = some (Actor.init (W.value j)) ∧
    (W.tracked j = true → (run W ops).up = true →
      (run W (ops ++ [.call c (some .inside) (.create j)])).queue = (run W ops).queue ++ [(c, j)]) := by
  refine ⟨(C118_panics ops c .inside (.create j) hc).mpr ⟨by simp, hj⟩, ?_, ?_⟩
  all_goals
    rw [run_snoc]
    generalize run W ops = σ at *
    simp only [Sys.step, Sys.call, hc, hj, Sys.createBlocking, Thread.maySpawn, Thread.mayBlock, if_true]
  · (repeat' split) <;> simp [Sys.at, Sys.actor, Sys.post]
  · intro ht hu
    simp [ht, hu, Sys.at, Sys.actor, Sys.post]

/-- On a thread that knows of no runtime `new_actor_blocking` always panics, and there is no actor. -/
theorem C118_outside_refuted (ops : List (Op M)) (c j : Nat) (hc : (run W ops).calls c = .idle)
    (hj : (run W ops).acts j = none) :
    (run W (ops ++ [.call c (some .outside) (.create j)])).calls c = .panicked ∧
    (run W (ops ++ [.call c (some .outside) (.create j)])).acts = (run W ops).acts := by
  refine ⟨(C118_panics ops c .outside (.create j) hc).mpr ⟨by simp, hj⟩, ?_⟩
  rw [run_snoc]
  simp [Sys.step, Sys.call, hc, hj, Sys.createBlocking, Thread.maySpawn, Sys.at]

/-! ## Cases -/

/-- an actor that adds up what it is told, cannot start with 13, and stops at 99 -/
def adder : Behav Nat Nat Nat where
  started := fun s => if s = 13 then .done s () true else .done s () false
  handle := fun s m => if m = 99 then .done s s true else .done (s + m) (s + m) false
  stopped := fun s => .done s () false

/-- Actor 0 is tracked, actor 1 is not, actor 2 does not start. -/
def adders : World Nat Nat Nat where
  code := fun _ => adder
  value := fun j => if j = 2 then 13 else 0
  tracked := fun j => j = 0
  id := fun j => toString j

/-- A day with blocking calls: two actors created by a thread of the runtime's blocking pool, requests from threads
outside. -/
def day : List (Op Nat) :=
  [.call 0 (some .entered) (.create 0), .tick 0 false, .sched, .wake 0,
   .call 1 (some .entered) (.create 2), .tick 2 false, .tick 2 false, .wake 1,
   .call 2 (some .outside) (.send 0 (.user 5)), .call 3 (some .entered) (.send 0 (.user 7)),
   .tick 0 false, .tick 0 false, .wake 2, .tick 0 false, .tick 0 false, .wake 3,
   .call 4 (some .outside) (.stop 0), .call 5 (some .outside) (.send 0 (.user 1)),
   .tick 0 false, .tick 0 false, .tick 0 false, .dereg 0 true, .wake 4, .wake 5,
   .call 6 (some .inside) (.send 0 (.user 1))]

example : (∀ op ∈ day.take 24, op.wellPlaced) ∧
    (List.range 7).map (run adders day).calls =
      [.returned (.ref 0), .returned .startFailed, .returned (.result (.user 5)), .returned (.result (.user 12)),
       .returned .ok, .returned .closed, .returned .invalid] ∧
    (run adders day).reg = [("0", 0)] ∧
    (run adders (day.take 8)).acts 1 = none := by
  refine ⟨by simp [day, Op.wellPlaced], by decide +kernel, by decide +kernel, by decide +kernel⟩

/-- A handler that calls `send_blocking` panics, with the message on its way: the actor asked handles it, counts it and
answers into nothing. -/
theorem C118_silent_refuted : ∃ (ops : List (Op Nat)) (st : St Nat Nat Nat),
    (run adders ops).calls 1 = .panicked ∧ (run adders ops).acts 0 = some st ∧
    finished st.log = [⟨1, .user 5, true⟩] ∧ replies st.log = [(1, .user 5)] ∧ st.actor = 5 ∧
    (run adders (ops.map Op.awaited)).calls 1 = .returned (.result (.user 5)) :=
  ⟨[.call 0 none (.create 0), .tick 0 false, .sched, .wake 0, .call 1 (some .inside) (.send 0 (.user 5)),
    .tick 0 false, .tick 0 false, .wake 1], _, by decide +kernel, rfl, by decide +kernel, by decide +kernel,
    by decide +kernel, by decide +kernel⟩

/-- callers that wait while the scheduler has other registrations before theirs -/
example : (run adders [.call 0 none (.create 1), .call 1 (some .entered) (.create 0)]).calls 1 = .register 0 ∧
    (run adders [.call 0 none (.create 1), .call 1 (some .entered) (.create 0)]).calls 0 = .start 1 ∧
    (run adders [.call 0 none (.create 1), .call 1 (some .entered) (.create 0), .schedEnds]).calls 1 = .start 0 := by
  decide +kernel

example : (run adders [.schedEnds, .call 1 none (.create 0)]).calls 1 = .start 0 ∧
    (run adders [.call 1 none (.create 0)]).calls 1 = .register 0 := by
  decide

end Verif.Actor.Blocking
