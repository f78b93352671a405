import Verif.Actor.BlockingSpec
import Verif.Actor.Props
import Verif.Util

namespace Verif.Actor.Blocking

variable {S M R : Type} {W : World S M R}

theorem run_snoc (ops : List (Op M)) (op : Op M) : run W (ops ++ [op]) = (run W ops).step W op := by
  simp [run]

theorem at_self (σ : Sys S M R) (c : Nat) (v : Call R) : (σ.at c v).calls c = v := by simp [Sys.at]

theorem at_other (σ : Sys S M R) (c k : Nat) (v : Call R) (h : k ≠ c) :
    (σ.at c v).calls k = σ.calls k := by simp [Sys.at, h]

/-- A call from a good place is the awaited call. -/
theorem step_wellPlaced (σ : Sys S M R) (op : Op M) (h : op.wellPlaced) :
    σ.step W op = σ.step W op.awaited := by
  cases op with
  | call c t k =>
    cases t with
    | none => rfl
    | some t =>
      simp only [Op.awaited, Sys.step, Sys.call]
      split
      · cases k with
        | send a b =>
          cases t <;> simp [Op.wellPlaced] at h <;>
            cases ha : σ.acts a <;> simp [ha, Sys.sendBlocking, Sys.send, Thread.mayBlock]
        | stop a =>
          cases t <;> simp [Op.wellPlaced] at h <;>
            cases ha : σ.acts a <;> simp [ha, Sys.stopBlocking, Sys.stop, Thread.mayBlock]
        | tell a b => rfl
        | create j =>
          simp only [Op.wellPlaced] at h
          subst h
          cases ha : σ.acts j <;> simp [ha, Sys.createBlocking, Sys.create, Thread.mayBlock, Thread.maySpawn]
      · rfl
  | _ => rfl

/-! ## What the actors see -/

/-- The callers of the two systems are at the same point, or the first has panicked. -/
structure Near (σ τ : Sys S M R) : Prop where
  same : SameActors σ τ
  calls : ∀ c, σ.calls c = τ.calls c ∨ (σ.calls c = .panicked ∧ τ.calls c ≠ .idle)

theorem Near.at {σ τ : Sys S M R} (h : Near σ τ) (c : Nat) (v w : Call R)
    (hv : v = w ∨ (v = .panicked ∧ w ≠ .idle)) : Near (σ.at c v) (τ.at c w) := by
  refine ⟨h.same, fun k => ?_⟩
  by_cases hk : k = c
  · subst hk; rw [at_self, at_self]; exact hv
  · rw [at_other _ _ _ _ hk, at_other _ _ _ _ hk]; exact h.calls k

theorem Near.actor {σ τ : Sys S M R} (h : Near σ τ) (a : Nat) (st : St S M R) :
    Near (σ.actor a st) (τ.actor a st) := by
  refine ⟨⟨?_, h.same.2.1, h.same.2.2.1, h.same.2.2.2⟩, h.calls⟩
  simp only [Sys.actor, h.same.1]

theorem Near.post {σ τ : Sys S M R} (h : Near σ τ) (c j : Nat) :
    Near (σ.post c j) (τ.post c j) := by
  refine ⟨⟨h.same.1, ?_, h.same.2.2.1, h.same.2.2.2⟩, h.calls⟩
  simp only [Sys.post, h.same.2.1]

theorem Near.idle {σ τ : Sys S M R} (h : Near σ τ) (c : Nat) : σ.calls c = .idle ↔ τ.calls c = .idle := by
  rcases h.calls c with e | ⟨e, e'⟩
  · rw [e]
  · rw [e]; simp [e']

theorem Near.call {σ τ : Sys S M R} (h : Near σ τ) (c : Nat) (t : Option Thread) (k : Kind M)
    (ho : ¬ (Op.call c t k).createsOutside) : Near (σ.call W c t k) (τ.call W c none k) := by
  unfold Sys.call
  have hi := h.idle c
  cases hc : σ.calls c with
  | idle =>
    rw [hi.mp hc]
    cases k with
    | send a b =>
      simp only [h.same.1]
      cases τ.acts a with
      | none => exact h
      | some st =>
        cases t with
        | none =>
          simp only [Sys.send]
          split <;> exact (h.actor a _).at c _ _ (.inl rfl)
        | some t =>
          simp only [Sys.send, Sys.sendBlocking]
          split
          · split
            · exact (h.actor a _).at c _ _ (.inl rfl)
            · exact (h.actor a _).at c _ _ (.inr ⟨rfl, by simp⟩)
          · exact (h.actor a _).at c _ _ (.inl rfl)
    | stop a =>
      simp only [h.same.1]
      cases τ.acts a with
      | none => exact h
      | some st =>
        cases t with
        | none =>
          simp only [Sys.stop]
          split <;> exact (h.actor a _).at c _ _ (.inl rfl)
        | some t =>
          simp only [Sys.stop, Sys.stopBlocking]
          split
          · split
            · exact (h.actor a _).at c _ _ (.inl rfl)
            · exact (h.actor a _).at c _ _ (.inr ⟨rfl, by simp⟩)
          · exact (h.actor a _).at c _ _ (.inl rfl)
    | tell a b =>
      simp only [h.same.1]
      cases τ.acts a with
      | none => exact h
      | some st =>
        simp only [Sys.tell]
        split <;> exact (h.actor a _).at c _ _ (.inl rfl)
    | create j =>
      simp only [h.same.1]
      cases τ.acts j with
      | some st => exact h
      | none =>
        have hu : (σ.actor j (Actor.init (W.value j))).up = (τ.actor j (Actor.init (W.value j))).up :=
          h.same.2.2.1
        cases t with
        | none =>
          simp only [Sys.create, hu]
          split
          · split
            · exact ((h.actor j _).post _ _).at c _ _ (.inl rfl)
            · exact (h.actor j _).at c _ _ (.inl rfl)
          · exact (h.actor j _).at c _ _ (.inl rfl)
        | some t =>
          have hm : t.maySpawn = true := by
            cases t <;> simp [Op.createsOutside, Thread.maySpawn] at ho ⊢
          simp only [Sys.create, Sys.createBlocking, hm, if_true, hu]
          split
          · split
            · split
              · exact ((h.actor j _).post _ _).at c _ _ (.inl rfl)
              · exact ((h.actor j _).post _ _).at c _ _ (.inr ⟨rfl, by simp⟩)
            · split
              · exact (h.actor j _).at c _ _ (.inl rfl)
              · exact (h.actor j _).at c _ _ (.inr ⟨rfl, by simp⟩)
          · split
            · exact (h.actor j _).at c _ _ (.inl rfl)
            · exact (h.actor j _).at c _ _ (.inr ⟨rfl, by simp⟩)
  | _ =>
    have hn : τ.calls c ≠ .idle := fun e => by have := hi.mpr e; rw [hc] at this; cases this
    simp only
    exact h

theorem past_idle (v : Call R) : v.past = .idle ↔ v = .idle := by
  cases v <;> simp [Call.past]

theorem near_past {v w : Call R} (h : v = w ∨ (v = .panicked ∧ w ≠ .idle)) :
    v.past = w.past ∨ (v.past = .panicked ∧ w.past ≠ .idle) := by
  rcases h with rfl | ⟨rfl, hw⟩
  · exact .inl rfl
  · exact .inr ⟨rfl, fun e => hw ((past_idle w).mp e)⟩

/-- looking at the channel does nothing to a call that is idle, has returned or has panicked -/
theorem wake_shape (σ : Sys S M R) (c : Nat) :
    σ.wake c = σ ∨ ∃ o, σ.wake c = σ.at c (.returned o) ∧ σ.calls c ≠ .idle ∧ σ.calls c ≠ .panicked := by
  unfold Sys.wake
  cases hc : σ.calls c <;> simp only <;> first
    | exact .inl trivial
    | (split
       · exact .inr ⟨_, rfl, by simp, by simp⟩
       · exact .inl rfl)

theorem Near.wake {σ τ : Sys S M R} (h : Near σ τ) (c : Nat) : Near (σ.wake c) (τ.wake c) := by
  rcases h.calls c with e | ⟨e, e'⟩
  · unfold Sys.wake
    rw [← e, h.same.1]
    split
    · split
      · exact h.at c _ _ (.inl rfl)
      · exact h
    · split
      · exact h.at c _ _ (.inl rfl)
      · exact h
    · split
      · exact h.at c _ _ (.inl rfl)
      · exact h
    · exact h
  · have h1 : σ.wake c = σ := by unfold Sys.wake; rw [e]
    rw [h1]
    rcases wake_shape τ c with e2 | ⟨o, e2, _⟩
    · rw [e2]; exact h
    · rw [e2]
      refine ⟨h.same, fun k => ?_⟩
      by_cases hk : k = c
      · subst hk; rw [at_self]; exact .inr ⟨e, by simp⟩
      · rw [at_other _ _ _ _ hk]; exact h.calls k

theorem Near.step {σ τ : Sys S M R} (h : Near σ τ) (op : Op M) (ho : ¬ op.createsOutside) :
    Near (σ.step W op) (τ.step W op.awaited) := by
  cases op with
  | call c t k => exact h.call c t k ho
  | wake c => exact h.wake c
  | tick a down =>
    simp only [Sys.step, Op.awaited, h.same.1]
    split
    · exact h.actor a _
    · exact h
  | dereg a ok =>
    simp only [Sys.step, Op.awaited, h.same.1]
    split
    · exact h.actor a _
    · exact h
  | sched =>
    simp only [Sys.step, Op.awaited, Sys.sched, h.same.2.1]
    split
    · exact h
    · rename_i c j q _
      have h1 : Near { σ with queue := q, reg := σ.reg.insert (W.id j) j }
          { τ with queue := q, reg := τ.reg.insert (W.id j) j } :=
        ⟨⟨h.same.1, rfl, h.same.2.2.1, by simp only [h.same.2.2.2]⟩, h.calls⟩
      exact h1.at c _ _ (near_past (h.calls c))
  | schedEnds =>
    exact ⟨⟨h.same.1, rfl, rfl, h.same.2.2.2⟩, fun c => near_past (h.calls c)⟩

theorem near_run (ops : List (Op M)) (ho : ∀ op ∈ ops, ¬ op.createsOutside) :
    Near (run W ops) (run W (ops.map Op.awaited)) := by
  induction ops using snoc_induction with
  | nil => exact ⟨⟨rfl, rfl, rfl, rfl⟩, fun _ => .inl rfl⟩
  | snoc ops op ih =>
    rw [List.map_append, List.map_singleton, run_snoc, run_snoc]
    exact (ih fun o h => ho o (by simp [h])).step op (ho op (by simp))

/-! ## Each actor is an actor loop on its own -/

/-- the log of an actor only grows -/
theorem log_grows {B : Behav S M R} {tracked : Bool} (st : St S M R) (inp : Input M) (h : StatusOk st) :
    st.log <+: (Actor.step B tracked st inp).log := by
  have hs := step_shape (B := B) (tracked := tracked) st inp h
  generalize Actor.step B tracked st inp = st' at hs
  cases hs <;> first
    | exact List.prefix_refl _
    | (simp only [crash, finalise, List.append_assoc]; exact List.prefix_append _ _)
    | exact List.prefix_append _ _

/-- the log of an actor is still there -/
def Grows (σ τ : Sys S M R) : Prop :=
  ∀ a st, σ.acts a = some st → ∃ st', τ.acts a = some st' ∧ st.log <+: st'.log

theorem Grows.refl (σ : Sys S M R) : Grows σ σ := fun _ st h => ⟨st, h, List.prefix_refl _⟩

theorem Grows.of_acts {σ τ : Sys S M R} (h : τ.acts = σ.acts) : Grows σ τ :=
  fun _ st e => ⟨st, by rw [h]; exact e, List.prefix_refl _⟩

theorem Grows.seen {σ τ : Sys S M R} (h : Grows σ τ) {a : Nat} {e : Ev M R} (hs : σ.seen a e) : τ.seen a e := by
  obtain ⟨st, h1, h2⟩ := hs
  obtain ⟨st', h3, h4⟩ := h a st h1
  exact ⟨st', h3, h4.subset h2⟩

theorem asks_snoc {c : Nat} {k : Kind M} {ops : List (Op M)} (op : Op M) (h : asks c k ops) :
    asks c k (ops ++ [op]) := by
  obtain ⟨t, h⟩ := h
  exact ⟨t, by simp [h]⟩

theorem Truth.mono {σ τ : Sys S M R} (h : Grows σ τ) {ops : List (Op M)} (op : Op M) {c : Nat} {o : Outcome R}
    (ht : Truth σ ops c o) : Truth τ (ops ++ [op]) c o := by
  cases o with
  | result r => obtain ⟨a, b, h1, h2⟩ := ht; exact ⟨a, b, asks_snoc op h1, h.seen h2⟩
  | closed => obtain ⟨a, b, h1, h2⟩ := ht; exact ⟨a, b, asks_snoc op h1, h.seen h2⟩
  | invalid =>
    rcases ht with ⟨k, a, i, h1, h2, h3⟩ | ⟨a, h1, h2⟩
    · exact .inl ⟨k, a, i, asks_snoc op h1, h2, h.seen h3⟩
    · exact .inr ⟨a, asks_snoc op h1, h.seen h2⟩
  | ok =>
    rcases ht with ⟨a, b, h1, h2⟩ | ⟨a, h1, h2⟩
    · exact .inl ⟨a, b, asks_snoc op h1, h.seen h2⟩
    · exact .inr ⟨a, asks_snoc op h1, h.seen h2⟩
  | ref j => exact ⟨asks_snoc op ht.1, h.seen ht.2⟩
  | startFailed => obtain ⟨j, h1, h2⟩ := ht; exact ⟨j, asks_snoc op h1, h.seen h2⟩

/-- what a call that waits waits for -/
def Waits (σ : Sys S M R) (ops : List (Op M)) (c : Nat) : Call R → Prop
  | .answer a => ∃ b, asks c (.send a b) ops ∧ σ.seen a (.accepted ⟨c, b, true⟩)
  | .stopped a => asks c (.stop a) ops ∧ σ.seen a (.accepted ⟨c, .stop true, false⟩)
  | .register j => asks c (.create j) ops ∧ σ.acts j ≠ none
  | .start j => asks c (.create j) ops ∧ σ.acts j ≠ none
  | .returned o => Truth σ ops c o
  | .idle => True
  | .panicked => True

theorem Grows.acts {σ τ : Sys S M R} (h : Grows σ τ) {a : Nat} (hs : σ.acts a ≠ none) : τ.acts a ≠ none := by
  cases e : σ.acts a with
  | none => exact absurd e hs
  | some st => obtain ⟨st', h1, _⟩ := h a st e; rw [h1]; simp

theorem Waits.mono {σ τ : Sys S M R} (h : Grows σ τ) {ops : List (Op M)} (op : Op M) {c : Nat} {v : Call R}
    (ht : Waits σ ops c v) : Waits τ (ops ++ [op]) c v := by
  cases v with
  | answer a => obtain ⟨b, h1, h2⟩ := ht; exact ⟨b, asks_snoc op h1, h.seen h2⟩
  | stopped a => exact ⟨asks_snoc op ht.1, h.seen ht.2⟩
  | register j => exact ⟨asks_snoc op ht.1, h.acts ht.2⟩
  | start j => exact ⟨asks_snoc op ht.1, h.acts ht.2⟩
  | returned o => exact Truth.mono h op ht
  | idle => trivial
  | panicked => trivial

/-- What holds throughout: every actor has gone through an execution of its own, whose requests are the calls made to
it; and every call that waits, waits for a request that was made. -/
structure Inv (W : World S M R) (ops : List (Op M)) (σ : Sys S M R) : Prop where
  alone : ∀ a st, σ.acts a = some st → ∃ ins, st = Actor.run (W.code a) (W.tracked a) (W.value a) ins
    ∧ ((requests ins).map (·.num)).Nodup
    ∧ (∀ i ∈ requests ins, σ.calls i.num ≠ .idle)
    ∧ (∀ i ∈ requests ins, ∃ k, asks i.num k ops ∧ k.item i.num = some (a, i))
  waits : ∀ c, Waits σ ops c (σ.calls c)

/-- An actor's own step. -/
theorem Inv.own {ops : List (Op M)} {σ : Sys S M R} (h : Inv W ops σ) (op : Op M) (a : Nat) (st : St S M R)
    (ha : σ.acts a = some st) (inp : Input M) (hi : requests [inp] = []) :
    Inv W (ops ++ [op]) (σ.actor a (Actor.step (W.code a) (W.tracked a) st inp)) := by
  obtain ⟨ins, e, hn, hc, hk⟩ := h.alone a st ha
  have hg : Grows σ (σ.actor a (Actor.step (W.code a) (W.tracked a) st inp)) := by
    intro b sb hb
    by_cases hba : b = a
    · subst hba
      rw [ha] at hb
      injection hb with hb
      subst hb
      exact ⟨Actor.step (W.code b) (W.tracked b) st inp, by simp [Sys.actor],
        log_grows _ _ (by rw [e]; exact statusOk_run _ _)⟩
    · exact ⟨sb, by simp [Sys.actor, hba, hb], List.prefix_refl _⟩
  refine ⟨fun b sb hb => ?_, fun c => (h.waits c).mono hg op⟩
  by_cases hba : b = a
  · subst hba
    simp only [Sys.actor, if_true, Option.some.injEq] at hb
    subst hb
    have hr : requests (ins ++ [inp]) = requests ins := by
      have : requests (ins ++ [inp]) = requests ins ++ requests [inp] := by simp [requests]
      rw [this, hi, List.append_nil]
    refine ⟨ins ++ [inp], by rw [Actor.run_snoc, e], ?_, ?_, ?_⟩
    · rw [hr]; exact hn
    · rw [hr]; exact hc
    · rw [hr]
      intro i hi
      obtain ⟨k, h1, h2⟩ := hk i hi
      exact ⟨k, asks_snoc op h1, h2⟩
  · simp only [Sys.actor, hba, if_false] at hb
    obtain ⟨ins, e, hn, hc, hk⟩ := h.alone b sb hb
    refine ⟨ins, e, hn, hc, fun i hi => ?_⟩
    obtain ⟨k, h1, h2⟩ := hk i hi
    exact ⟨k, asks_snoc op h1, h2⟩

/-- Only the callers move. -/
theorem Inv.calls {ops : List (Op M)} {σ τ : Sys S M R} (h : Inv W ops σ) (op : Op M) (ha : τ.acts = σ.acts)
    (hi : ∀ c, τ.calls c = .idle → σ.calls c = .idle)
    (hw : ∀ c, Waits τ (ops ++ [op]) c (τ.calls c)) : Inv W (ops ++ [op]) τ := by
  refine ⟨fun a st e => ?_, hw⟩
  rw [ha] at e
  obtain ⟨ins, e, hn, hc, hk⟩ := h.alone a st e
  refine ⟨ins, e, hn, fun i hm e => hc i hm (hi _ e), fun i hi => ?_⟩
  obtain ⟨k, h1, h2⟩ := hk i hi
  exact ⟨k, asks_snoc op h1, h2⟩

/-- A request is made. -/
theorem Inv.put {ops : List (Op M)} {σ : Sys S M R} (h : Inv W ops σ) (c : Nat) (t : Option Thread) (k : Kind M)
    (a : Nat) (st : St S M R) (i : Item M) (v : Call R) (hc : σ.calls c = .idle) (ha : σ.acts a = some st)
    (hk : k.item c = some (a, i)) (hn : i.num = c) (hv : v ≠ .idle)
    (hw : Waits ((σ.actor a (enqueue st i)).at c v) (ops ++ [.call c t k]) c v) :
    Inv W (ops ++ [.call c t k]) ((σ.actor a (enqueue st i)).at c v) := by
  obtain ⟨ins, e, hnd, hci, hki⟩ := h.alone a st ha
  have hg : Grows σ ((σ.actor a (enqueue st i)).at c v) := by
    intro b sb hb
    by_cases hba : b = a
    · subst hba
      rw [ha] at hb
      injection hb with hb
      subst hb
      refine ⟨_, by simp [Sys.actor, Sys.at]; rfl, ?_⟩
      exact log_grows (B := W.code b) (tracked := W.tracked b) st (.send i) (by rw [e]; exact statusOk_run _ _)
    · exact ⟨sb, by simp [Sys.actor, Sys.at, hba, hb], List.prefix_refl _⟩
  refine ⟨fun b sb hb => ?_, fun c' => ?_⟩
  · by_cases hba : b = a
    · subst hba
      simp only [Sys.actor, Sys.at, if_true, Option.some.injEq] at hb
      subst hb
      have hr : requests (ins ++ [.send i]) = requests ins ++ [i] := by simp [requests]
      refine ⟨ins ++ [.send i], by rw [Actor.run_snoc, ← e]; rfl, ?_, ?_, ?_⟩
      · rw [hr, List.map_append, List.map_singleton]
        refine List.nodup_append.mpr ⟨hnd, by simp, ?_⟩
        intro x hx y hy exy
        simp only [List.mem_singleton] at hy
        obtain ⟨j, hj, rfl⟩ := List.mem_map.mp hx
        apply hci j hj
        rw [exy, hy, hn, hc]
      · rw [hr]
        intro j hj
        by_cases hjc : j.num = c
        · rw [hjc, at_self]; exact hv
        · rw [at_other _ _ _ _ hjc]
          rcases List.mem_append.mp hj with hj | hj
          · exact hci j hj
          · simp only [List.mem_singleton] at hj
            subst hj
            exact absurd hn hjc
      · rw [hr]
        intro j hj
        rcases List.mem_append.mp hj with hj | hj
        · obtain ⟨k', h1, h2⟩ := hki j hj
          exact ⟨k', asks_snoc _ h1, h2⟩
        · simp only [List.mem_singleton] at hj
          subst hj
          rw [hn]
          exact ⟨k, ⟨t, by simp⟩, hk⟩
    · simp only [Sys.actor, Sys.at, hba, if_false] at hb
      obtain ⟨ins, e, hn', hc', hk'⟩ := h.alone b sb hb
      refine ⟨ins, e, hn', fun j hj => ?_, fun j hj => ?_⟩
      · by_cases hjc : j.num = c
        · rw [hjc, at_self]; exact hv
        · rw [at_other _ _ _ _ hjc]; exact hc' j hj
      · obtain ⟨k', h1, h2⟩ := hk' j hj
        exact ⟨k', asks_snoc _ h1, h2⟩
  · by_cases hcc : c' = c
    · subst hcc; rw [at_self]; exact hw
    · rw [at_other _ _ _ _ hcc]; exact (h.waits c').mono hg _

/-- An actor is created. -/
theorem Inv.made {ops : List (Op M)} {σ τ : Sys S M R} (h : Inv W ops σ) (c : Nat) (t : Option Thread) (j : Nat)
    (v : Call R) (hj : σ.acts j = none)
    (ha : τ.acts = (σ.actor j (Actor.init (W.value j))).acts)
    (hcs : τ.calls = fun k => if k = c then v else σ.calls k) (hv : v ≠ .idle)
    (hw : v = .register j ∨ v = .start j ∨ v = .panicked) :
    Inv W (ops ++ [.call c t (.create j)]) τ := by
  have hg : Grows σ τ := by
    intro b sb hb
    have hbj : b ≠ j := fun e => by rw [e, hj] at hb; cases hb
    exact ⟨sb, by rw [ha]; simp [Sys.actor, hbj, hb], List.prefix_refl _⟩
  have hid : ∀ k, τ.calls k = .idle → σ.calls k = .idle := by
    intro k e
    rw [hcs] at e
    simp only at e
    split at e
    · exact absurd e hv
    · exact e
  refine ⟨fun b sb hb => ?_, fun c' => ?_⟩
  · rw [ha] at hb
    by_cases hbj : b = j
    · subst hbj
      simp only [Sys.actor, if_true, Option.some.injEq] at hb
      subst hb
      exact ⟨[], rfl, List.nodup_nil, by simp [requests], by simp [requests]⟩
    · simp only [Sys.actor, hbj, if_false] at hb
      obtain ⟨ins, e, hn', hc', hk'⟩ := h.alone b sb hb
      refine ⟨ins, e, hn', fun i hi e => hc' i hi (hid _ e), fun i hi => ?_⟩
      obtain ⟨k', h1, h2⟩ := hk' i hi
      exact ⟨k', asks_snoc _ h1, h2⟩
  · rw [hcs]
    simp only
    split
    · have hj' : τ.acts j ≠ none := by rw [ha]; simp [Sys.actor]
      have hask : asks c' (.create j) (ops ++ [.call c t (.create j)]) := ⟨t, by simp_all⟩
      rcases hw with rfl | rfl | rfl
      · exact ⟨hask, hj'⟩
      · exact ⟨hask, hj'⟩
      · trivial
    · exact (h.waits c').mono hg _

theorem enqueue_alive {st : St S M R} (i : Item M) (h : alive st = true) :
    Ev.accepted i ∈ (enqueue st i).log := by
  unfold alive at h
  unfold enqueue
  cases hp : st.phase <;> simp_all

theorem enqueue_dead {st : St S M R} (i : Item M) (h : ¬ alive st = true) :
    Ev.refused i ∈ (enqueue st i).log := by
  unfold alive at h
  unfold enqueue
  cases hp : st.phase <;> simp_all

theorem seen_put (σ : Sys S M R) (a c : Nat) (st : St S M R) (v : Call R) (e : Ev M R) (h : e ∈ st.log) :
    ((σ.actor a st).at c v).seen a e := ⟨st, by simp [Sys.at, Sys.actor], h⟩

theorem Inv.skip {ops : List (Op M)} {σ : Sys S M R} (h : Inv W ops σ) (op : Op M) : Inv W (ops ++ [op]) σ :=
  h.calls op rfl (fun _ e => e) fun c => (h.waits c).mono (Grows.refl σ) op

theorem Inv.call {ops : List (Op M)} {σ : Sys S M R} (h : Inv W ops σ) (c : Nat) (t : Option Thread) (k : Kind M) :
    Inv W (ops ++ [.call c t k]) (σ.call W c t k) := by
  have hask : asks c k (ops ++ [.call c t k]) := ⟨t, by simp⟩
  unfold Sys.call
  split
  · rename_i hc
    cases k with
    | send a b =>
      simp only
      cases ha : σ.acts a with
      | none => exact h.skip _
      | some st =>
        have hA := fun v => h.put c t (.send a b) a st ⟨c, b, true⟩ v hc ha rfl rfl
        have h1 : alive st = true → Inv W (ops ++ [.call c t (.send a b)])
            ((σ.actor a (enqueue st ⟨c, b, true⟩)).at c (.answer a)) := fun hl =>
          hA _ (by simp) ⟨b, hask, seen_put _ _ _ _ _ _ (enqueue_alive _ hl)⟩
        have h2 : ¬ alive st = true → Inv W (ops ++ [.call c t (.send a b)])
            ((σ.actor a (enqueue st ⟨c, b, true⟩)).at c (.returned .invalid)) := fun hl =>
          hA _ (by simp) (.inl ⟨_, a, _, hask, rfl, seen_put _ _ _ _ _ _ (enqueue_dead _ hl)⟩)
        cases t with
        | none =>
          simp only [Sys.send]
          split
          · exact h1 (by assumption)
          · exact h2 (by assumption)
        | some t =>
          simp only [Sys.sendBlocking]
          split
          · split
            · exact h1 (by assumption)
            · exact hA _ (by simp) trivial
          · exact h2 (by assumption)
    | stop a =>
      simp only
      cases ha : σ.acts a with
      | none => exact h.skip _
      | some st =>
        have hA := fun v => h.put c t (.stop a) a st ⟨c, .stop true, false⟩ v hc ha rfl rfl
        have h1 : alive st = true → Inv W (ops ++ [.call c t (.stop a)])
            ((σ.actor a (enqueue st ⟨c, .stop true, false⟩)).at c (.stopped a)) := fun hl =>
          hA _ (by simp) ⟨hask, seen_put _ _ _ _ _ _ (enqueue_alive _ hl)⟩
        have h2 : ¬ alive st = true → Inv W (ops ++ [.call c t (.stop a)])
            ((σ.actor a (enqueue st ⟨c, .stop true, false⟩)).at c (.returned .invalid)) := fun hl =>
          hA _ (by simp) (.inl ⟨_, a, _, hask, rfl, seen_put _ _ _ _ _ _ (enqueue_dead _ hl)⟩)
        cases t with
        | none =>
          simp only [Sys.stop]
          split
          · exact h1 (by assumption)
          · exact h2 (by assumption)
        | some t =>
          simp only [Sys.stopBlocking]
          split
          · split
            · exact h1 (by assumption)
            · exact hA _ (by simp) trivial
          · exact h2 (by assumption)
    | tell a b =>
      simp only
      cases ha : σ.acts a with
      | none => exact h.skip _
      | some st =>
        have hA := fun v => h.put c t (.tell a b) a st ⟨c, b, false⟩ v hc ha rfl rfl
        simp only [Sys.tell]
        split
        · exact hA _ (by simp) (.inl ⟨a, b, hask, seen_put _ _ _ _ _ _ (enqueue_alive _ (by assumption))⟩)
        · exact hA _ (by simp) (.inl ⟨_, a, _, hask, rfl, seen_put _ _ _ _ _ _ (enqueue_dead _ (by assumption))⟩)
    | create j =>
      simp only
      cases ha : σ.acts j with
      | some st => exact h.skip _
      | none =>
        cases t with
        | none =>
          simp only [Sys.create]
          split
          · split
            · exact h.made c _ j (.register j) ha rfl rfl (by simp) (by simp)
            · exact h.made c _ j (.start j) ha rfl rfl (by simp) (by simp)
          · exact h.made c _ j (.start j) ha rfl rfl (by simp) (by simp)
        | some t =>
          simp only [Sys.createBlocking]
          split
          · split
            · split
              · split
                · exact h.made c _ j (.register j) ha rfl rfl (by simp) (by simp)
                · exact h.made c _ j .panicked ha rfl rfl (by simp) (by simp)
              · split
                · exact h.made c _ j (.start j) ha rfl rfl (by simp) (by simp)
                · exact h.made c _ j .panicked ha rfl rfl (by simp) (by simp)
            · split
              · exact h.made c _ j (.start j) ha rfl rfl (by simp) (by simp)
              · exact h.made c _ j .panicked ha rfl rfl (by simp) (by simp)
          · refine h.calls _ rfl (fun k e => ?_) fun k => ?_
            · by_cases hk : k = c
              · subst hk; exact hc
              · rw [at_other _ _ _ _ hk] at e; exact e
            · by_cases hk : k = c
              · subst hk; rw [at_self]; trivial
              · rw [at_other _ _ _ _ hk]; exact (h.waits k).mono (Grows.of_acts rfl) _
  · exact h.skip _

theorem answerOf_mem {c : Nat} {l : List (Ev M R)} {o : Outcome R} (h : answerOf c l = some o) :
    (∃ r, o = .result r ∧ Ev.replied c r ∈ l) ∨ (o = .closed ∧ Ev.lost c ∈ l) := by
  induction l with
  | nil => simp [answerOf] at h
  | cons e l ih =>
    cases e <;> simp only [answerOf] at h <;> try exact (ih h).imp (by grind) (by grind)
    · split at h
      · rename_i n r hn
        subst hn
        injection h with h
        exact .inl ⟨r, h.symm, by simp⟩
      · exact (ih h).imp (by grind) (by grind)
    · split at h
      · rename_i n hn
        subst hn
        injection h with h
        exact .inr ⟨h.symm, by simp⟩
      · exact (ih h).imp (by grind) (by grind)

theorem stopAnswerOf_mem {c : Nat} {l : List (Ev M R)} {o : Outcome R} (h : stopAnswerOf c l = some o) :
    (o = .ok ∧ Ev.ack c ∈ l) ∨ (o = .invalid ∧ Ev.ackLost c ∈ l) := by
  induction l with
  | nil => simp [stopAnswerOf] at h
  | cons e l ih =>
    cases e <;> simp only [stopAnswerOf] at h <;> try exact (ih h).imp (by grind) (by grind)
    · split at h
      · rename_i n hn
        subst hn
        injection h with h
        exact .inl ⟨h.symm, by simp⟩
      · exact (ih h).imp (by grind) (by grind)
    · split at h
      · rename_i n hn
        subst hn
        injection h with h
        exact .inr ⟨h.symm, by simp⟩
      · exact (ih h).imp (by grind) (by grind)

theorem startAnswerOf_mem {j : Nat} {l : List (Ev M R)} {o : Outcome R} (h : startAnswerOf j l = some o) :
    (o = .ref j ∧ Ev.up ∈ l) ∨ (o = .startFailed ∧ Ev.startFailed ∈ l) := by
  induction l with
  | nil => simp [startAnswerOf] at h
  | cons e l ih =>
    cases e <;> simp only [startAnswerOf] at h <;> try exact (ih h).imp (by grind) (by grind)
    · injection h with h
      exact .inl ⟨h.symm, by simp⟩
    · injection h with h
      exact .inr ⟨h.symm, by simp⟩

theorem Inv.wake {ops : List (Op M)} {σ : Sys S M R} (h : Inv W ops σ) (c : Nat) :
    Inv W (ops ++ [.wake c]) (σ.wake c) := by
  have key : ∀ o, σ.calls c ≠ .idle → Truth σ ops c o →
      Inv W (ops ++ [.wake c]) (σ.at c (.returned o)) := by
    intro o hne ht
    refine h.calls _ rfl (fun k e => ?_) fun k => ?_
    · by_cases hk : k = c
      · subst hk; rw [at_self] at e; cases e
      · rw [at_other _ _ _ _ hk] at e; exact e
    · by_cases hk : k = c
      · subst hk
        rw [at_self]
        exact Truth.mono (Grows.of_acts rfl) _ ht
      · rw [at_other _ _ _ _ hk]; exact (h.waits k).mono (Grows.of_acts rfl) _
  have hw := h.waits c
  unfold Sys.wake
  split
  · rename_i a hc
    split
    · rename_i o ho
      rw [hc] at hw
      obtain ⟨b, h1, st0, h2, _⟩ := hw
      rw [h2] at ho
      refine key o (by rw [hc]; simp) ?_
      rcases answerOf_mem ho with ⟨r, rfl, hm⟩ | ⟨rfl, hm⟩
      · exact ⟨a, b, h1, st0, h2, hm⟩
      · exact ⟨a, b, h1, st0, h2, hm⟩
    · exact h.skip _
  · rename_i a hc
    split
    · rename_i o ho
      rw [hc] at hw
      obtain ⟨h1, st0, h2, _⟩ := hw
      rw [h2] at ho
      refine key o (by rw [hc]; simp) ?_
      rcases stopAnswerOf_mem ho with ⟨rfl, hm⟩ | ⟨rfl, hm⟩
      · exact .inr ⟨a, h1, st0, h2, hm⟩
      · exact .inr ⟨a, h1, st0, h2, hm⟩
    · exact h.skip _
  · rename_i j hc
    split
    · rename_i o ho
      rw [hc] at hw
      obtain ⟨h1, h2⟩ := hw
      cases hj : σ.acts j with
      | none => exact absurd hj h2
      | some st0 =>
        rw [hj] at ho
        refine key o (by rw [hc]; simp) ?_
        rcases startAnswerOf_mem ho with ⟨rfl, hm⟩ | ⟨rfl, hm⟩
        · exact ⟨h1, st0, hj, hm⟩
        · exact ⟨j, h1, st0, hj, hm⟩
    · exact h.skip _
  · exact h.skip _

theorem Waits.past {σ : Sys S M R} {ops : List (Op M)} {c : Nat} {v : Call R} (h : Waits σ ops c v) :
    Waits σ ops c v.past := by
  cases v <;> exact h

theorem Inv.step {ops : List (Op M)} {σ : Sys S M R} (h : Inv W ops σ) (op : Op M) :
    Inv W (ops ++ [op]) (σ.step W op) := by
  cases op with
  | call c t k => exact h.call c t k
  | wake c => exact h.wake c
  | tick a down =>
    simp only [Sys.step]
    split
    · exact h.own _ a _ (by assumption) _ rfl
    · exact h.skip _
  | dereg a ok =>
    simp only [Sys.step]
    split
    · exact h.own _ a _ (by assumption) _ rfl
    · exact h.skip _
  | sched =>
    simp only [Sys.step, Sys.sched]
    split
    · exact h.skip _
    · rename_i c j q _
      refine h.calls _ rfl (fun k e => ?_) fun k => ?_
      · by_cases hk : k = c
        · subst hk; rw [at_self] at e; exact (past_idle _).mp e
        · rw [at_other _ _ _ _ hk] at e; exact e
      · by_cases hk : k = c
        · subst hk
          rw [at_self]
          exact ((h.waits k).past).mono (Grows.of_acts rfl) _
        · rw [at_other _ _ _ _ hk]; exact (h.waits k).mono (Grows.of_acts rfl) _
  | schedEnds =>
    exact h.calls _ rfl (fun k e => (past_idle _).mp e) fun k => ((h.waits k).past).mono (Grows.of_acts rfl) _

theorem inv_run (ops : List (Op M)) : Inv W ops (run W ops) := by
  induction ops using snoc_induction with
  | nil => exact ⟨fun a st e => by simp [run, Sys.init] at e, fun c => trivial⟩
  | snoc ops op ih => rw [run_snoc]; exact ih.step op

end Verif.Actor.Blocking
