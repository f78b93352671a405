import Verif.Remote.ServerModel

/-!
# C57: a bad connection does not affect the others
-/

namespace Verif.Remote

/-- the full claim: whatever has happened before, a new connection can still become a session. -/
def C57_full : Prop :=
  ∀ before : List ServerOp, ∃ (after : List ServerOp) (sid : Nat),
    sid ∉ (Server.init.run before).established ∧
    sid ∈ ((Server.init.run before).run after).established

/-! ### Who waits for whom -/

/-- the connections announced to the store and not yet taken up. -/
def news (l : List StoreMsg) : List Nat := l.filterMap fun
  | .newSession sid => some sid
  | .closed _ => none

inductive Phase (σ : Server) : Prop
  | free (ha : σ.accept = .free) (hs : σ.store = .idle) (hn : news σ.inbox = [])
      (hv : ∀ x, σ.sess x ≠ .validating)
  | announced (ha : σ.accept = .waiting σ.count) (hs : σ.store = .idle)
      (hn : news σ.inbox = [σ.count]) (hv : ∀ x, σ.sess x ≠ .validating)
      (hc : σ.sess σ.count = .none) (he : σ.count ∉ σ.established)
  | starting (ha : σ.accept = .waiting σ.count) (hs : σ.store = .starting σ.count)
      (hn : news σ.inbox = []) (hv : ∀ x, σ.sess x = .validating → x = σ.count)
      (hc : σ.sess σ.count = .validating ∨ σ.sess σ.count = .closing)
      (he : σ.count ∉ σ.established)
  | dead (ha : σ.accept = .free) (hs : σ.store = .dead) (hn : σ.inbox = [])
      (hv : ∀ x, σ.sess x ≠ .validating)

structure SInv (σ : Server) : Prop where
  phase : Phase σ
  fresh : ∀ sid, σ.count < sid → σ.sess sid = .none
  est : ∀ sid ∈ σ.established, sid ≤ σ.count
  clos : ∀ sid, .closed sid ∈ σ.inbox → σ.sess sid = .closing ∨ σ.sess sid = .gone

theorem SInv.init : SInv Server.init :=
  ⟨.free rfl rfl rfl (by simp [Server.init]), by simp [Server.init], by simp [Server.init],
    by simp [Server.init]⟩

theorem news_snoc_closed (l : List StoreMsg) (sid : Nat) : news (l ++ [.closed sid]) = news l := by
  simp [news, List.filterMap_append]

theorem news_snoc_new (l : List StoreMsg) (sid : Nat) :
    news (l ++ [.newSession sid]) = news l ++ [sid] := by
  simp [news, List.filterMap_append]

theorem news_cons_new (l : List StoreMsg) (sid : Nat) :
    news (.newSession sid :: l) = sid :: news l := by
  simp [news]

theorem news_cons_closed (l : List StoreMsg) (sid : Nat) :
    news (.closed sid :: l) = news l := by
  simp [news]

theorem SInv.close {σ : Server} (h : SInv σ) (sid : Nat)
    (hs : σ.sess sid = .running ∨ σ.sess sid = .validating) : SInv (σ.closeSession sid) := by
  obtain ⟨acc, st, inbox, sess, count, est⟩ := σ
  obtain ⟨hp, hf, he, hcl⟩ := h
  have hle : sid ≤ count := by
    apply Classical.byContradiction
    intro hn
    have := hf sid (by simp only; omega)
    simp only at hs this
    rw [this] at hs; simp at hs
  have hset : ∀ s x, s ≠ .validating → setSess sess sid s x = .validating → sess x = .validating := by
    intro s x hne hx
    simp only [setSess] at hx
    split at hx
    · exact absurd hx hne
    · exact hx
  have hfr : ∀ s x, count < x → setSess sess sid s x = .none := by
    intro s x hx
    simp only [setSess]
    rw [if_neg (by omega)]; exact hf x hx
  cases hp with
  | free ha hst hn hv =>
    simp only at ha hst hn hv; subst ha hst
    simp only [Server.closeSession]
    refine ⟨.free rfl rfl (by simpa [news_snoc_closed] using hn) ?_, hfr _, he, ?_⟩
    · intro x hx; exact hv x (hset _ x (by simp) hx)
    · intro x hx
      simp only [List.mem_append, List.mem_singleton, StoreMsg.closed.injEq] at hx
      simp only [setSess]; split
      · exact .inl rfl
      · rcases hx with hx | hx
        · exact hcl x hx
        · contradiction
  | announced ha hst hn hv hc he' =>
    simp only at ha hst hn hv hc he'; subst ha hst
    simp only [Server.closeSession]
    refine ⟨.announced rfl rfl (by simpa [news_snoc_closed] using hn) ?_ ?_ he', hfr _, he, ?_⟩
    · intro x hx; exact hv x (hset _ x (by simp) hx)
    · simp only [setSess]; split
      · rename_i h; subst h; simp only at hs; rw [hc] at hs; simp at hs
      · exact hc
    · intro x hx
      simp only [List.mem_append, List.mem_singleton, StoreMsg.closed.injEq] at hx
      simp only [setSess]; split
      · exact .inl rfl
      · rcases hx with hx | hx
        · exact hcl x hx
        · contradiction
  | starting ha hst hn hv hc he' =>
    simp only at ha hst hn hv hc he'; subst ha hst
    simp only [Server.closeSession]
    refine ⟨.starting rfl rfl (by simpa [news_snoc_closed] using hn) ?_ ?_ he', hfr _, he, ?_⟩
    · intro x hx; exact hv x (hset _ x (by simp) hx)
    · simp only [setSess]; split
      · exact .inr rfl
      · exact hc
    · intro x hx
      simp only [List.mem_append, List.mem_singleton, StoreMsg.closed.injEq] at hx
      simp only [setSess]; split
      · exact .inl rfl
      · rcases hx with hx | hx
        · exact hcl x hx
        · contradiction
  | dead ha hst hn hv =>
    simp only at ha hst hn hv; subst ha hst hn
    simp only [Server.closeSession]
    refine ⟨.dead rfl rfl rfl ?_, hfr _, he, by simp⟩
    intro x hx; exact hv x (hset _ x (by simp) hx)

theorem SInv.step {σ : Server} (h : SInv σ) (op : ServerOp) : SInv (σ.step op) := by
  have h0 := h
  obtain ⟨acc, st, inbox, sess, count, est⟩ := σ
  obtain ⟨hp, hf, he, hcl⟩ := h
  cases op with
  | connect =>
    cases hp with
    | free ha hs hn hv =>
      simp only at ha hs hn hv; subst ha hs
      simp only [Server.step]
      refine ⟨.announced rfl rfl (by simp [news_snoc_new, hn]) hv (hf _ (by simp)) ?_, ?_, ?_, ?_⟩
      · intro hm; have := he _ hm; simp only at this; omega
      · intro x hx; exact hf x (by simp only at hx ⊢; omega)
      · intro x hx; have := he x hx; simp only at this ⊢; omega
      · intro x hx
        simp only [List.mem_append, List.mem_singleton, reduceCtorEq, or_false] at hx
        exact hcl x hx
    | announced ha hs hn hv hc he' =>
      simp only at ha; subst ha; exact h0
    | starting ha hs hn hv hc he' =>
      simp only at ha; subst ha; exact h0
    | dead ha hs hn hv =>
      simp only at ha hs hn hv; subst ha hs hn
      simp only [Server.step]
      refine ⟨.dead rfl rfl rfl hv, ?_, ?_, by simp⟩
      · intro x hx; exact hf x (by simp only at hx ⊢; omega)
      · intro x hx; have := he x hx; simp only at this ⊢; omega
  | storeStep =>
    have hgone : ∀ sid r, inbox = .closed sid :: r →
        (∀ x, count < x → setSess sess sid .gone x = .none) ∧
        (∀ x, .closed x ∈ r → setSess sess sid .gone x = .closing ∨ setSess sess sid .gone x = .gone) ∧
        (∀ x, setSess sess sid .gone x = .validating → sess x = .validating) := by
      intro sid r hi
      refine ⟨?_, ?_, ?_⟩
      · intro x hx
        simp only [setSess]
        split
        · rename_i hxs
          have h1 := hcl sid (by simp [hi])
          have h2 := hf x hx
          simp only at h1 h2
          rw [← hxs, h2] at h1; simp at h1
        · exact hf x hx
      · intro x hx
        simp only [setSess]; split
        · exact .inr rfl
        · exact hcl x (by simp [hi, hx])
      · intro x hx
        simp only [setSess] at hx; split at hx
        · cases hx
        · exact hx
    cases hp with
    | free ha hs hn hv =>
      simp only at ha hs hn hv; subst ha hs
      rcases inbox with _ | ⟨m, r⟩
      · exact h0
      · rcases m with sid | sid
        · simp [news] at hn
        · simp only [Server.step]
          obtain ⟨g1, g2, g3⟩ := hgone sid r rfl
          exact ⟨.free rfl rfl (by rw [news_cons_closed] at hn; exact hn)
            (fun x hx => hv x (g3 x hx)), g1, he, g2⟩
    | announced ha hs hn hv hc he' =>
      simp only at ha hs hn hv hc he'; subst ha hs
      rcases inbox with _ | ⟨m, r⟩
      · exact h0
      · rcases m with sid | sid
        · simp only [Server.step]
          rw [news_cons_new] at hn
          simp only [List.cons.injEq] at hn
          obtain ⟨rfl, hn⟩ := hn
          refine ⟨.starting rfl rfl hn ?_ (.inl (by simp [setSess])) he', ?_, he, ?_⟩
          · intro x hx
            simp only [setSess] at hx; split at hx
            · assumption
            · exact absurd hx (hv x)
          · intro x hx
            simp only [setSess]; rw [if_neg (by simp only at hx; omega)]; exact hf x hx
          · intro x hx
            have := hcl x (by simp [hx])
            simp only [setSess]; split
            · rename_i hxs; subst hxs; simp only at this; rw [hc] at this; simp at this
            · exact this
        · simp only [Server.step]
          obtain ⟨g1, g2, g3⟩ := hgone sid r rfl
          refine ⟨.announced rfl rfl (by rw [news_cons_closed] at hn; exact hn)
            (fun x hx => hv x (g3 x hx)) ?_ he', g1, he, g2⟩
          simp only [setSess]; split
          · rename_i hxs
            have := hcl sid (by simp)
            simp only at this
            rw [← hxs, hc] at this; simp at this
          · exact hc
    | starting ha hs hn hv hc he' => simp only at hs; subst hs; exact h0
    | dead ha hs hn hv => simp only at hs; subst hs; exact h0
  | firstFrame sid v =>
    simp only [Server.step]
    split
    · rename_i hval
      cases v with
      | no => exact h0.close sid (.inr hval)
      | yes =>
        cases hp with
        | free ha hs hn hv => exact absurd hval (hv sid)
        | announced ha hs hn hv hc he' => exact absurd hval (hv sid)
        | dead ha hs hn hv => exact absurd hval (hv sid)
        | starting ha hs hn hv hc he' =>
          obtain rfl := hv sid hval
          simp only at ha hs hn hv hc he' hval ⊢
          refine ⟨.free rfl rfl hn ?_, ?_, ?_, ?_⟩
          · intro x hx
            simp only [setSess] at hx; split at hx
            · cases hx
            · rename_i h; exact h (hv x hx)
          · intro x hx
            simp only [setSess]; rw [if_neg (by simp only at hx; omega)]; exact hf x hx
          · intro x hx
            simp only [List.mem_append, List.mem_singleton] at hx
            rcases hx with hx | rfl
            · exact he x hx
            · simp
          · intro x hx
            have := hcl x hx
            simp only [setSess]; split
            · rename_i hxs; subst hxs; simp only at this; rw [hval] at this; simp at this
            · exact this
      | panic =>
        simp only
        refine ⟨.dead rfl rfl rfl ?_, ?_, he, by simp⟩
        · intro x hx
          simp only at hx
          split at hx
          · cases hx
          · rename_i h
            have hx' : sess x = .validating := hx
            cases hp with
            | free ha hs hn hv => exact absurd hx' (hv x)
            | announced ha hs hn hv hc he' => exact absurd hx' (hv x)
            | dead ha hs hn hv => exact absurd hx' (hv x)
            | starting ha hs hn hv hc he' =>
              exact h (.inl ((hv x hx').trans (hv sid hval).symm))
        · intro x hx
          have h1 := hf x hx
          simp only at h1 hval ⊢
          rw [if_neg]
          · exact h1
          · rintro (rfl | h2)
            · rw [h1] at hval; cases hval
            · rw [h1] at h2; cases h2
    · exact h0
  | sessionEnds sid =>
    simp only [Server.step]
    split
    · rename_i h; exact h0.close sid (.inl h)
    · exact h0

theorem SInv.run {σ : Server} (h : SInv σ) (ops : List ServerOp) : SInv (σ.run ops) := by
  induction ops generalizing σ with
  | nil => exact h
  | cons op ops ih => exact ih (h.step op)

/-! ### One refused connection -/

/-- the store waits for a session that waits for the store. -/
def Deadlocked (σ : Server) : Prop := ∃ sid, σ.store = .starting sid ∧ ∀ x, σ.sess x ≠ .validating

theorem deadlocked_step {σ : Server} (h : SInv σ) (hd : Deadlocked σ) (op : ServerOp) :
    Deadlocked (σ.step op) ∧ (σ.step op).established = σ.established := by
  obtain ⟨sid, hs, hv⟩ := hd
  have hacc : ∃ y, σ.accept = .waiting y := by
    cases h.phase with
    | free ha hs' hn hv => rw [hs] at hs'; cases hs'
    | announced ha hs' hn hv hc he' => exact ⟨_, ha⟩
    | starting ha hs' hn hv hc he' => exact ⟨_, ha⟩
    | dead ha hs' hn hv => rw [hs] at hs'; cases hs'
  obtain ⟨y, ha⟩ := hacc
  cases op with
  | connect => simp only [Server.step, ha]; exact ⟨⟨sid, hs, hv⟩, trivial⟩
  | storeStep => simp only [Server.step, hs]; exact ⟨⟨sid, hs, hv⟩, by simp⟩
  | firstFrame x v => simp only [Server.step, if_neg (hv x)]; exact ⟨⟨sid, hs, hv⟩, by simp⟩
  | sessionEnds x =>
    simp only [Server.step]
    split
    · simp only [Server.closeSession, hs]
      refine ⟨⟨sid, rfl, ?_⟩, trivial⟩
      intro z hz
      simp only [setSess] at hz
      split at hz
      · cases hz
      · exact hv z hz
    · exact ⟨⟨sid, hs, hv⟩, rfl⟩

theorem deadlocked_run {σ : Server} (h : SInv σ) (hd : Deadlocked σ) (ops : List ServerOp) :
    (σ.run ops).established = σ.established := by
  induction ops generalizing σ with
  | nil => rfl
  | cons op ops ih =>
    obtain ⟨h1, h2⟩ := deadlocked_step h hd op
    exact (ih (h.step op) h1).trans h2

/-- **C57, what really happens.** From every reachable state: as soon as one connection is refused by
the token check, no connection ever becomes a session again, whatever anybody does afterwards. -/
theorem C57_refusal_blocks_everything (before after : List ServerOp) (sid : Nat)
    (hv : (Server.init.run before).sess sid = .validating) :
    (((Server.init.run before).step (.firstFrame sid .no)).run after).established =
      (Server.init.run before).established := by
  have hinv := SInv.init.run before
  generalize Server.init.run before = σ at hinv hv
  have hst : σ.store = .starting sid ∧ ∀ x, σ.sess x = .validating → x = sid := by
    cases hinv.phase with
    | free ha hs hn hv' => exact absurd hv (hv' sid)
    | announced ha hs hn hv' hc he' => exact absurd hv (hv' sid)
    | dead ha hs hn hv' => exact absurd hv (hv' sid)
    | starting ha hs hn hv' hc he' =>
      have := hv' sid hv
      exact ⟨by rw [hs, this], fun x hx => by rw [this]; exact hv' x hx⟩
  have hstep : σ.step (.firstFrame sid .no) =
      { σ with sess := setSess σ.sess sid .closing, inbox := σ.inbox ++ [.closed sid] } := by
    simp only [Server.step, if_pos hv, Server.closeSession, hst.1]
  have hd : Deadlocked (σ.step (.firstFrame sid .no)) := by
    rw [hstep]
    refine ⟨sid, hst.1, ?_⟩
    intro x hx
    simp only [setSess] at hx
    split at hx
    · cases hx
    · rename_i h; exact h (hst.2 x hx)
  rw [deadlocked_run (hinv.step _) hd after, hstep]

theorem dead_run {σ : Server} (h : SInv σ) (hd : σ.store = .dead) (ops : List ServerOp) :
    (σ.run ops).established = σ.established := by
  induction ops generalizing σ with
  | nil => rfl
  | cons op ops ih =>
    have hv : ∀ x, σ.sess x ≠ .validating := by
      cases h.phase with
      | free ha hs hn hv => exact hv
      | announced ha hs hn hv hc he' => exact hv
      | starting ha hs hn hv hc he' => rw [hd] at hs; cases hs
      | dead ha hs hn hv => exact hv
    have : (σ.step op).store = .dead ∧ (σ.step op).established = σ.established := by
      cases op with
      | connect => simp only [Server.step]; split <;> simp [hd]
      | storeStep => simp [Server.step, hd]
      | firstFrame x v => simp [Server.step, if_neg (hv x), hd]
      | sessionEnds x =>
        simp only [Server.step]
        split
        · simp [Server.closeSession, hd]
        · exact ⟨hd, rfl⟩
    exact (ih (h.step op) this.1).trans this.2

/-- **C57, what really happens.** A first frame that makes the reader panic (a known tag with a body
that is not protobuf, `C20_malformed_body_panics`) kills the session store: no connection ever becomes
a session again. -/
theorem C57_malformed_frame_kills_store (before after : List ServerOp) (sid : Nat)
    (hv : (Server.init.run before).sess sid = .validating) :
    (((Server.init.run before).step (.firstFrame sid .panic)).run after).established =
      (Server.init.run before).established := by
  have hinv := SInv.init.run before
  generalize Server.init.run before = σ at hinv hv
  rw [dead_run (hinv.step _) (by simp [Server.step, hv])]
  simp [Server.step, hv]

/-- **C57, what really happens.** A peer that connects and sends nothing keeps everybody else out for
as long as it stays silent. -/
theorem C57_silence_blocks_everything (before after : List ServerOp) (sid : Nat)
    (hv : (Server.init.run before).sess sid = .validating)
    (hsilent : ∀ v, .firstFrame sid v ∉ after) :
    ((Server.init.run before).run after).established = (Server.init.run before).established := by
  have hinv := SInv.init.run before
  generalize Server.init.run before = σ at hinv hv
  induction after generalizing σ with
  | nil => rfl
  | cons op ops ih =>
    have hph := hinv.phase
    have hst : σ.store = .starting sid ∧ σ.accept = .waiting sid ∧
        ∀ x, σ.sess x = .validating → x = sid := by
      cases hph with
      | free ha hs hn hv' => exact absurd hv (hv' sid)
      | announced ha hs hn hv' hc he' => exact absurd hv (hv' sid)
      | dead ha hs hn hv' => exact absurd hv (hv' sid)
      | starting ha hs hn hv' hc he' =>
        have := hv' sid hv
        exact ⟨by rw [hs, this], by rw [ha, this], fun x hx => by rw [this]; exact hv' x hx⟩
    have hstep : (σ.step op).sess sid = .validating ∧ (σ.step op).established = σ.established := by
      cases op with
      | connect => simp [Server.step, hst.2.1, hv]
      | storeStep => simp [Server.step, hst.1, hv]
      | firstFrame x v =>
        have hx : x ≠ sid := by rintro rfl; exact hsilent v (by simp)
        have : σ.sess x ≠ .validating := fun h => hx (hst.2.2 x h)
        simp [Server.step, if_neg this, hv]
      | sessionEnds x =>
        simp only [Server.step]
        split
        · rename_i hr
          have hx : sid ≠ x := by rintro rfl; rw [hv] at hr; cases hr
          simp [Server.closeSession, hst.1, setSess, hx, hv]
        · exact ⟨hv, rfl⟩
    exact (ih (fun v hm => hsilent v (by simp [hm])) _ (hinv.step op) hstep.1).trans hstep.2

/-- **C57 refuted.** -/
theorem C57_refuted : ¬ C57_full := by
  intro h
  obtain ⟨after, sid, h1, h2⟩ := h [.connect, .storeStep, .firstFrame 1 .no]
  have := C57_refusal_blocks_everything [.connect, .storeStep] after 1 (by decide)
  have h3 : (Server.init.run [.connect, .storeStep]).step (.firstFrame 1 .no) =
      Server.init.run [.connect, .storeStep, .firstFrame 1 .no] := rfl
  rw [h3] at this
  rw [this] at h2
  exact h1 h2

/-- no connection has been refused, and none has made the reader panic. -/
def AllGood (ops : List ServerOp) : Prop := ∀ sid v, .firstFrame sid v ∈ ops → v = .yes

theorem good_not_dead {ops : List ServerOp} (hg : AllGood ops) :
    (Server.init.run ops).store ≠ .dead ∧
    ∀ sid, (Server.init.run ops).store = .starting sid → (Server.init.run ops).sess sid = .validating := by
  induction ops using snoc_induction with
  | nil => simp [Server.run, Server.init]
  | snoc ops op ih =>
    have ih' := ih (fun sid v h => hg sid v (by simp [h]))
    have hinv := SInv.init.run ops
    have hrun : Server.init.run (ops ++ [op]) = (Server.init.run ops).step op := by
      simp [Server.run]
    rw [hrun]
    generalize Server.init.run ops = σ at ih' hinv
    obtain ⟨h1, h2⟩ := ih'
    have hclose : ∀ x, σ.sess x = .running → (σ.closeSession x).store ≠ .dead ∧
        ∀ sid, (σ.closeSession x).store = .starting sid → (σ.closeSession x).sess sid = .validating := by
      intro x hx
      unfold Server.closeSession
      split
      · rename_i h; exact absurd h h1
      · refine ⟨h1, ?_⟩
        intro sid hs
        have hv := h2 sid hs
        simp only [setSess]
        split
        · rename_i h; subst h; rw [hv] at hx; cases hx
        · exact hv
    cases op with
    | connect =>
      simp only [Server.step]
      split
      · exact ⟨h1, h2⟩
      · first
          | (split
             · rename_i h; exact absurd h h1
             · exact ⟨h1, h2⟩)
          | exact ⟨h1, h2⟩
    | storeStep =>
      simp only [Server.step]
      split
      · refine ⟨by simp, ?_⟩
        intro sid hs
        simp only [StoreSt.starting.injEq] at hs
        subst hs; simp [setSess]
      · rename_i h _; rw [h]; simp
      · exact ⟨h1, h2⟩
    | firstFrame x v =>
      obtain rfl := hg x v (by simp)
      simp only [Server.step]
      split
      · simp
      · exact ⟨h1, h2⟩
    | sessionEnds x =>
      simp only [Server.step]
      split
      · rename_i h; exact hclose x h
      · exact ⟨h1, h2⟩

theorem drain_to_new (σ : Server) (hs : σ.store = .idle) (sid : Nat) (hn : news σ.inbox = [sid]) :
    ∃ n, (σ.run (List.replicate n .storeStep)).store = .starting sid ∧
      (σ.run (List.replicate n .storeStep)).sess sid = .validating ∧
      (σ.run (List.replicate n .storeStep)).established = σ.established := by
  generalize hl : σ.inbox = l at hn
  induction l generalizing σ with
  | nil => simp [news] at hn
  | cons m r ih =>
    rcases m with x | x
    · rw [news_cons_new] at hn
      simp only [List.cons.injEq] at hn
      obtain ⟨rfl, _⟩ := hn
      refine ⟨1, ?_⟩
      simp [Server.run, Server.step, hs, hl, setSess]
    · rw [news_cons_closed] at hn
      have hstep : σ.step .storeStep = { σ with inbox := r, sess := setSess σ.sess x .gone } := by
        simp only [Server.step, hs, hl]
      obtain ⟨n, h1, h2, h3⟩ := ih (σ.step .storeStep) (by rw [hstep]; exact hs) (by rw [hstep]) hn
      refine ⟨n + 1, ?_⟩
      have : σ.run (List.replicate (n + 1) .storeStep) =
          (σ.step .storeStep).run (List.replicate n .storeStep) := by
        simp [Server.run, List.replicate_succ]
      rw [this]
      exact ⟨h1, h2, by rw [h3, hstep]⟩

/-- **C57, as far as it holds.** While every peer presents a good token and speaks up, a new connection
can always become a session. What is missing: peers that are refused, malformed or silent. -/
theorem C57_good_peers_partial (before : List ServerOp) (hg : AllGood before) :
    ∃ (after : List ServerOp) (sid : Nat), AllGood after ∧
      sid ∉ (Server.init.run before).established ∧
      sid ∈ ((Server.init.run before).run after).established := by
  have hinv := SInv.init.run before
  obtain ⟨hnd, hst⟩ := good_not_dead hg
  generalize Server.init.run before = σ at hinv hnd hst
  have hann : ∀ τ : Server, SInv τ → τ.store = .idle → ∀ sid, news τ.inbox = [sid] →
      ∃ after, AllGood after ∧ sid ∈ (τ.run after).established := by
    intro τ hτ hs sid hn
    obtain ⟨n, h1, h2, h3⟩ := drain_to_new τ hs sid hn
    refine ⟨List.replicate n .storeStep ++ [.firstFrame sid .yes], ?_, ?_⟩
    · intro x v hm
      simp only [List.mem_append, List.mem_replicate, reduceCtorEq, and_false, List.mem_singleton,
        ServerOp.firstFrame.injEq, false_or] at hm
      exact hm.2
    · have : τ.run (List.replicate n .storeStep ++ [.firstFrame sid .yes]) =
          (τ.run (List.replicate n .storeStep)).step (.firstFrame sid .yes) := by
        simp [Server.run]
      rw [this]
      simp [Server.step, h2]
  cases hinv.phase with
  | dead ha hs hn hv => exact absurd hs hnd
  | starting ha hs hn hv hc he' =>
    refine ⟨[.firstFrame σ.count .yes], σ.count, ?_, he', ?_⟩
    · intro x v hm; simp at hm; exact hm.2
    · simp [Server.run, Server.step, hst _ hs]
  | announced ha hs hn hv hc he' =>
    obtain ⟨after, h1, h2⟩ := hann σ hinv hs σ.count hn
    exact ⟨after, σ.count, h1, he', h2⟩
  | free ha hs hn hv =>
    have hstep : σ.step .connect = { σ with
        accept := .waiting (σ.count + 1)
        count := σ.count + 1
        inbox := σ.inbox ++ [.newSession (σ.count + 1)] } := by
      simp only [Server.step, ha, hs]
    obtain ⟨after, h1, h2⟩ := hann (σ.step .connect) (hinv.step _) (by rw [hstep]; exact hs)
      (σ.count + 1) (by rw [hstep]; simp [news_snoc_new, hn])
    refine ⟨.connect :: after, σ.count + 1, ?_, ?_, h2⟩
    · intro x v hm; simp at hm; exact h1 x v hm
    · intro hm; have := hinv.est _ hm; omega

/-! Concrete cases: two good connections; then one is refused and a third waits for ever. -/
example : (Server.init.run [.connect, .storeStep, .firstFrame 1 .yes, .connect, .storeStep,
    .firstFrame 2 .yes]).established = [1, 2] := by decide
example : (Server.init.run [.connect, .storeStep, .firstFrame 1 .yes, .connect, .storeStep]).sess 2 =
    .validating := by decide
example : AllGood [.connect, .storeStep, .firstFrame 1 .yes] := by
  intro sid v h; simp at h; exact h.2

end Verif.Remote
