import Verif.Singleton.JointRun

namespace Verif.Singleton.Joint

open Verif.Remote.OneLeader (Conf Clu Up Answered Before Good)

/-! ### Steps as the managers see them, when no node is taken for removed -/

inductive Sees (C : Conf) (w w' : Sys) : Prop where
  | still (h1 : w'.cl.mgr = w.cl.mgr) (h2 : ∀ x ∈ w'.cl.net, x ∈ w.cl.net)
  | act (i : Nat) (mop : MOp) (net0 : List (Nat × MMsg)) (hv : w'.cl = act w.cl net0 i mop) (hp : plain mop = true)
      (hsub : ∀ x ∈ net0, x ∈ w.cl.net) (hrec : ∀ m, mop = .recv m → (i, m) ∈ w.cl.net)
      (hup : ∀ l ms, mop = .memberUp l ms → (i, News.memberUp l ms) ∈ w.bus) (hmade : w.made i = true)

def NoRem (w : Sys) : Prop := ∀ i j, (i, News.removed j) ∉ w.bus

theorem sees {C : Conf} {w w' : Sys} {op : JOp} (hn : NoRem w) (ht : Trans C w op w') : Sees C w w' := by
  cases ht with
  | beat o => exact .still rfl (fun _ h => h)
  | added i j => exact .still rfl (fun _ h => h)
  | removed i j => exact .still rfl (fun _ h => h)
  | build i => exact .still rfl (fun _ h => h)
  | idle => exact .still rfl (fun _ h => h)
  | miss i e hm hin => exact .still rfl (fun _ h => h)
  | lose i m hm hin => exact .still rfl (fun _ h => List.mem_of_mem_erase h)
  | hear i e ha hm hin =>
    refine .act i e.op w.cl.net rfl (op_plain e fun j hj => hn i j (hj ▸ hin)) (fun _ h => h) ?_ ?_ hm
    · intro m he; cases e <;> simp [News.op] at he
    · intro l ms he
      cases e <;> simp [News.op] at he
      obtain ⟨rfl, rfl⟩ := he
      exact hin
  | recv i m ha hm hin =>
    exact .act i (.recv m) (w.cl.net.erase (i, m)) rfl rfl (fun _ h => List.mem_of_mem_erase h)
      (by rintro _ ⟨rfl⟩; exact hin) (by simp) hm
  | own op i mop ha hm ho =>
    have hp := own_plain ho
    exact .act i mop w.cl.net rfl hp.1 (fun _ h => h) (fun m e => absurd e (hp.2.1 m)) (fun l ms e => absurd e (hp.2.2.1 l ms)) hm

theorem NoRem.step {C : Conf} {w w' : Sys} {op : JOp} (hn : NoRem w) (ht : Trans C w op w') (ho : ∀ i j, op ≠ .removed i j) :
    NoRem w' := by
  intro i j
  cases ht with
  | beat o =>
    intro hm
    rcases List.mem_append.1 hm with hm | hm
    · exact hn i j hm
    · cases o <;> simp only [published, List.not_mem_nil] at hm
      all_goals
        obtain ⟨e, _, he⟩ := List.mem_map.1 hm
        cases e <;> simp [News.of] at he
  | added k l => simpa using hn i j
  | removed k l => exact absurd rfl (ho k l)
  | build k => exact hn i j
  | idle => exact hn i j
  | miss k e hm hin => exact fun h => hn i j (List.mem_of_mem_erase h)
  | lose k m hm hin => exact hn i j
  | hear k e ha hm hin => exact fun h => hn i j (List.mem_of_mem_erase h)
  | recv k m ha hm hin => exact hn i j
  | own op k mop ha hm hq => exact hn i j

/-- nothing is answered to a manager that has not asked yet, and one that has not been built has done nothing. -/
structure Silent (w : Sys) : Prop where
  pend : ∀ X p, (w.cl.mgr X).st = .joining p → ∀ Z, (w.cl.mgr Z).st ≠ .joining (some X)
  ack : ∀ X p, (w.cl.mgr X).st = .joining p → ∀ Y, (X, MMsg.ack Y) ∉ w.cl.net
  unmade : ∀ X, w.made X = false → w.cl.mgr X = Mgr.init X

theorem Silent.init (C : Conf) : Silent (Sys.init C) :=
  ⟨fun _ _ _ _ h => (nomatch h), fun _ _ _ _ h => (nomatch h), fun _ _ => rfl⟩

/-- what holds in every history without removals. -/
structure World (C : Conf) (w : Sys) : Prop where
  good : Good C w.clu
  ups : Ups w
  norem : NoRem w
  books : Books w.cl
  silent : Silent w

theorem World.init (C : Conf) : World C (Sys.init C) :=
  ⟨Good.init C, Ups.init C, fun _ _ => List.not_mem_nil, Books.init, Silent.init C⟩

theorem made_mono {C : Conf} {w w' : Sys} {op : JOp} (ht : Trans C w op w') {X : Nat} (h : w'.made X = false) :
    w.made X = false := by
  cases ht with
  | build i =>
    simp only at h
    split at h
    · cases h
    · exact h
  | _ => exact h

theorem World.step {C : Conf} (henv : ∀ t d, C.env.addOk t d = true) {w : Sys} (h : World C w) {op : JOp}
    (ho : ∀ i j, op ≠ .removed i j) : World C (w.step C op) := by
  have ht := step_trans C w op
  refine ⟨good_step henv h.good op, h.ups.step h.good ht, h.norem.step ht ho, ?_, ?_⟩
  · cases sees h.norem ht with
    | still h1 h2 =>
      have : (w.step C op).cl = { w.cl with net := (w.step C op).cl.net } := by
        cases hc : (w.step C op).cl with
        | mk m n => rw [hc] at h1; cases h1; rfl
      rw [this]
      exact h.books.sub h2
    | act i mop net0 hv hp hsub hrec hup hm => rw [hv]; exact h.books.act hp hsub hrec
  · cases sees h.norem ht with
    | still h1 h2 =>
      refine ⟨?_, ?_, ?_⟩
      · rw [h1]; exact h.silent.pend
      · rw [h1]; exact fun X p hX Y hm => h.silent.ack X p hX Y (h2 _ hm)
      · rw [h1]; exact fun X hX => h.silent.unmade X (made_mono ht hX)
    | act i mop net0 hv hp hsub hrec hup hm =>
      have f := facts (h.books.nodup i) hp
      have hback : ∀ X p, ((w.step C op).cl.mgr X).st = .joining p → ∃ q, (w.cl.mgr X).st = .joining q := by
        intro X p hX
        rw [hv] at hX
        by_cases e : X = i
        · subst e; rw [act_self] at hX
          obtain ⟨⟨q, hq, _⟩, _⟩ := f.joining _ hX
          exact ⟨q, hq⟩
        · rw [act_other _ _ _ e] at hX; exact ⟨p, hX⟩
      refine ⟨?_, ?_, ?_⟩
      · intro X p hX Z hZ
        obtain ⟨q, hq⟩ := hback X p hX
        rw [hv] at hZ
        by_cases e : Z = i
        · subst e; rw [act_self] at hZ
          obtain ⟨⟨q0, h1, h2⟩, _⟩ := f.joining _ hZ
          rcases h2 with rfl | ⟨n, h2, h3⟩
          · exact h.silent.pend X q hq Z h1
          · cases h3
            exact ((h.books.quiet X q hq).1 Z).2 (hrec _ h2)
        · rw [act_other _ _ _ e] at hZ; exact h.silent.pend X q hq Z hZ
      · intro X p hX Y hY
        obtain ⟨q, hq⟩ := hback X p hX
        rw [hv] at hY
        rcases (act_net ..).1 hY with hY | hY
        · exact h.silent.ack X q hq Y (hsub _ hY)
        · obtain ⟨_, _, h3⟩ := f.acks _ _ hY
          rcases h3 with ⟨h3, _⟩ | ⟨h3, _⟩
          · exact ((h.books.quiet X q hq).1 i).2 (hrec _ h3)
          · exact h.silent.pend X q hq i h3
      · intro X hX
        have h0 := made_mono ht hX
        have e : X ≠ i := by rintro rfl; rw [hm] at h0; cases h0
        rw [hv, act_other _ _ _ e]
        exact h.silent.unmade X h0

theorem World.runFrom {C : Conf} (henv : ∀ t d, C.env.addOk t d = true) (ops : List JOp) {w : Sys} (h : World C w)
    (ho : NoRemoval ops) : World C (w.runFrom C ops) := by
  induction ops generalizing w with
  | nil => exact h
  | cons op ops ih =>
    exact ih (h.step henv fun i j e => ho i j (by simp [e])) (fun i j hm => ho i j (by simp [hm]))

/-! ### Waiting for ever -/

theorem Hangs.step {C : Conf} {w : Sys} (h : World C w) {X Y : Nat} (hh : Hangs w.cl X Y) {op : JOp} :
    Hangs (w.step C op).cl X Y ∧ ((w.step C op).cl.mgr X).fresh = (w.cl.mgr X).fresh := by
  cases sees h.norem (step_trans C w op) with
  | still h1 h2 =>
    refine ⟨⟨?_, ?_, ?_, ?_, fun hm => hh.ack (h2 _ hm), fun hm => hh.req (h2 _ hm), ?_⟩, by rw [h1]⟩
    · rw [h1]; exact hh.start
    · rw [h1]; exact hh.knows
    · rw [h1]; exact hh.starts
    · rw [h1]; exact hh.results
    · rw [h1]; exact hh.pend
  | act i mop net0 hv hp hsub hrec hup hm =>
    rw [hv]
    refine hh.act h.books hp hsub hrec ?_
    rintro rfl l ms rfl
    refine spent_no (h.ups.spent i ?_) l ms (hup l ms rfl)
    intro p hp2
    obtain ⟨l0, h1, _⟩ := hh.start
    rw [h1] at hp2; cases hp2

/-- `X` is joining and has missed its chance. -/
structure Missed (w : Sys) (X : Nat) : Prop where
  st : ∃ p, (w.cl.mgr X).st = .joining p
  spent : Spent w X

theorem Missed.step {C : Conf} {w : Sys} (hg : Good C w.clu) (hu : Ups w) {X : Nat} (h : Missed w X) {op : JOp} :
    Missed (w.step C op) X := by
  have ht := step_trans C w op
  refine ⟨?_, h.spent.keep hg ht⟩
  obtain ⟨p, hp⟩ := h.st
  obtain ⟨n1, n2⟩ := hu.new X p hp
  have key : ∀ net0 i mop, (i = X → ∀ l ms, mop ≠ .memberUp l ms) → ∃ p, ((act w.cl net0 i mop).mgr X).st = .joining p := by
    intro net0 i mop hm
    by_cases e : X = i
    · subst e; rw [act_self]; exact (joining_stays hp n1 n2 (hm rfl)).1
    · rw [act_other _ _ _ e]; exact ⟨p, hp⟩
  generalize w.step C op = w' at ht ⊢
  cases ht with
  | hear i e ha hm hin =>
    refine key w.cl.net i e.op ?_
    rintro rfl l ms he
    cases e <;> simp [News.op] at he
    exact spent_no h.spent _ _ hin
  | recv i m ha hm hin => exact key (w.cl.net.erase (i, m)) i (.recv m) (by simp)
  | own op i mop ha hm ho => exact key w.cl.net i mop (fun _ => (own_plain ho).2.2.1)
  | _ => exact ⟨p, hp⟩

theorem Waits.step {C : Conf} {w : Sys} (h : World C w) {X Z : Nat} (hw : Waits w.cl X Z)
    (hx : (∃ Y, Hangs w.cl X Y) ∨ Missed w X) {op : JOp} :
    Waits (w.step C op).cl X Z ∧ ((w.step C op).cl.mgr Z).fresh = (w.cl.mgr Z).fresh := by
  cases sees h.norem (step_trans C w op) with
  | still h1 h2 =>
    refine ⟨⟨?_, ?_, ?_, fun hm => hw.ack (h2 _ hm)⟩, by rw [h1]⟩
    · rw [h1]; exact hw.start
    · rw [h1]; exact hw.knows
    · rw [h1]; exact hw.starts
  | act i mop net0 hv hp hsub hrec hup hm =>
    rw [hv]
    refine hw.act h.books hp hsub hrec ?_
    rintro n rfl hs
    rcases hx with ⟨Y, hY⟩ | hX
    · exact hY.mute h.books hp _ _ hs
    · obtain ⟨p, hq⟩ := hX.st
      obtain ⟨_, _, h3⟩ := (facts (h.books.nodup i) hp).acks _ _ hs
      rcases h3 with ⟨_, _, h3⟩ | ⟨_, l, ms, rfl⟩
      · rw [hq] at h3; simp [MState.isJoining] at h3
      · exact spent_no hX.spent _ _ (hup l ms rfl)

theorem hangs_run {C : Conf} (henv : ∀ t d, C.env.addOk t d = true) (ops : List JOp) {w : Sys} (h : World C w)
    (ho : NoRemoval ops) {X Y : Nat} (hh : Hangs w.cl X Y) :
    Hangs (w.runFrom C ops).cl X Y ∧ ((w.runFrom C ops).cl.mgr X).fresh = (w.cl.mgr X).fresh ∧
      ∀ Z, Waits w.cl X Z → ((w.runFrom C ops).cl.mgr Z).fresh = (w.cl.mgr Z).fresh := by
  induction ops generalizing w with
  | nil => exact ⟨hh, rfl, fun _ _ => rfl⟩
  | cons op ops ih =>
    obtain ⟨h1, h2⟩ := hh.step h (op := op)
    obtain ⟨i1, i2, i3⟩ := ih (h.step henv fun i j e => ho i j (by simp [e])) (fun i j hm => ho i j (by simp [hm])) h1
    refine ⟨i1, by rw [← h2]; exact i2, ?_⟩
    intro Z hZ
    obtain ⟨w1, w2⟩ := hZ.step h (.inl ⟨Y, hh⟩) (op := op)
    rw [← w2]
    exact i3 Z w1

theorem missed_run {C : Conf} (henv : ∀ t d, C.env.addOk t d = true) (ops : List JOp) {w : Sys} (hg : Good C w.clu) (hu : Ups w)
    {X : Nat} (hh : Missed w X) : Missed (w.runFrom C ops) X := by
  induction ops generalizing w with
  | nil => exact hh
  | cons op ops ih => exact ih (good_step henv hg op) (hu.step hg (step_trans C w op)) (hh.step hg hu)

theorem missed_waits {C : Conf} (henv : ∀ t d, C.env.addOk t d = true) (ops : List JOp) {w : Sys} (h : World C w)
    (ho : NoRemoval ops) {X Z : Nat} (hh : Missed w X) (hZ : Waits w.cl X Z) :
    ((w.runFrom C ops).cl.mgr Z).fresh = (w.cl.mgr Z).fresh := by
  induction ops generalizing w with
  | nil => rfl
  | cons op ops ih =>
    obtain ⟨w1, w2⟩ := hZ.step h (.inr hh) (op := op)
    rw [← w2]
    exact ih (h.step henv fun i j e => ho i j (by simp [e])) (fun i j hm => ho i j (by simp [hm]))
      (hh.step h.good h.ups) w1

/-! ### Who elects themselves -/

theorem elects_itself {C : Conf} (henv : ∀ t d, C.env.addOk t d = true) {c : Clu} (hg : Good C c) {i : Nat} (hup : Up c i)
    (hel : Elects c i) (hnew : (c.hb i).up = false) (hled : c.leader i ≠ some i)
    (hno : ∀ k, Registered c i k → Answered C c i k → Before C i k) (hmin : C.hb.minSize = none) :
    ∃ ms, published C c (.tick i) = [(i, .memberUp i ms), (i, .leaderChanged i)] ∧ ∀ j, j ∈ ms ↔ Registered c i j := by
  obtain ⟨us, h1, h2, h3, h4, h5⟩ := Remote.OneLeader.tick_view henv hg (i := i)
  have hhb : (c.step C (.tick i)).hb i = (c.hb i).elect C.env C.hb us := by
    simp only [Clu.step]
    rw [act_hb c i _ hup]; exact h1
  have hold : Remote.oldestHealthy C.env us = some i := by
    refine (Remote.oldest_iff us i).2 ?_
    obtain ⟨n, hn⟩ := hel.2
    obtain ⟨u, hu, rfl⟩ := h4 i n hn
    refine ⟨u, hu, rfl, (h5 u hu).2 (.inl rfl), ?_⟩
    intro v hv hvh
    rw [h2 u hu, h2 v hv]
    rcases (h5 v hv).1 hvh with e | ha
    · rw [e]; exact .inr ⟨rfl, Nat.le_refl _⟩
    · exact hno v.id (h3 v hv) ha
  have hpick : (c.hb i).pickNew C.env us = some i := by
    unfold Remote.Hb.pickNew
    rw [hel.1, if_pos rfl, hold]
    simp only [Remote.newLeader]
    rw [if_pos]
    exact fun e => hled e.symm
  refine ⟨(isort (Remote.hbLe C.env) us).map (·.id), ?_, ?_⟩
  · simp only [published]
    rw [hhb]
    unfold Remote.Hb.elect
    simp only [hpick, hnew, Remote.minReached, hmin, Bool.not_false, Bool.and_self, if_true]
    simp [Remote.Hb.updateLeader, Remote.Hb.memberUp, News.of]
  · intro j
    rw [List.mem_map]
    constructor
    · rintro ⟨u, hu, rfl⟩
      exact h3 u (mem_isort.1 hu)
    · rintro ⟨n, hn⟩
      obtain ⟨u, hu, e⟩ := h4 j n hn
      exact ⟨u, mem_isort.2 hu, e⟩

end Verif.Singleton.Joint
