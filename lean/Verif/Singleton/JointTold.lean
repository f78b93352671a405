import Verif.Singleton.JointHang

namespace Verif.Singleton.Joint

open Verif.Remote.OneLeader (Conf Clu Up Answered Before Good)

/-! ### What the proxy of a node that joins is told -/

theorem fold_sends {xs : List MOut} (h : ∀ x ∈ xs, ∃ n m, x = .send n m) (p : Option Nat) : xs.foldl toldBy p = p := by
  induction xs with
  | nil => rfl
  | cons x xs ih =>
    obtain ⟨n, m, rfl⟩ := h x (by simp)
    exact ih fun y hy => h y (by simp [hy])

theorem rest_proxy {σ : Mgr} (h : AtRest σ) {op : MOp} (h1 : ∀ ms, op ≠ .memberUp σ.self ms)
    (h2 : op ≠ .leaderChanged σ.self) (h3 : ∀ a, op ≠ .childStopped a) (h4 : ∀ s, op ≠ .recv (.stopped s)) (p : Option Nat) :
    (∃ s, op = .recv (.started s) ∧ (σ.step (fun _ => true) op).2.foldl toldBy p = some s) ∨
    ((∀ s, op ≠ .recv (.started s)) ∧ (σ.step (fun _ => true) op).2.foldl toldBy p = p) := by
  obtain ⟨_, _, _, h5, h6⟩ := rest_step h h1 h2 h3
  by_cases hs : ∃ s, op = .recv (.started s)
  · obtain ⟨s, rfl⟩ := hs
    exact .inl ⟨s, rfl, by rw [h6 s rfl]; rfl⟩
  · have hs' : ∀ s, op ≠ .recv (.started s) := fun s e => hs ⟨s, e⟩
    refine .inr ⟨hs', fold_sends ?_ p⟩
    intro x hx
    rcases h5 x hx with h | ⟨s, h, _⟩ | ⟨s, h, _⟩
    · exact h
    · exact absurd h (hs' s)
    · exact absurd h (h4 s)

/-- a manager that runs an instance greets only nodes it did not know. -/
theorem greets_new {σ : Mgr} {a : Nat} (h : Steadfast σ a) {op : MOp} (h1 : ∀ l ms, op ≠ .memberUp l ms)
    (h2 : ∀ s, op ≠ .recv (.request s)) (h4 : ∀ b, op ≠ .childStopped b) {n : Nat} {m : MMsg}
    (hm : .send n m ∈ (σ.step (fun _ => true) op).2) : n ∉ σ.managers := by
  cases op with
  | memberUp l ms => exact absurd rfl (h1 l ms)
  | leaderChanged k => simp [Mgr.step, Mgr.onLeaderChanged, h.st, MState.isJoining, MState.isRunning] at hm
  | nodeAdded k =>
    simp only [Mgr.step, Mgr.onNodeAdded] at hm
    split at hm
    · rename_i hc
      simp [Mgr.greeting, h.st] at hm
      rw [hm.1]; exact hc.2.2
    · simp at hm
  | nodeRemoved k => simp [Mgr.step] at hm
  | recv q => cases q <;> first | exact absurd rfl (h2 _) | simp [Mgr.step, Mgr.recv] at hm
  | boot => simp [Mgr.step, h.starts] at hm
  | startFails => simp [Mgr.step] at hm
  | started b => simp [Mgr.step, h.results] at hm
  | exits b c => simp only [Mgr.step] at hm; split at hm <;> simp at hm
  | childStopped b => exact absurd rfl (h4 b)

/-- Node `N` gets to know that the singleton runs on `L`. -/
structure Told (L N : Nat) (w : Sys) : Prop where
  made : w.made N = true
  known : N ∈ (w.cl.mgr L).managers → (N, MMsg.started L) ∈ w.cl.net ∨ w.proxy N = some L
  src : ∀ s, (N, MMsg.started s) ∈ w.cl.net → s = L
  nostop : ∀ s, (N, MMsg.stopped s) ∉ w.cl.net

/-- what a step of a manager of a cluster with one instance is, as far as the proxies are concerned. -/
inductive Deals (L : Nat) (a : Nat) (w w' : Sys) : Prop where
  | still (h1 : w'.cl = w.cl) (h2 : w'.proxy = w.proxy)
  | drop (i : Nat) (m : MMsg) (hm : w.made i = false) (h1 : w'.cl.mgr = w.cl.mgr) (hn : w'.cl.net = w.cl.net.erase (i, m))
      (h2 : w'.proxy = w.proxy)
  | act (i : Nat) (mop : MOp) (net0 : List (Nat × MMsg)) (hv : w'.cl = act w.cl net0 i mop)
      (hp : w'.proxy = fun k => if k = i then ((w.cl.mgr i).step (fun _ => true) mop).2.foldl toldBy (w.proxy i) else w.proxy k)
      (hn : (net0 = w.cl.net ∧ ∀ m, mop ≠ .recv m) ∨ ∃ m, mop = .recv m ∧ (i, m) ∈ w.cl.net ∧ net0 = w.cl.net.erase (i, m))
      (hc : ∀ b, mop ≠ .childStopped b) (hr : i ≠ L → (∀ ms, mop ≠ .memberUp i ms) ∧ mop ≠ .leaderChanged i)
      (hL : i = L → (∀ l ms, mop ≠ .memberUp l ms) ∧ (∀ s, mop ≠ .recv (.request s)) ∧ ∀ c, mop ≠ .exits a c)
      (hrm : ∀ n, mop = .nodeRemoved n → (i, News.removed n) ∈ w.bus)

theorem deals {C : Conf} {L : Nat} {inst : Nat → Nat} {w w' : Sys} (hups : Ups w) (h : Serving [L] inst w) {op : JOp}
    (ht : Trans C w op w') (hlast : Lasting [L] inst op) : Deals L (inst L) w w' := by
  have hsp : Spent w L := by
    apply hups.spent
    intro p hp
    rw [(h.run L (by simp)).st] at hp
    cases hp
  cases ht with
  | beat o => exact .still rfl rfl
  | added k j => exact .still rfl rfl
  | removed k j => exact .still rfl rfl
  | build i => exact .still rfl rfl
  | idle => exact .still rfl rfl
  | miss i e hm hin => exact .still rfl rfl
  | lose i m hm hin => exact .drop i m hm rfl rfl rfl
  | hear i e ha hm hin =>
    refine .act i e.op w.cl.net rfl rfl (.inl ⟨rfl, ?_⟩) (op_child e) ?_ ?_ ?_
    · intro m he; cases e <;> simp [News.op] at he
    · intro hi
      refine ⟨?_, ?_⟩
      · intro ms he
        cases e <;> simp [News.op] at he
        obtain ⟨rfl, rfl⟩ := he
        exact h.lone.up _ _ (by simpa using hi) hin
      · intro he
        cases e <;> simp [News.op] at he
        subst he
        exact h.lone.led _ (by simpa using hi) hin
    · rintro rfl
      refine ⟨?_, ?_, ?_⟩
      · intro l ms he
        cases e <;> simp [News.op] at he
        obtain ⟨rfl, rfl⟩ := he
        exact spent_no hsp _ _ hin
      · intro s he; cases e <;> simp [News.op] at he
      · intro c he; cases e <;> simp [News.op] at he
    · intro n he
      cases e <;> simp [News.op] at he
      subst he; exact hin
  | recv i m ha hm hin =>
    refine .act i (.recv m) (w.cl.net.erase (i, m)) rfl rfl (.inr ⟨m, rfl, hin, rfl⟩) (by simp) (by simp) ?_ (by simp)
    rintro rfl
    refine ⟨by simp, ?_, by simp⟩
    rintro s ⟨rfl⟩
    exact h.calm i (by simp) s hin
  | own op i mop ha hm ho =>
    have hp := own_plain ho
    refine .act i mop w.cl.net rfl rfl (.inl ⟨rfl, hp.2.1⟩) hp.2.2.2.2.1 (fun _ => ⟨fun ms => hp.2.2.1 _ ms, hp.2.2.2.1 _⟩) ?_ ?_
    · rintro rfl
      refine ⟨fun l ms => hp.2.2.1 l ms, fun s => hp.2.1 _, ?_⟩
      intro c he
      have := hp.2.2.2.2.2.2 _ _ he
      subst this
      exact hlast (by simp) rfl
    · rintro n rfl
      have := hp.1
      simp [plain] at this

/-- the messages sent in such a step. -/
theorem deals_sent {L N : Nat} {inst : Nat → Nat} {w : Sys} (h : Serving [L] inst w) {i : Nat} {mop : MOp}
    (hc : ∀ b, mop ≠ .childStopped b) (hr : i ≠ L → (∀ ms, mop ≠ .memberUp i ms) ∧ mop ≠ .leaderChanged i)
    (hL : i = L → (∀ l ms, mop ≠ .memberUp l ms) ∧ (∀ s, mop ≠ .recv (.request s)) ∧ ∀ c, mop ≠ .exits (inst L) c) {m : MMsg}
    (hm : .send N m ∈ ((w.cl.mgr i).step (fun _ => true) mop).2) :
    (i = L ∧ m = .started L ∧ N ∉ (w.cl.mgr L).managers) ∨ (i ≠ L ∧ m = .ack i) := by
  by_cases e : i = L
  · subst e
    obtain ⟨h1, h2, h3⟩ := hL rfl
    have hs := h.run i (by simp)
    have := (run_step hs h1 h2 h3 hc).2.2.2.1 _ _ hm
    rw [h.lone.self] at this
    exact .inl ⟨rfl, this, greets_new hs h1 h2 hc hm⟩
  · obtain ⟨h1, h2⟩ := hr e
    have := (rest_step (h.lone.rest i (by simpa using e)) (by rw [h.lone.self]; exact h1) (by rw [h.lone.self]; exact h2) hc).2.2.1 _ _ hm
    rw [h.lone.self] at this
    exact .inr ⟨e, this⟩

theorem Told.step {C : Conf} {L N : Nat} {inst : Nat → Nat} {w w' : Sys} (hNL : N ≠ L) (hups : Ups w)
    (h : Serving [L] inst w) (hT : Told L N w) {op : JOp} (ht : Trans C w op w') (hlast : Lasting [L] inst op) : Told L N w' := by
  have hmade : w'.made N = true := by
    cases hb : w'.made N with
    | true => rfl
    | false => have := made_mono ht hb; rw [hT.made] at this; cases this
  cases deals hups h ht hlast with
  | still h1 h2 => exact ⟨hmade, by rw [h1, h2]; exact hT.known, by rw [h1]; exact hT.src, by rw [h1]; exact hT.nostop⟩
  | drop i m hm h1 hn h2 =>
    have hne : i ≠ N := by rintro rfl; rw [hT.made] at hm; cases hm
    refine ⟨hmade, ?_, ?_, ?_⟩
    · rw [h1, h2, hn]
      intro hk
      rcases hT.known hk with h | h
      · exact .inl ((List.mem_erase_of_ne (by intro e; cases e; exact hne rfl)).2 h)
      · exact .inr h
    · rw [hn]; exact fun s hs => hT.src s (List.mem_of_mem_erase hs)
    · rw [hn]; exact fun s hs => hT.nostop s (List.mem_of_mem_erase hs)
  | act i mop net0 hv hp hn hc hr hL hrm =>
    have hsub : ∀ x ∈ net0, x ∈ w.cl.net := by
      rcases hn with ⟨rfl, _⟩ | ⟨m, _, _, rfl⟩
      · exact fun _ hx => hx
      · exact fun _ hx => List.mem_of_mem_erase hx
    refine ⟨hmade, ?_, ?_, ?_⟩
    · intro hk
      rw [hv, hp]
      by_cases eN : N = i
      · subst eN
        rw [hv, act_other _ _ _ (Ne.symm hNL)] at hk
        obtain ⟨r1, r2⟩ := hr hNL
        have hst : ∀ s, mop ≠ .recv (.stopped s) := by
          rintro s rfl
          rcases hn with ⟨_, hn⟩ | ⟨m, hm, hin, _⟩
          · exact hn _ rfl
          · cases hm; exact hT.nostop s hin
        rcases rest_proxy (h.lone.rest N (by simpa using hNL)) (by rw [h.lone.self]; exact r1) (by rw [h.lone.self]; exact r2) hc hst (w.proxy N) with ⟨s, hs, hf⟩ | ⟨hs, hf⟩
        · right
          simp only [if_true]
          rw [hf]
          subst hs
          rcases hn with ⟨_, hn⟩ | ⟨m, hm, hin, _⟩
          · exact absurd rfl (hn _)
          · cases hm; rw [hT.src s hin]
        · simp only [if_true]
          rw [hf]
          rcases hT.known hk with hk | hk
          · refine .inl ((act_net ..).2 (.inl ?_))
            rcases hn with ⟨rfl, _⟩ | ⟨m, hm, hin, rfl⟩
            · exact hk
            · exact (List.mem_erase_of_ne (by intro e; cases e; exact hs _ hm)).2 hk
          · exact .inr hk
      · simp only [if_neg eN]
        have hold : N ∈ (w.cl.mgr L).managers ∨ .send N (.started L) ∈ ((w.cl.mgr i).step (fun _ => true) mop).2 := by
          rw [hv] at hk
          by_cases e : L = i
          · subst e
            rw [act_self] at hk
            obtain ⟨h1, h2, h3⟩ := hL rfl
            have := (run_step (h.run L (by simp)) h1 h2 h3 hc).2.2.2.2.1 N hk
            rw [h.lone.self] at this
            exact this
          · rw [act_other _ _ _ e] at hk; exact .inl hk
        rcases hold with hk | hk
        · rcases hT.known hk with hk | hk
          · refine .inl ((act_net ..).2 (.inl ?_))
            rcases hn with ⟨rfl, _⟩ | ⟨m, hm, hin, rfl⟩
            · exact hk
            · exact (List.mem_erase_of_ne (by intro e; cases e; exact eN rfl)).2 hk
          · exact .inr hk
        · exact .inl ((act_net ..).2 (.inr hk))
    · intro s hs
      rw [hv] at hs
      rcases (act_net ..).1 hs with hs | hs
      · exact hT.src s (hsub _ hs)
      · rcases deals_sent h hc hr hL hs with ⟨_, e, _⟩ | ⟨_, e⟩ <;> cases e
        rfl
    · intro s hs
      rw [hv] at hs
      rcases (act_net ..).1 hs with hs | hs
      · exact hT.nostop s (hsub _ hs)
      · rcases deals_sent h hc hr hL hs with ⟨_, e, _⟩ | ⟨_, e⟩ <;> cases e

theorem Told.runFrom {C : Conf} (henv : ∀ t d, C.env.addOk t d = true) {L N : Nat} {inst : Nat → Nat} (hNL : N ≠ L)
    (ops : List JOp) {w : Sys} (hg : Good C w.clu) (hu : Ups w) (h : Serving [L] inst w) (hT : Told L N w)
    (hgs : Gentle C [L] w ops) (hlast : ∀ op ∈ ops, Lasting [L] inst op) : Told L N (w.runFrom C ops) := by
  induction ops generalizing w with
  | nil => exact hT
  | cons op ops ih =>
    have ht := step_trans C w op
    have hl := hlast op (by simp)
    exact ih (good_step henv hg op) (hu.step hg ht) (h.step hg hu ht hgs.1 hl).1 (hT.step hNL hu h ht hl) hgs.2
      (fun o ho => hlast o (by simp [ho]))

/-- Node `N` does not get to know it. -/
structure Untold (L N : Nat) (w : Sys) : Prop where
  known : N ∈ (w.cl.mgr L).managers
  src : ∀ s, (N, MMsg.started s) ∉ w.cl.net
  proxy : w.proxy N = none

theorem Untold.step {C : Conf} {L N : Nat} {inst : Nat → Nat} {w w' : Sys} (hNL : N ≠ L) (hups : Ups w) (hnr : NoRem w)
    (h : Serving [L] inst w) (hT : Untold L N w) {op : JOp} (ht : Trans C w op w') (hlast : Lasting [L] inst op) : Untold L N w' := by
  cases deals hups h ht hlast with
  | still h1 h2 => exact ⟨by rw [h1]; exact hT.known, by rw [h1]; exact hT.src, by rw [h2]; exact hT.proxy⟩
  | drop i m hm h1 hn h2 =>
    exact ⟨by rw [h1]; exact hT.known, by rw [hn]; exact fun s hs => hT.src s (List.mem_of_mem_erase hs), by rw [h2]; exact hT.proxy⟩
  | act i mop net0 hv hp hn hc hr hL hrm =>
    have hsub : ∀ x ∈ net0, x ∈ w.cl.net := by
      rcases hn with ⟨rfl, _⟩ | ⟨m, _, _, rfl⟩
      · exact fun _ hx => hx
      · exact fun _ hx => List.mem_of_mem_erase hx
    refine ⟨?_, ?_, ?_⟩
    · rw [hv]
      by_cases e : L = i
      · subst e
        rw [act_self]
        have hpl : plain mop = true := by
          cases mop <;> first | rfl | exact absurd rfl (hc _) | exact absurd (hrm _ rfl) (hnr _ _)
        exact (facts (h.lone.nodup L) hpl).mono _ hT.known
      · rw [act_other _ _ _ e]; exact hT.known
    · intro s hs
      rw [hv] at hs
      rcases (act_net ..).1 hs with hs | hs
      · exact hT.src s (hsub _ hs)
      · rcases deals_sent h hc hr hL hs with ⟨_, _, e⟩ | ⟨_, e⟩
        · exact e hT.known
        · cases e
    · rw [hp]
      by_cases eN : N = i
      · subst eN
        simp only [if_true]
        obtain ⟨r1, r2⟩ := hr hNL
        obtain ⟨_, _, _, h5, _⟩ := rest_step (h.lone.rest N (by simpa using hNL)) (by rw [h.lone.self]; exact r1)
          (by rw [h.lone.self]; exact r2) hc
        rw [hT.proxy]
        have hall : ∀ x ∈ ((w.cl.mgr N).step (fun _ => true) mop).2, toldBy none x = none := by
          intro x hx
          rcases h5 x hx with ⟨n, m, rfl⟩ | ⟨s, rfl, _⟩ | ⟨s, _, rfl⟩
          · rfl
          · rcases hn with ⟨_, hn⟩ | ⟨m, hm, hin, _⟩
            · exact absurd rfl (hn _)
            · cases hm; exact absurd hin (hT.src s)
          · rfl
        generalize ((w.cl.mgr N).step (fun _ => true) mop).2 = xs at hall
        induction xs with
        | nil => rfl
        | cons x xs ih =>
          rw [List.foldl_cons, hall x (by simp)]
          exact ih fun y hy => hall y (by simp [hy])
      · simp only [if_neg eN]; exact hT.proxy

theorem Untold.runFrom {C : Conf} (henv : ∀ t d, C.env.addOk t d = true) {L N : Nat} {inst : Nat → Nat} (hNL : N ≠ L)
    (ops : List JOp) {w : Sys} (hg : Good C w.clu) (hu : Ups w) (hnr : NoRem w) (h : Serving [L] inst w) (hT : Untold L N w)
    (hgs : Gentle C [L] w ops) (hlast : ∀ op ∈ ops, Lasting [L] inst op) (ho : NoRemoval ops) : Untold L N (w.runFrom C ops) := by
  induction ops generalizing w with
  | nil => exact hT
  | cons op ops ih =>
    have ht := step_trans C w op
    have hl := hlast op (by simp)
    exact ih (good_step henv hg op) (hu.step hg ht) (hnr.step ht fun i j e => ho i j (by simp [e]))
      (h.step hg hu ht hgs.1 hl).1 (hT.step hNL hu hnr h ht hl) hgs.2 (fun o ho => hlast o (by simp [ho]))
      (fun i j hm => ho i j (by simp [hm]))

end Verif.Singleton.Joint
