import Verif.Singleton.JointProps

namespace Verif.Singleton.Joint

open Verif.Remote.OneLeader (Conf Clu Up Answered Before Good)

variable {C : Conf}

/-! ### The leader a node elects when it has been up before -/

theorem elects_again (henv : ∀ t d, C.env.addOk t d = true) {c : Clu} (hg : Good C c) {i : Nat} (hup : Up c i)
    (hel : Elects c i) (hold : (c.hb i).up = true) (hled : c.leader i ≠ some i)
    (hno : ∀ k, Registered c i k → Answered C c i k → Before C i k) :
    published C c (.tick i) = [(i, .leaderChanged i)] := by
  obtain ⟨us, h1, h2, h3, h4, h5⟩ := Remote.OneLeader.tick_view henv hg (i := i)
  have hhb : (c.step C (.tick i)).hb i = (c.hb i).elect C.env C.hb us := by
    simp only [Clu.step]
    rw [act_hb c i _ hup]; exact h1
  have holdest : Remote.oldestHealthy C.env us = some i := by
    refine (Remote.oldest_iff us i).2 ?_
    obtain ⟨n, hn⟩ := hel.2
    obtain ⟨u, hu, rfl⟩ := h4 i n hn
    refine ⟨u, hu, rfl, (h5 u hu).2 (.inl rfl), ?_⟩
    intro v hv hvh
    rw [h2 u hu, h2 v hv]
    rcases (h5 v hv).1 hvh with e | ha
    · rw [e]; exact .inr ⟨rfl, Nat.le_refl _⟩
    · exact hno v.id (h3 v hv) ha
  have hpick : (c.hb i).pickNew C.env us = some i := by
    unfold Remote.Hb.pickNew
    rw [hel.1, if_pos rfl, holdest]
    simp only [Remote.newLeader]
    rw [if_pos]
    exact fun e => hled e.symm
  simp only [published]
  rw [hhb]
  unfold Remote.Hb.elect
  simp only [hpick, hold, Bool.not_true, Bool.false_and]
  simp [Remote.Hb.updateLeader, News.of]

/-! ### Single steps -/

theorem mgrStep_self (w : Sys) (i : Nat) (op : MOp) :
    (w.mgrStep i op).cl.mgr i = ((w.cl.mgr i).step (fun _ => true) op).1 := act_self w.cl w.cl.net i op

theorem mgrStep_other (w : Sys) {i k : Nat} (op : MOp) (h : k ≠ i) : (w.mgrStep i op).cl.mgr k = w.cl.mgr k :=
  act_other w.cl w.cl.net op h

theorem mgrStep_net (w : Sys) (i : Nat) (op : MOp) :
    (w.mgrStep i op).cl.net = w.cl.net ++ ((w.cl.mgr i).step (fun _ => true) op).2.filterMap MOut.msg? := rfl

theorem mgrStep_proxy_other (w : Sys) {i k : Nat} (op : MOp) (h : k ≠ i) : (w.mgrStep i op).proxy k = w.proxy k := by
  simp [Sys.mgrStep, h]

theorem step_boot {w : Sys} {i : Nat} (ha : Up w.clu i) (hm : w.made i = true) : w.step C (.boot i) = w.mgrStep i .boot := by
  simp [Sys.step, (alive_iff w i).2 ha, hm]

theorem step_started {w : Sys} {i a : Nat} (ha : Up w.clu i) (hm : w.made i = true) :
    w.step C (.started i a) = w.mgrStep i (.started a) := by
  simp [Sys.step, (alive_iff w i).2 ha, hm]

theorem step_removed {w : Sys} {i j : Nat} (ha : Up w.clu i) :
    w.step C (.removed i j) = { w with bus := w.bus ++ [(i, .removed j)] } := by
  simp [Sys.step, (alive_iff w i).2 ha]

/-- nothing but the manager and the proxy of `B`, the bus and the messages under way has changed. -/
structure Beside (B : Nat) (ms : List Nat) (w w' : Sys) : Prop where
  clu : w'.clu = w.clu
  made : w'.made = w.made
  mgr : ∀ i, i ≠ B → w'.cl.mgr i = w.cl.mgr i
  stops : w'.stops = w.stops
  req : ∀ d s, (d, MMsg.request s) ∈ w'.cl.net → (d, MMsg.request s) ∈ w.cl.net ∨ (s = B ∧ d ∈ ms)

theorem Beside.trans {B : Nat} {ms : List Nat} {u v w : Sys} (h1 : Beside B ms u v) (h2 : Beside B ms v w) : Beside B ms u w :=
  ⟨h2.clu.trans h1.clu, h2.made.trans h1.made, fun i hi => (h2.mgr i hi).trans (h1.mgr i hi), h2.stops.trans h1.stops,
    fun d s hm => (h2.req d s hm).elim (h1.req d s) .inr⟩

/-- `k` is there, idle, and knows `B`. -/
structure Willing (w : Sys) (B k : Nat) : Prop where
  ne : k ≠ B
  up : Up w.clu k
  made : w.made k = true
  self : (w.cl.mgr k).self = k
  st : (w.cl.mgr k).st = .idle
  knows : B ∈ (w.cl.mgr k).managers

theorem Willing.beside {B k : Nat} {ms : List Nat} {w w' : Sys} (h : Willing w B k) (hb : Beside B ms w w') : Willing w' B k :=
  ⟨h.ne, by rw [hb.clu]; exact h.up, by rw [hb.made]; exact h.made, by rw [hb.mgr k h.ne]; exact h.self,
    by rw [hb.mgr k h.ne]; exact h.st, by rw [hb.mgr k h.ne]; exact h.knows⟩

/-- `B` has asked the nodes of `done` and `todo`; those of `done` have answered. -/
structure Taking (w : Sys) (B : Nat) (gone done todo : List Nat) (f : Nat) : Prop where
  up : Up w.clu B
  made : w.made B = true
  self : (w.cl.mgr B).self = B
  st : (w.cl.mgr B).st = .starting done
  perm : (w.cl.mgr B).managers.Perm (done ++ todo)
  nodup : (done ++ todo).Nodup
  starts : (w.cl.mgr B).starts = if todo = [] then 1 else 0
  results : (w.cl.mgr B).results = []
  fresh : (w.cl.mgr B).fresh = f
  asked : ∀ k ∈ todo, k ∉ gone → Willing w B k ∧ (k, MMsg.request B) ∈ w.cl.net
  answered : ∀ k ∈ done, k ∉ gone ∧ Willing w B k

theorem forget_step {σ : Mgr} {done : List Nat} (hst : σ.st = .starting done) (k : Nat) (hk : k ∉ done) :
    σ.step (fun _ => true) (.nodeRemoved k) =
      (if done.length = (σ.managers.filter (· ≠ k)).length
        then { σ with managers := σ.managers.filter (· ≠ k), starts := σ.starts + 1 }
        else { σ with managers := σ.managers.filter (· ≠ k) }, []) := by
  have hf : done.filter (· ≠ k) = done := by
    rw [List.filter_eq_self]
    intro a ha
    have : a ≠ k := by rintro rfl; exact hk ha
    simpa using this
  simp only [Mgr.step, Mgr.onNodeRemoved, hst, Mgr.checkAcks, hf, Mgr.startActor]

theorem perm_filter_ne {ms done todo : List Nat} {k : Nat} (h : ms.Perm (done ++ k :: todo)) (hn : (done ++ k :: todo).Nodup) :
    (ms.filter (· ≠ k)).Perm (done ++ todo) ∧ (done ++ todo).Nodup ∧ k ∉ done ∧ k ∉ todo := by
  rw [List.nodup_append] at hn
  obtain ⟨n1, n2, n3⟩ := hn
  rw [List.nodup_cons] at n2
  have hk : k ∉ done := fun hk => n3 k hk k (by simp) rfl
  have keep : ∀ l : List Nat, k ∉ l → l.filter (· ≠ k) = l := by
    intro l hl
    rw [List.filter_eq_self]
    intro a ha
    have : a ≠ k := by rintro rfl; exact hl ha
    simpa using this
  refine ⟨?_, ?_, hk, n2.1⟩
  · have := h.filter (· ≠ k)
    rw [List.filter_append, keep done hk, List.filter_cons, if_neg (by simp), keep todo n2.1] at this
    exact this
  · rw [List.nodup_append]
    exact ⟨n1, n2.2, fun a ha b hb => n3 a ha b (by simp [hb])⟩

/-- a node asked is taken for removed. -/
theorem Taking.forget {ms : List Nat} {w : Sys} {B : Nat} {gone done todo : List Nat} {f k : Nat} (h : Taking w B gone done (k :: todo) f) :
    Taking (w.runFrom C [.removed B k, .hear B (.removed k)]) B gone done todo f ∧
    Beside B ms w (w.runFrom C [.removed B k, .hear B (.removed k)]) ∧
    ∀ i, i ≠ B → (w.runFrom C [.removed B k, .hear B (.removed k)]).proxy i = w.proxy i := by
  obtain ⟨p1, p2, p3, p4⟩ := perm_filter_ne h.perm h.nodup
  have e : w.runFrom C [.removed B k, .hear B (.removed k)] =
      ({ w with bus := (w.bus ++ [(B, News.removed k)]).erase (B, News.removed k) } : Sys).mgrStep B (.nodeRemoved k) := by
    simp only [Sys.runFrom, List.foldl]
    rw [step_removed h.up, step_hear (by exact h.up) (by exact h.made) (by simp)]
    rfl
  rw [e]
  have hs := forget_step h.st k p3
  have hlen : done.length = ((w.cl.mgr B).managers.filter (· ≠ k)).length ↔ todo = [] := by
    rw [p1.length_eq, List.length_append]
    constructor
    · intro hl; exact List.length_eq_zero_iff.1 (by omega)
    · rintro rfl; simp
  have h0 : (w.cl.mgr B).starts = 0 := by rw [h.starts]; simp
  have hnet : (({ w with bus := (w.bus ++ [(B, News.removed k)]).erase (B, News.removed k) } : Sys).mgrStep B (.nodeRemoved k)).cl.net = w.cl.net := by
    rw [mgrStep_net]
    show w.cl.net ++ ((w.cl.mgr B).step (fun _ => true) (.nodeRemoved k)).2.filterMap MOut.msg? = _
    rw [hs]; simp
  have hb : Beside B ms w (({ w with bus := (w.bus ++ [(B, News.removed k)]).erase (B, News.removed k) } : Sys).mgrStep B (.nodeRemoved k)) := by
    refine ⟨rfl, rfl, fun i hi => mgrStep_other _ _ hi, ?_, fun d s hm => .inl (by rw [hnet] at hm; exact hm)⟩
    show w.stops ++ ((w.cl.mgr B).step (fun _ => true) (.nodeRemoved k)).2.filterMap (stopsOf B) = _
    rw [hs]; simp
  have hB : (({ w with bus := (w.bus ++ [(B, News.removed k)]).erase (B, News.removed k) } : Sys).mgrStep B (.nodeRemoved k)).cl.mgr B =
      (if todo = [] then { w.cl.mgr B with managers := (w.cl.mgr B).managers.filter (· ≠ k), starts := (w.cl.mgr B).starts + 1 }
        else { w.cl.mgr B with managers := (w.cl.mgr B).managers.filter (· ≠ k) }) := by
    rw [mgrStep_self]
    show ((w.cl.mgr B).step (fun _ => true) (.nodeRemoved k)).1 = _
    rw [hs]
    by_cases ht : todo = []
    · rw [if_pos ht, if_pos (hlen.2 ht)]
    · rw [if_neg ht, if_neg (fun hl => ht (hlen.1 hl))]
  refine ⟨⟨h.up, h.made, ?_, ?_, ?_, p2, ?_, ?_, ?_, ?_, ?_⟩, hb, fun i hi => mgrStep_proxy_other _ _ hi⟩
  · rw [hB]; split <;> exact h.self
  · rw [hB]; split <;> exact h.st
  · rw [hB]; split <;> exact p1
  · rw [hB]
    by_cases ht : todo = []
    · rw [if_pos ht, if_pos ht, h0]
    · rw [if_neg ht, if_neg ht, h0]
  · rw [hB]; split <;> exact h.results
  · rw [hB]; split <;> exact h.fresh
  · intro j hj hg
    obtain ⟨a1, a2⟩ := h.asked j (by simp [hj]) hg
    exact ⟨a1.beside hb, by rw [hnet]; exact a2⟩
  · intro j hj
    obtain ⟨a1, a2⟩ := h.answered j hj
    exact ⟨a1, a2.beside hb⟩

theorem grant_step {σ : Mgr} {B : Nat} (hst : σ.st = .idle) (hk : B ∈ σ.managers) :
    σ.step (fun _ => true) (.recv (.request B)) = (σ, [.send B (.ack σ.self)]) := by
  simp [Mgr.step, Mgr.recv, Mgr.onRequest, hst, MState.isRunning, Mgr.grantLease, Mgr.notifyManager, hk]

theorem ack_step {σ : Mgr} {done : List Nat} (hst : σ.st = .starting done) {k : Nat} (hk : k ∉ done) :
    σ.step (fun _ => true) (.recv (.ack k)) =
      (if (done ++ [k]).length = σ.managers.length
        then { σ with st := .starting (done ++ [k]), starts := σ.starts + 1 }
        else { σ with st := .starting (done ++ [k]) }, []) := by
  simp only [Mgr.step, Mgr.recv, Mgr.onAck, hst, Mgr.checkAcks, setInsert, if_neg hk, Mgr.startActor]

/-- a node asked answers. -/
theorem Taking.ask {ms : List Nat} {w : Sys} {B : Nat} {gone done todo : List Nat} {f k : Nat} (h : Taking w B gone done (k :: todo) f)
    (hk : k ∉ gone) :
    Taking (w.runFrom C [.recv k (.request B), .recv B (.ack k)]) B gone (done ++ [k]) todo f ∧
    Beside B ms w (w.runFrom C [.recv k (.request B), .recv B (.ack k)]) ∧
    ∀ i, i ≠ B → (w.runFrom C [.recv k (.request B), .recv B (.ack k)]).proxy i = w.proxy i := by
  obtain ⟨hw, hin⟩ := h.asked k (by simp) hk
  have hg := grant_step hw.st hw.knows
  rw [hw.self] at hg
  obtain ⟨_, _, hkd, hkt⟩ := perm_filter_ne h.perm h.nodup
  have hs := ack_step h.st hkd
  have hne := hw.ne
  have h0 : (w.cl.mgr B).starts = 0 := by rw [h.starts]; simp
  have hlen : (done ++ [k]).length = (w.cl.mgr B).managers.length ↔ todo = [] := by
    rw [h.perm.length_eq]
    simp only [List.length_append, List.length_cons, List.length_nil]
    constructor
    · intro hl; exact List.length_eq_zero_iff.1 (by omega)
    · rintro rfl; simp
  obtain ⟨w1, hw1⟩ : ∃ w1, w1 = ({ w with cl := { w.cl with net := w.cl.net.erase (k, .request B) } } : Sys).mgrStep k (.recv (.request B)) := ⟨_, rfl⟩
  have e1 : w.step C (.recv k (.request B)) = w1 := by rw [hw1]; exact step_recv hw.up hw.made hin
  have n1 : w1.cl.net = w.cl.net.erase (k, .request B) ++ [(B, .ack k)] := by
    rw [hw1, mgrStep_net]
    show w.cl.net.erase (k, .request B) ++ ((w.cl.mgr k).step (fun _ => true) (.recv (.request B))).2.filterMap MOut.msg? = _
    rw [hg]; rfl
  have m1 : ∀ i, w1.cl.mgr i = w.cl.mgr i := by
    intro i
    rw [hw1]
    by_cases e : i = k
    · subst e
      rw [mgrStep_self]
      show ((w.cl.mgr i).step (fun _ => true) (.recv (.request B))).1 = _
      rw [hg]
    · rw [mgrStep_other _ _ e]
  have p1 : ∀ i, w1.proxy i = w.proxy i := by
    intro i
    rw [hw1]
    by_cases e : i = k
    · subst e
      show (if i = i then ((w.cl.mgr i).step (fun _ => true) (.recv (.request B))).2.foldl toldBy (w.proxy i) else w.proxy i) = _
      rw [hg]; simp [toldBy]
    · rw [mgrStep_proxy_other _ _ e]
  have s1 : w1.stops = w.stops := by
    rw [hw1]
    show w.stops ++ ((w.cl.mgr k).step (fun _ => true) (.recv (.request B))).2.filterMap (stopsOf k) = _
    rw [hg]; simp [stopsOf]
  have c1 : w1.clu = w.clu := by rw [hw1]; rfl
  have d1 : w1.made = w.made := by rw [hw1]; rfl
  obtain ⟨w2, hw2⟩ : ∃ w2, w2 = ({ w1 with cl := { w1.cl with net := w1.cl.net.erase (B, .ack k) } } : Sys).mgrStep B (.recv (.ack k)) := ⟨_, rfl⟩
  have e2 : w.runFrom C [.recv k (.request B), .recv B (.ack k)] = w2 := by
    simp only [Sys.runFrom, List.foldl]
    rw [e1, hw2]
    exact step_recv (by rw [c1]; exact h.up) (by rw [d1]; exact h.made) (by rw [n1]; simp)
  rw [e2]
  have hs' := hs
  rw [← m1 B] at hs'
  have hB : w2.cl.mgr B = (if todo = [] then { w.cl.mgr B with st := .starting (done ++ [k]), starts := (w.cl.mgr B).starts + 1 }
      else { w.cl.mgr B with st := .starting (done ++ [k]) }) := by
    rw [hw2, mgrStep_self]
    show ((w1.cl.mgr B).step (fun _ => true) (.recv (.ack k))).1 = _
    rw [hs', m1]
    by_cases ht : todo = []
    · rw [if_pos ht, if_pos (hlen.2 ht)]
    · rw [if_neg ht, if_neg (fun hl => ht (hlen.1 hl))]
  have hnet : ∀ j, j ≠ k → (j, MMsg.request B) ∈ w.cl.net → (j, MMsg.request B) ∈ w2.cl.net := by
    intro j hj hm
    rw [hw2, mgrStep_net]
    refine List.mem_append_left _ ?_
    show _ ∈ w1.cl.net.erase (B, .ack k)
    rw [List.mem_erase_of_ne (by simp), n1]
    refine List.mem_append_left _ ?_
    rw [List.mem_erase_of_ne (by simpa using hj)]
    exact hm
  have hb : Beside B ms w w2 := by
    refine ⟨?_, ?_, ?_, ?_, ?_⟩
    · rw [hw2]; exact c1
    · rw [hw2]; exact d1
    · intro i hi; rw [hw2, mgrStep_other _ _ hi]; exact m1 i
    · rw [hw2]
      show w1.stops ++ ((w1.cl.mgr B).step (fun _ => true) (.recv (.ack k))).2.filterMap (stopsOf B) = _
      rw [hs', s1]; simp
    · intro d s hm
      left
      rw [hw2, mgrStep_net] at hm
      rw [show (({ w1 with cl := { w1.cl with net := w1.cl.net.erase (B, .ack k) } } : Sys).cl.mgr B) = w1.cl.mgr B from rfl, hs'] at hm
      simp only [List.filterMap_nil, List.append_nil] at hm
      have hm := List.mem_of_mem_erase hm
      rw [n1] at hm
      rcases List.mem_append.1 hm with hm | hm
      · exact List.mem_of_mem_erase hm
      · simp at hm
  refine ⟨⟨?_, ?_, ?_, ?_, ?_, ?_, ?_, ?_, ?_, ?_, ?_⟩, hb, ?_⟩
  · rw [hb.clu]; exact h.up
  · rw [hb.made]; exact h.made
  · rw [hB]; split <;> exact h.self
  · rw [hB]; split <;> rfl
  · rw [List.append_assoc]; rw [hB]; split <;> exact h.perm
  · rw [List.append_assoc]; exact h.nodup
  · rw [hB]
    by_cases ht : todo = []
    · rw [if_pos ht, if_pos ht, h0]
    · rw [if_neg ht, if_neg ht]; exact h0
  · rw [hB]; split <;> exact h.results
  · rw [hB]; split <;> exact h.fresh
  · intro j hj hgj
    obtain ⟨a1, a2⟩ := h.asked j (by simp [hj]) hgj
    exact ⟨a1.beside hb, hnet j (by rintro rfl; exact hkt hj) a2⟩
  · intro j hj
    rcases List.mem_append.1 hj with hj | hj
    · obtain ⟨a1, a2⟩ := h.answered j hj
      exact ⟨a1, a2.beside hb⟩
    · simp only [List.mem_singleton] at hj
      subst hj
      exact ⟨hk, hw.beside hb⟩
  · intro i hi; rw [hw2, mgrStep_proxy_other _ _ hi]; exact p1 i

/-- what happens with one node asked: it is taken for removed, or it answers. -/
def deal (B : Nat) (gone : List Nat) (k : Nat) : List JOp :=
  if k ∈ gone then [.removed B k, .hear B (.removed k)] else [.recv k (.request B), .recv B (.ack k)]

theorem Taking.deal {ms : List Nat} {w : Sys} {B : Nat} {gone done todo : List Nat} {f k : Nat} (h : Taking w B gone done (k :: todo) f) :
    Taking (w.runFrom C (deal B gone k)) B gone (if k ∈ gone then done else done ++ [k]) todo f ∧
    Beside B ms w (w.runFrom C (Joint.deal B gone k)) ∧ ∀ i, i ≠ B → (w.runFrom C (Joint.deal B gone k)).proxy i = w.proxy i := by
  unfold Joint.deal
  by_cases hk : k ∈ gone
  · rw [if_pos hk, if_pos hk]; exact h.forget
  · rw [if_neg hk, if_neg hk]; exact h.ask hk

theorem Taking.all {ms : List Nat} {B : Nat} {gone : List Nat} {f : Nat} (todo : List Nat) {w : Sys} {done : List Nat}
    (h : Taking w B gone done todo f) :
    Taking (w.runFrom C (todo.flatMap (Joint.deal B gone))) B gone (done ++ todo.filter (· ∉ gone)) [] f ∧
    Beside B ms w (w.runFrom C (todo.flatMap (Joint.deal B gone))) ∧
    ∀ i, i ≠ B → (w.runFrom C (todo.flatMap (Joint.deal B gone))).proxy i = w.proxy i := by
  induction todo generalizing w done with
  | nil => exact ⟨by simpa [Sys.runFrom] using h, ⟨rfl, rfl, fun _ _ => rfl, rfl, fun _ _ h => .inl h⟩, fun _ _ => rfl⟩
  | cons k todo ih =>
    obtain ⟨h1, h2, h3⟩ := h.deal (C := C) (ms := ms)
    obtain ⟨i1, i2, i3⟩ := ih h1
    rw [List.flatMap_cons, runFrom_append]
    refine ⟨?_, h2.trans i2, fun i hi => (i3 i hi).trans (h3 i hi)⟩
    have : (if k ∈ gone then done else done ++ [k]) ++ todo.filter (· ∉ gone) = done ++ (k :: todo).filter (· ∉ gone) := by
      by_cases hk : k ∈ gone
      · simp [hk]
      · simp [hk]
    rw [← this]
    exact i1

/-! ### The end of it -/

theorem Taking.launch {ms : List Nat} {w : Sys} {B : Nat} {gone done : List Nat} {f : Nat} (h : Taking w B gone done [] f) :
    Settled (w.runFrom C [.boot B, .started B f]) B f ∧ Beside B ms w (w.runFrom C [.boot B, .started B f]) ∧
    (∀ i, i ≠ B → (w.runFrom C [.boot B, .started B f]).proxy i = w.proxy i) ∧
    (w.runFrom C [.boot B, .started B f]).proxy B = some B ∧
    ((w.runFrom C [.boot B, .started B f]).cl.mgr B).managers = (w.cl.mgr B).managers ∧
    (w.runFrom C [.boot B, .started B f]).cl.net = w.cl.net ++ (w.cl.mgr B).managers.map fun n => (n, .started B) := by
  have h1 : (w.cl.mgr B).starts = 1 := by rw [h.starts]; simp
  have hb : (w.cl.mgr B).step (fun _ => true) .boot = ((w.cl.mgr B).boot, []) := by simp [Mgr.step, h1]
  obtain ⟨w1, hw1⟩ : ∃ w1, w1 = w.mgrStep B .boot := ⟨_, rfl⟩
  have e1 : w.step C (.boot B) = w1 := by rw [hw1]; exact step_boot h.up h.made
  have m1 : w1.cl.mgr B = (w.cl.mgr B).boot := by rw [hw1, mgrStep_self, hb]
  have n1 : w1.cl.net = w.cl.net := by rw [hw1, mgrStep_net, hb]; simp
  have hs : (w1.cl.mgr B).step (fun _ => true) (.started f) =
      ({ (w.cl.mgr B).boot with results := [], st := .running f },
        .proxyStarted B f :: (w.cl.mgr B).managers.map fun n => .send n (.started B)) := by
    rw [m1]
    simp [Mgr.step, Mgr.boot, h.results, h.fresh, Mgr.onStarted, Mgr.notifyManagers, h.self]
  have e2 : w.runFrom C [.boot B, .started B f] = w1.mgrStep B (.started f) := by
    simp only [Sys.runFrom, List.foldl]
    rw [e1]
    exact step_started (by rw [hw1]; exact h.up) (by rw [hw1]; exact h.made)
  have hB : (w1.mgrStep B (.started f)).cl.mgr B = { (w.cl.mgr B).boot with results := [], st := .running f } := by
    rw [mgrStep_self, hs]
  rw [e2]
  have hnet : (w1.mgrStep B (.started f)).cl.net = w.cl.net ++ (w.cl.mgr B).managers.map fun n => (n, MMsg.started B) := by
    rw [mgrStep_net, hs, n1]
    congr 1
    simp only [List.filterMap_cons, MOut.msg?, List.filterMap_map]
    exact congrFun (List.filterMap_eq_map (f := fun n => (n, MMsg.started B))) _
  refine ⟨⟨⟨?_, ?_⟩, ?_, ?_, ?_⟩, ⟨?_, ?_, ?_, ?_, ?_⟩, ?_, ?_, ?_, hnet⟩
  · rw [hw1]; exact h.up
  · rw [hB]; simp [Mgr.boot, h.fresh]
  · rw [hB]
  · rw [hB]; simp [Mgr.boot, h1]
  · rw [hB]
  · rw [hw1]; rfl
  · rw [hw1]; rfl
  · intro i hi; rw [mgrStep_other _ _ hi, hw1, mgrStep_other _ _ hi]
  · show w1.stops ++ ((w1.cl.mgr B).step (fun _ => true) (.started f)).2.filterMap (stopsOf B) = _
    rw [hs, hw1]
    show (w.stops ++ ((w.cl.mgr B).step (fun _ => true) .boot).2.filterMap (stopsOf B)) ++ _ = _
    rw [hb]
    simp [stopsOf]
  · intro d s hm
    rw [hnet] at hm
    rcases List.mem_append.1 hm with hm | hm
    · exact .inl hm
    · simp at hm
  · intro i hi; rw [mgrStep_proxy_other _ _ hi, hw1, mgrStep_proxy_other _ _ hi]
  · show (if B = B then ((w1.cl.mgr B).step (fun _ => true) (.started f)).2.foldl toldBy (w1.proxy B) else _) = _
    rw [hs, if_pos rfl]
    simp only [List.foldl, toldBy]
    exact fold_sends (fun x hx => by obtain ⟨n, _, rfl⟩ := List.mem_map.1 hx; exact ⟨_, _, rfl⟩) _
  · rw [hB]; rfl

/-- the nodes are told where the singleton runs. -/
theorem tell_all {B : Nat} (ks : List Nat) {w : Sys} (hn : ks.Nodup) (hk : ∀ k ∈ ks, Up w.clu k ∧ w.made k = true)
    (hin : ∀ k ∈ ks, (k, MMsg.started B) ∈ w.cl.net) :
    (∀ k ∈ ks, (w.runFrom C (ks.map fun k => .recv k (.started B))).proxy k = some B) ∧
    (∀ i, i ∉ ks → (w.runFrom C (ks.map fun k => .recv k (.started B))).proxy i = w.proxy i) ∧
    (∀ i, (w.runFrom C (ks.map fun k => .recv k (.started B))).cl.mgr i = w.cl.mgr i) ∧
    (w.runFrom C (ks.map fun k => .recv k (.started B))).clu = w.clu ∧
    (w.runFrom C (ks.map fun k => .recv k (.started B))).made = w.made ∧
    (w.runFrom C (ks.map fun k => .recv k (.started B))).stops = w.stops ∧
    (∀ x ∈ (w.runFrom C (ks.map fun k => .recv k (.started B))).cl.net, x ∈ w.cl.net) ∧
    (w.runFrom C (ks.map fun k => .recv k (.started B))).bus = w.bus := by
  induction ks generalizing w with
  | nil => exact ⟨by simp, fun _ _ => rfl, fun _ => rfl, rfl, rfl, rfl, fun _ h => h, rfl⟩
  | cons k ks ih =>
    rw [List.nodup_cons] at hn
    obtain ⟨u1, u2⟩ := hk k (by simp)
    have hs : (w.cl.mgr k).step (fun _ => true) (.recv (.started B)) = (w.cl.mgr k, [.proxyRemote B]) := rfl
    obtain ⟨w1, hw1⟩ : ∃ w1, w1 = ({ w with cl := { w.cl with net := w.cl.net.erase (k, .started B) } } : Sys).mgrStep k (.recv (.started B)) := ⟨_, rfl⟩
    have e1 : w.step C (.recv k (.started B)) = w1 := by rw [hw1]; exact step_recv u1 u2 (hin k (by simp))
    have n1 : w1.cl.net = w.cl.net.erase (k, .started B) := by rw [hw1, mgrStep_net]; simp [hs, MOut.msg?]
    have m1 : ∀ i, w1.cl.mgr i = w.cl.mgr i := by
      intro i
      rw [hw1]
      by_cases e : i = k
      · subst e; rw [mgrStep_self]; rfl
      · rw [mgrStep_other _ _ e]
    have p1 : w1.proxy k = some B := by rw [hw1]; simp [Sys.mgrStep, hs, toldBy]
    have p2 : ∀ i, i ≠ k → w1.proxy i = w.proxy i := by intro i hi; rw [hw1, mgrStep_proxy_other _ _ hi]
    have c1 : w1.clu = w.clu := by rw [hw1]; rfl
    have d1 : w1.made = w.made := by rw [hw1]; rfl
    have s1 : w1.stops = w.stops := by rw [hw1]; simp [Sys.mgrStep, hs, stopsOf]
    have b1 : w1.bus = w.bus := by rw [hw1]; rfl
    have hrun : w.runFrom C ((k :: ks).map fun k => .recv k (.started B)) = w1.runFrom C (ks.map fun k => .recv k (.started B)) := by
      show (w.step C (.recv k (.started B))).runFrom C _ = _
      rw [e1]
    rw [hrun]
    obtain ⟨i1, i2, i3, i4, i5, i6, i7, i8⟩ := ih (w := w1) hn.2
      (fun j hj => by rw [c1, d1]; exact hk j (by simp [hj]))
      (fun j hj => by
        rw [n1, List.mem_erase_of_ne]
        · exact hin j (by simp [hj])
        · intro e; simp only [Prod.mk.injEq] at e; exact hn.1 (e.1 ▸ hj))
    refine ⟨?_, ?_, fun i => (i3 i).trans (m1 i), i4.trans c1, i5.trans d1, i6.trans s1, ?_, i8.trans b1⟩
    · intro j hj
      rcases List.mem_cons.1 hj with rfl | hj
      · rw [i2 _ hn.1]; exact p1
      · exact i1 j hj
    · intro i hi
      simp only [List.mem_cons, not_or] at hi
      rw [i2 i hi.2]; exact p2 i hi.1
    · intro x hx
      have := i7 x hx
      rw [n1] at this
      exact List.mem_of_mem_erase this

/-! ### The beginning of it -/

theorem begin_step {σ : Mgr} (hst : σ.st = .idle) : σ.step (fun _ => true) (.leaderChanged σ.self) =
    ({ σ with st := .starting [], starts := σ.starts + (if σ.managers = [] then 1 else 0) },
      σ.managers.map fun n => .send n (.request σ.self)) := by
  have hj : σ.st.isJoining = false := by rw [hst]; rfl
  have hr : σ.st.isRunning = false := by rw [hst]; rfl
  simp only [Mgr.step, hj, Mgr.onLeaderChanged, hr, Mgr.beginStarting, Mgr.startActor, Mgr.notifyManagers]
  cases hm : σ.managers with
  | nil => simp
  | cons a l => simp

/-- `B` hears that it leads. -/
theorem Taking.begin {ms : List Nat} {w : Sys} {B : Nat} {gone todo : List Nat} (hup : Up w.clu B) (hmade : w.made B = true)
    (hself : (w.cl.mgr B).self = B) (hst : (w.cl.mgr B).st = .idle) (hs : (w.cl.mgr B).starts = 0)
    (hr : (w.cl.mgr B).results = []) (hnd : (w.cl.mgr B).managers.Nodup) (hp : todo.Perm (w.cl.mgr B).managers)
    (hms : ∀ k ∈ (w.cl.mgr B).managers, k ∈ ms)
    (hw : ∀ k ∈ todo, k ∉ gone → Willing w B k) (hin : (B, News.leaderChanged B) ∈ w.bus) :
    Taking (w.step C (.hear B (.leaderChanged B))) B gone [] todo (w.cl.mgr B).fresh ∧
    Beside B ms w (w.step C (.hear B (.leaderChanged B))) ∧
    (∀ i, (w.step C (.hear B (.leaderChanged B))).proxy i = w.proxy i) ∧
    (w.step C (.hear B (.leaderChanged B))).cl.net = w.cl.net ++ (w.cl.mgr B).managers.map (fun n => (n, .request B)) ∧
    (w.step C (.hear B (.leaderChanged B))).bus = w.bus.erase (B, .leaderChanged B) := by
  have hb := begin_step hst
  rw [hself] at hb
  rw [step_hear hup hmade hin]
  obtain ⟨w1, hw1⟩ : ∃ w1, w1 = ({ w with bus := w.bus.erase (B, .leaderChanged B) } : Sys).mgrStep B (.leaderChanged B) := ⟨_, rfl⟩
  have hB : w1.cl.mgr B = { w.cl.mgr B with st := .starting [], starts := (w.cl.mgr B).starts + (if (w.cl.mgr B).managers = [] then 1 else 0) } := by
    rw [hw1, mgrStep_self]
    show ((w.cl.mgr B).step (fun _ => true) (.leaderChanged B)).1 = _
    rw [hb]
    simp [hself]
  have hnet : w1.cl.net = w.cl.net ++ (w.cl.mgr B).managers.map (fun n => (n, MMsg.request B)) := by
    rw [hw1, mgrStep_net]
    show w.cl.net ++ ((w.cl.mgr B).step (fun _ => true) (.leaderChanged B)).2.filterMap MOut.msg? = _
    rw [hb]
    congr 1
    simp only [List.filterMap_map]
    exact congrFun (List.filterMap_eq_map (f := fun n => (n, MMsg.request B))) _
  have hbe : Beside B ms w w1 := by
    refine ⟨by rw [hw1]; rfl, by rw [hw1]; rfl, fun i hi => by rw [hw1, mgrStep_other _ _ hi], ?_, ?_⟩
    case refine_2 =>
      intro d s hm
      rw [hnet] at hm
      rcases List.mem_append.1 hm with hm | hm
      · exact .inl hm
      · obtain ⟨n, hn, e⟩ := List.mem_map.1 hm
        simp only [Prod.mk.injEq, MMsg.request.injEq] at e
        exact .inr ⟨e.2.symm, e.1 ▸ hms n hn⟩
    rw [hw1]
    show w.stops ++ ((w.cl.mgr B).step (fun _ => true) (.leaderChanged B)).2.filterMap (stopsOf B) = _
    rw [hb]
    simp [stopsOf]
  have hempty : (w.cl.mgr B).managers = [] ↔ todo = [] := by
    constructor
    · intro e; rw [e] at hp; exact hp.eq_nil
    · rintro rfl; exact hp.symm.eq_nil
  have e0 : ({ w with bus := w.bus.erase (B, .leaderChanged B) } : Sys).mgrStep B (News.leaderChanged B).op = w1 := by rw [hw1]; rfl
  rw [e0]
  refine ⟨⟨?_, ?_, ?_, ?_, ?_, ?_, ?_, ?_, ?_, ?_, ?_⟩, hbe, ?_, hnet, by rw [hw1]; rfl⟩
  · rw [hbe.clu]; exact hup
  · rw [hbe.made]; exact hmade
  · rw [hB]; exact hself
  · rw [hB]
  · rw [hB]; exact hp.symm
  · exact hp.nodup_iff.2 hnd
  · rw [hB]
    by_cases e : todo = []
    · simp [hs, e, hempty.2 e]
    · simp [hs, e, mt hempty.1 e]
  · rw [hB]; exact hr
  · rw [hB]
  · intro k hk hg
    refine ⟨(hw k hk hg).beside hbe, ?_⟩
    rw [hnet]
    exact List.mem_append_right _ (List.mem_map_of_mem (f := fun n => (n, MMsg.request B)) (hp.mem_iff.1 hk))
  · simp
  · intro i
    rw [hw1]
    by_cases e : i = B
    · subst e
      show (if i = i then ((w.cl.mgr i).step (fun _ => true) (.leaderChanged i)).2.foldl toldBy (w.proxy i) else w.proxy i) = _
      rw [hb, if_pos rfl]
      exact fold_sends (fun x hx => by obtain ⟨n, _, rfl⟩ := List.mem_map.1 hx; exact ⟨_, _, rfl⟩) _
    · rw [mgrStep_proxy_other _ _ e]

/-! ### Waiting for a node that has ended -/

/-- `X` is starting and waits for `Y`; no answer of `Y` is under way. -/
structure Dangles (w : Cl) (X Y : Nat) : Prop where
  start : ∃ l, (w.mgr X).st = .starting l ∧ Y ∉ l
  knows : Y ∈ (w.mgr X).managers
  starts : (w.mgr X).starts = 0
  results : (w.mgr X).results = []
  ack : (X, MMsg.ack Y) ∉ w.net

theorem Dangles.act {w : Cl} (hb : Books w) {X Y : Nat} (h : Dangles w X Y) {net0 : List (Nat × MMsg)} {i : Nat} {op : MOp}
    (hop : plain op = true) (hsub : ∀ x ∈ net0, x ∈ w.net) (hrec : ∀ m, op = .recv m → (i, m) ∈ w.net)
    (hup : i = X → ∀ l ms, op ≠ .memberUp l ms) (hiY : i ≠ Y) : Dangles (Joint.act w net0 i op) X Y := by
  have hW := (Waits.act hb (X := Y) (Z := X) ⟨fun l hl => by obtain ⟨l0, h1, h2⟩ := h.start; rw [h1] at hl; cases hl; exact h2,
    h.knows, h.starts, h.ack⟩ (net0 := net0) hop hsub hrec (fun _ e => absurd e hiY)).1
  have f := facts (hb.nodup i) hop
  obtain ⟨l0, hl0, hY0⟩ := h.start
  by_cases e : X = i
  · subst e
    by_cases ha : ∃ a, op = .started a
    · obtain ⟨a, rfl⟩ := ha
      have hsame : (Joint.act w net0 X (.started a)).mgr X = w.mgr X := by
        rw [act_self]
        simp only [Mgr.step, h.results]
        simp
      exact ⟨by rw [hsame]; exact h.start, hW.knows, hW.starts, by rw [hsame]; exact h.results, hW.ack⟩
    · obtain ⟨l, hl, _⟩ := f.stays l0 hl0 (fun a e => ha ⟨a, e⟩) (hup rfl)
      refine ⟨⟨l, by rw [act_self]; exact hl, hW.start l (by rw [act_self]; exact hl)⟩, hW.knows, hW.starts, ?_, hW.ack⟩
      rw [act_self, List.eq_nil_iff_forall_not_mem]
      intro a ha
      rcases f.results a ha with h1 | h1
      · rw [h.results] at h1; simp at h1
      · rw [h.starts] at h1; omega
  · exact ⟨by rw [act_other _ _ _ e]; exact h.start, hW.knows, hW.starts, by rw [act_other _ _ _ e]; exact h.results, hW.ack⟩

/-- steps as the managers see them, with the node that acts. -/
theorem sees_up {C : Conf} {w w' : Sys} {op : JOp} (hn : NoRem w) (ht : Trans C w op w') :
    ((w'.cl.mgr = w.cl.mgr) ∧ ∀ x ∈ w'.cl.net, x ∈ w.cl.net) ∨
    ∃ i mop net0, w'.cl = act w.cl net0 i mop ∧ plain mop = true ∧ (∀ x ∈ net0, x ∈ w.cl.net) ∧
      (∀ m, mop = .recv m → (i, m) ∈ w.cl.net) ∧ (∀ l ms, mop = .memberUp l ms → (i, News.memberUp l ms) ∈ w.bus) ∧ Up w.clu i := by
  cases ht with
  | beat o => exact .inl ⟨rfl, fun _ h => h⟩
  | added i j => exact .inl ⟨rfl, fun _ h => h⟩
  | removed i j => exact .inl ⟨rfl, fun _ h => h⟩
  | build i => exact .inl ⟨rfl, fun _ h => h⟩
  | idle => exact .inl ⟨rfl, fun _ h => h⟩
  | miss i e hm hin => exact .inl ⟨rfl, fun _ h => h⟩
  | lose i m hm hin => exact .inl ⟨rfl, fun _ h => List.mem_of_mem_erase h⟩
  | hear i e ha hm hin =>
    refine .inr ⟨i, e.op, w.cl.net, rfl, op_plain e fun j hj => hn i j (hj ▸ hin), fun _ h => h, ?_, ?_, ha⟩
    · intro m he; cases e <;> simp [News.op] at he
    · intro l ms he
      cases e <;> simp [News.op] at he
      obtain ⟨rfl, rfl⟩ := he
      exact hin
  | recv i m ha hm hin =>
    exact .inr ⟨i, .recv m, w.cl.net.erase (i, m), rfl, rfl, fun _ h => List.mem_of_mem_erase h,
      (by rintro _ ⟨rfl⟩; exact hin), (by simp), ha⟩
  | own op i mop ha hm ho =>
    have hp := own_plain ho
    exact .inr ⟨i, mop, w.cl.net, rfl, hp.1, fun _ h => h, fun m e => absurd e (hp.2.1 m), fun l ms e => absurd e (hp.2.2.1 l ms), ha⟩

theorem down_stays {C : Conf} {w : Sys} {Y : Nat} (h : ¬ Up w.clu Y) (op : JOp) : ¬ Up (w.step C op).clu Y := by
  rw [step_clu]
  cases op with
  | beat o =>
    have hact : ∀ k hop, ¬ Up (w.clu.act C k hop) Y := by
      intro k hop
      unfold Clu.act
      split
      · exact h
      · exact h
    cases o with
    | pass d => exact h
    | stop j =>
      simp only [Clu.step]
      split
      · exact h
      · intro hc
        simp only [Up] at hc
        split at hc
        · cases hc
        · exact h hc
    | answer i j lat s r => simp only [Clu.step]; split <;> first | exact hact _ _ | exact h
    | missed i j p => cases p <;> first | exact hact _ _ | exact h
    | tick i => exact hact _ _
    | learn i j => exact hact _ _
    | notice i j => exact hact _ _
  | _ => exact h

theorem Waits.step_down {C : Conf} {w : Sys} (h : World C w) {Y Z : Nat} (hY : ¬ Up w.clu Y) (hw : Waits w.cl Y Z) {op : JOp} :
    Waits (w.step C op).cl Y Z ∧ ((w.step C op).cl.mgr Z).fresh = (w.cl.mgr Z).fresh := by
  rcases sees_up h.norem (step_trans C w op) with ⟨h1, h2⟩ | ⟨i, mop, net0, hv, hp, hsub, hrec, hup, hi⟩
  · refine ⟨⟨?_, ?_, ?_, fun hm => hw.ack (h2 _ hm)⟩, by rw [h1]⟩
    · rw [h1]; exact hw.start
    · rw [h1]; exact hw.knows
    · rw [h1]; exact hw.starts
  · rw [hv]
    exact hw.act h.books hp hsub hrec (fun _ e => absurd (e ▸ hi) hY)

theorem Dangles.step_down {C : Conf} {w : Sys} (h : World C w) {X Y : Nat} (hY : ¬ Up w.clu Y) (hd : Dangles w.cl X Y) {op : JOp} :
    Dangles (w.step C op).cl X Y := by
  rcases sees_up h.norem (step_trans C w op) with ⟨h1, h2⟩ | ⟨i, mop, net0, hv, hp, hsub, hrec, hup, hi⟩
  · refine ⟨?_, ?_, ?_, ?_, fun hm => hd.ack (h2 _ hm)⟩
    · rw [h1]; exact hd.start
    · rw [h1]; exact hd.knows
    · rw [h1]; exact hd.starts
    · rw [h1]; exact hd.results
  · rw [hv]
    refine hd.act h.books hp hsub hrec ?_ (fun e => hY (e ▸ hi))
    rintro rfl l ms rfl
    refine spent_no (h.ups.spent i ?_) l ms (hup l ms rfl)
    intro p hp2
    obtain ⟨l0, h1, _⟩ := hd.start
    rw [h1] at hp2; cases hp2

theorem waits_down_run {C : Conf} (henv : ∀ t d, C.env.addOk t d = true) (ops : List JOp) {w : Sys} (h : World C w)
    (ho : NoRemoval ops) {Y Z : Nat} (hY : ¬ Up w.clu Y) (hw : Waits w.cl Y Z) :
    ((w.runFrom C ops).cl.mgr Z).fresh = (w.cl.mgr Z).fresh := by
  induction ops generalizing w with
  | nil => rfl
  | cons op ops ih =>
    obtain ⟨w1, w2⟩ := hw.step_down h hY (op := op)
    rw [← w2]
    exact ih (h.step henv fun i j e => ho i j (by simp [e])) (fun i j hm => ho i j (by simp [hm])) (down_stays hY op) w1

theorem dangles_run {C : Conf} (henv : ∀ t d, C.env.addOk t d = true) (ops : List JOp) {w : Sys} (h : World C w)
    (ho : NoRemoval ops) {X Y : Nat} (hY : ¬ Up w.clu Y) (hd : Dangles w.cl X Y) :
    Dangles (w.runFrom C ops).cl X Y := by
  induction ops generalizing w with
  | nil => exact hd
  | cons op ops ih =>
    exact ih (h.step henv fun i j e => ho i j (by simp [e])) (fun i j hm => ho i j (by simp [hm])) (down_stays hY op)
      (hd.step_down h hY)

end Verif.Singleton.Joint
