import Verif.Actor.PoolSpec
import Verif.Util

namespace Verif.Actor.Pool

variable {R : Type}

theorem given_append (a b : List Op) : given (a ++ b) = given a ++ given b := by
  induction a with
  | nil => rfl
  | cons o a ih => cases o <;> simp [given, ih]


theorem run_snoc (res : Nat → Nat → R) (σ : St R) (ops : List Op) (o : Op) :
    run res σ (ops ++ [o]) = step res (run res σ ops) o := by simp [run]

/-- all tasks the pool knows of. -/
def tasks (σ : St R) : List Nat :=
  σ.inbox ++ (σ.fly.map Prod.snd ++ (σ.queued.map Prod.snd ++ σ.outs.map Prod.fst))

theorem tell_fst (o : Out R) (ts : List Nat) : (tell o ts).map Prod.fst = ts := by
  simp [tell, Function.comp_def]

theorem split_box (σ : St R) (w : Nat) : (box σ w ++ (others σ w).map Prod.snd).Perm (σ.queued.map Prod.snd) := by
  unfold box others
  rw [← List.map_append]
  exact (List.filter_append_perm _ _).map _

theorem box_head {σ : St R} {w t : Nat} {ts : List Nat} (h : box σ w = t :: ts) : (w, t) ∈ σ.queued := by
  have : t ∈ box σ w := by rw [h]; simp
  unfold box at this
  obtain ⟨p, hp, rfl⟩ := List.mem_map.1 this
  obtain ⟨h1, h2⟩ := List.mem_filter.1 hp
  have h3 : p.1 = w := by simpa using h2
  rw [← h3]; exact h1

theorem eraseIdx_perm' {α : Type} (l : List α) (i : Nat) (x : α) (h : l[i]? = some x) : l.Perm (x :: l.eraseIdx i) := by
  induction l generalizing i with
  | nil => simp at h
  | cons a l ih =>
    cases i with
    | zero => simp at h; subst h; simp
    | succ i =>
      simp only [List.getElem?_cons_succ] at h
      simp only [List.eraseIdx_cons_succ]
      exact ((ih i h).cons a).trans (List.Perm.swap _ _ _)

theorem count_perm {l l' : List Nat} (h : ∀ a, l.count a = l'.count a) : l.Perm l' := List.perm_iff_count.2 h

theorem tasks_step (res : Nat → Nat → R) (σ : St R) (o : Op) : (tasks (step res σ o)).Perm (given [o] ++ tasks σ) := by
  apply count_perm
  intro a
  cases o with
  | dispatch t =>
    simp only [step, dispatch]
    split <;> simp [tasks, given, List.count_cons] <;> omega
  | handle =>
    simp only [step, handle]
    split
    · simp [given]
    · rename_i t rest h
      split
      · simp [tasks, given, h, List.count_cons]; omega
      · simp [tasks, given, h, List.count_cons]; omega
  | send i =>
    simp only [step, send]
    split
    · simp [given]
    · rename_i w t h
      have hp := ((eraseIdx_perm' _ _ _ h).map Prod.snd).count_eq a
      simp only [List.map_cons, List.count_cons] at hp
      split
      · simp [tasks, given, hp, List.count_cons]; omega
      · simp [tasks, given, hp, List.count_cons]; omega
  | work w =>
    simp only [step, work]
    split
    · simp [given]
    · rename_i t ts h
      have hp := ((List.perm_cons_erase (box_head h)).map Prod.snd).count_eq a
      simp only [List.map_cons, List.count_cons] at hp
      simp [tasks, given, hp, List.count_cons]; omega
  | panic w =>
    simp only [step, panic]
    split
    · simp [given]
    · rename_i t ts h
      have hp := (split_box σ w).count_eq a
      rw [h] at hp
      simp only [List.count_append] at hp
      simp [tasks, given, tell_fst, ← hp]; omega
  | stopWorker w =>
    have hp := (split_box σ w).count_eq a
    simp only [List.count_append] at hp
    simp [step, stopWorker, tasks, given, tell_fst, ← hp]; omega
  | stopPool =>
    simp [step, stopPool, tasks, given, tell_fst]; omega

theorem tasks_run (res : Nat → Nat → R) (n : Nat) (ops : List Op) : (tasks (run res (init n) ops)).Perm (given ops) := by
  induction ops using snoc_induction with
  | nil => simp [run, tasks, init, given]
  | snoc ops o ih =>
    rw [run_snoc, given_append]
    exact (tasks_step res _ o).trans (((List.Perm.refl _).append ih).trans List.perm_append_comm)

/-- what holds in every state. -/
structure Inv (res : Nat → Nat → R) (n : Nat) (σ : St R) : Prop where
  ring : ∀ w ∈ σ.ring, w < n
  len : σ.ring.length = n
  fly : ∀ p ∈ σ.fly, p.1 < n
  queued : ∀ p ∈ σ.queued, p.1 < n ∧ σ.alive p.1 = true
  inbox : σ.up = false → σ.inbox = []
  done : ∀ p ∈ σ.done, p.1 < n ∧ ((p.2, .ok (res p.1 p.2)) ∈ σ.outs ∨ (p.2, .closed) ∈ σ.outs)
  good : ∀ t r, (t, .ok r) ∈ σ.outs → ∃ w, (w, t) ∈ σ.done ∧ r = res w t

theorem workerHandle_mem {ws ws' : List Nat} {o : Option Nat} (h : workerHandle ws = (ws', o)) :
    (∀ w ∈ ws', w ∈ ws) ∧ ws'.length = ws.length ∧ (∀ w, o = some w → w ∈ ws) ∧ (o = none ↔ ws = []) := by
  cases ws with
  | nil => simp [workerHandle] at h; obtain ⟨rfl, rfl⟩ := h; simp
  | cons a r =>
    simp only [workerHandle, Prod.mk.injEq] at h
    obtain ⟨rfl, rfl⟩ := h
    refine ⟨by intro w hw; simp at hw ⊢; exact hw.symm, by simp, by simp, by simp⟩

theorem mem_others {σ : St R} {w : Nat} {p : Nat × Nat} (h : p ∈ others σ w) : p ∈ σ.queued ∧ p.1 ≠ w := by
  obtain ⟨h1, h2⟩ := List.mem_filter.1 h
  exact ⟨h1, by simpa using h2⟩

theorem not_ok_tell {ts : List Nat} {t : Nat} {r : R} : (t, Out.ok r) ∉ tell .closed ts := by
  simp [tell]

theorem Inv.step {res : Nat → Nat → R} {n : Nat} {σ : St R} (h : Inv res n σ) (o : Op) : Inv res n (Pool.step res σ o) := by
  cases o with
  | dispatch t =>
    simp only [Pool.step, dispatch]
    split
    · rename_i hu
      exact { h with inbox := fun e => by rw [hu] at e; cases e }
    · refine { h with done := ?_, good := ?_ }
      · intro p hp
        obtain ⟨h1, h2⟩ := h.done p hp
        exact ⟨h1, h2.imp (fun h => List.mem_append_left _ h) (fun h => List.mem_append_left _ h)⟩
      · intro t' r hr
        simp only [List.mem_append, List.mem_singleton, Prod.mk.injEq, reduceCtorEq, and_false, or_false] at hr
        exact h.good t' r hr
  | handle =>
    simp only [Pool.step, handle]
    split
    · exact h
    · rename_i t rest hb
      have hi : σ.up = false → rest = [] := fun e => by have := h.inbox e; rw [hb] at this; cases this
      split
      · refine { h with inbox := hi, done := ?_, good := ?_ }
        · intro p hp
          obtain ⟨h1, h2⟩ := h.done p hp
          exact ⟨h1, h2.imp (fun h => List.mem_append_left _ h) (fun h => List.mem_append_left _ h)⟩
        · intro t' r hr
          simp only [List.mem_append, List.mem_singleton, Prod.mk.injEq, reduceCtorEq, and_false, or_false] at hr
          exact h.good t' r hr
      · rename_i ring w hw
        obtain ⟨h1, h2, h3, -⟩ := workerHandle_mem hw
        refine { h with inbox := hi, ring := fun v hv => h.ring v (h1 v hv), len := h2.trans h.len, fly := ?_ }
        intro p hp
        rcases List.mem_append.1 hp with hp | hp
        · exact h.fly p hp
        · simp only [List.mem_singleton] at hp
          subst hp
          exact h.ring w (h3 w rfl)
  | send i =>
    simp only [Pool.step, send]
    split
    · exact h
    · rename_i w t hf
      have hm : (w, t) ∈ σ.fly := List.mem_of_getElem? hf
      have hfly : ∀ p ∈ σ.fly.eraseIdx i, p.1 < n := fun p hp => h.fly p (List.mem_of_mem_eraseIdx hp)
      split
      · rename_i ha
        refine { h with fly := hfly, queued := ?_ }
        intro p hp
        rcases List.mem_append.1 hp with hp | hp
        · exact h.queued p hp
        · simp only [List.mem_singleton] at hp
          subst hp
          exact ⟨h.fly _ hm, ha⟩
      · refine { h with fly := hfly, done := ?_, good := ?_ }
        · intro p hp
          obtain ⟨h1, h2⟩ := h.done p hp
          exact ⟨h1, h2.imp (fun h => List.mem_append_left _ h) (fun h => List.mem_append_left _ h)⟩
        · intro t' r hr
          simp only [List.mem_append, List.mem_singleton, Prod.mk.injEq, reduceCtorEq, and_false, or_false] at hr
          exact h.good t' r hr
  | work w =>
    simp only [Pool.step, work]
    split
    · exact h
    · rename_i t ts hb
      have hq := box_head hb
      refine { h with queued := fun p hp => h.queued p (List.mem_of_mem_erase hp), done := ?_, good := ?_ }
      · intro p hp
        rcases List.mem_append.1 hp with hp | hp
        · obtain ⟨h1, h2⟩ := h.done p hp
          exact ⟨h1, h2.imp (fun h => List.mem_append_left _ h) (fun h => List.mem_append_left _ h)⟩
        · simp only [List.mem_singleton] at hp
          subst hp
          exact ⟨(h.queued _ hq).1, .inl (by simp)⟩
      · intro t' r hr
        rcases List.mem_append.1 hr with hr | hr
        · obtain ⟨v, h1, h2⟩ := h.good t' r hr
          exact ⟨v, List.mem_append_left _ h1, h2⟩
        · simp only [List.mem_singleton, Prod.mk.injEq, Out.ok.injEq] at hr
          obtain ⟨rfl, rfl⟩ := hr
          exact ⟨w, by simp, rfl⟩
  | panic w =>
    simp only [Pool.step, panic]
    split
    · exact h
    · rename_i t ts hb
      have hq := box_head hb
      refine { h with queued := ?_, done := ?_, good := ?_ }
      · intro p hp
        obtain ⟨h1, h2⟩ := mem_others hp
        exact ⟨(h.queued p h1).1, by simp only [if_neg h2]; exact (h.queued p h1).2⟩
      · intro p hp
        rcases List.mem_append.1 hp with hp | hp
        · obtain ⟨h1, h2⟩ := h.done p hp
          exact ⟨h1, h2.imp (fun h => List.mem_append_left _ h) (fun h => List.mem_append_left _ h)⟩
        · simp only [List.mem_singleton] at hp
          subst hp
          exact ⟨(h.queued _ hq).1, .inr (by simp [tell])⟩
      · intro t' r hr
        rcases List.mem_append.1 hr with hr | hr
        · obtain ⟨v, h1, h2⟩ := h.good t' r hr
          exact ⟨v, List.mem_append_left _ h1, h2⟩
        · exact absurd hr not_ok_tell
  | stopWorker w =>
    refine { h with queued := ?_, done := ?_, good := ?_ }
    · intro p hp
      obtain ⟨h1, h2⟩ := mem_others hp
      exact ⟨(h.queued p h1).1, by simp only [Pool.step, stopWorker, if_neg h2]; exact (h.queued p h1).2⟩
    · intro p hp
      obtain ⟨h1, h2⟩ := h.done p hp
      exact ⟨h1, h2.imp (fun h => List.mem_append_left _ h) (fun h => List.mem_append_left _ h)⟩
    · intro t' r hr
      rcases List.mem_append.1 hr with hr | hr
      · exact h.good t' r hr
      · exact absurd hr not_ok_tell
  | stopPool =>
    refine { h with inbox := fun _ => rfl, done := ?_, good := ?_ }
    · intro p hp
      obtain ⟨h1, h2⟩ := h.done p hp
      exact ⟨h1, h2.imp (fun h => List.mem_append_left _ h) (fun h => List.mem_append_left _ h)⟩
    · intro t' r hr
      rcases List.mem_append.1 hr with hr | hr
      · exact h.good t' r hr
      · exact absurd hr not_ok_tell

theorem Inv.run (res : Nat → Nat → R) (n : Nat) (ops : List Op) : Inv res n (Pool.run res (init n) ops) := by
  induction ops using snoc_induction with
  | nil =>
    exact { ring := by simp [Pool.run, init], len := by simp [Pool.run, init], fly := by simp [Pool.run, init],
            queued := by simp [Pool.run, init], inbox := by simp [Pool.run, init], done := by simp [Pool.run, init],
            good := by simp [Pool.run, init] }
  | snoc ops o ih => rw [run_snoc]; exact ih.step o


/-- no task is begun more often than it is answered. -/
theorem done_count (res : Nat → Nat → R) (n : Nat) (ops : List Op) (a : Nat) :
    ((run res (init n) ops).done.map Prod.snd).count a ≤ ((run res (init n) ops).outs.map Prod.fst).count a := by
  induction ops using snoc_induction with
  | nil => simp [run, init]
  | snoc ops o ih =>
    rw [run_snoc]
    generalize run res (init n) ops = σ at ih ⊢
    cases o with
    | dispatch t => simp only [step, dispatch]; split <;> simp <;> omega
    | handle =>
      simp only [step, handle]
      split
      · exact ih
      · split <;> simp <;> omega
    | send i =>
      simp only [step, send]
      split
      · exact ih
      · split <;> simp <;> omega
    | work w =>
      simp only [step, work]
      split
      · exact ih
      · simp only [List.map_append, List.count_append, List.map_cons, List.map_nil]; omega
    | panic w =>
      simp only [step, panic]
      split
      · exact ih
      · simp only [List.map_append, List.count_append, List.map_cons, List.map_nil, tell_fst, List.count_cons,
          List.count_nil]; omega
    | stopWorker w => simp only [step, stopWorker, List.map_append, List.count_append]; omega
    | stopPool => simp only [step, stopPool, List.map_append, List.count_append]; omega

/-! ### Which worker gets which task -/

/-- the workers of a pool of `n` after `k` tasks. -/
def rot (n k : Nat) : List Nat := (List.range n).map fun j => (k + j) % n

theorem rot_zero (n : Nat) : rot n 0 = List.range n := by
  unfold rot
  apply List.ext_getElem (by simp)
  intro i h1 h2
  simp at h1
  simp [Nat.mod_eq_of_lt h1]

theorem rot_handle {n : Nat} (hn : 0 < n) (k : Nat) : workerHandle (rot n k) = (rot n (k + 1), some (k % n)) := by
  obtain ⟨m, rfl⟩ : ∃ m, n = m + 1 := ⟨n - 1, by omega⟩
  have h1 : rot (m + 1) k = (k % (m + 1)) :: (List.range m).map (fun j => (k + 1 + j) % (m + 1)) := by
    unfold rot
    rw [List.range_succ_eq_map]
    simp only [List.map_cons, List.map_map, Nat.add_zero]
    congr 1
    apply List.map_congr_left
    intro j _
    simp only [Function.comp_apply, Nat.succ_eq_add_one]
    congr 1; omega
  have h2 : rot (m + 1) (k + 1) = (List.range m).map (fun j => (k + 1 + j) % (m + 1)) ++ [k % (m + 1)] := by
    unfold rot
    rw [List.range_succ]
    simp only [List.map_append, List.map_cons, List.map_nil]
    congr 2
    rw [Nat.add_assoc, Nat.add_comm 1 m]; simp
  rw [h1, h2]
  rfl

/-- which worker has which task, and which tasks failed. -/
structure Turn (n : Nat) (ops : List Op) (σ : St R) (k : Nat) : Prop where
  ring : σ.ring = rot n k
  inbox : σ.up = true → σ.inbox = (given ops).drop k
  down : σ.up = false → σ.inbox = []
  le : k ≤ (given ops).length
  who : ∀ p, p ∈ σ.fly ∨ p ∈ σ.queued ∨ p ∈ σ.done → ∃ j, j < k ∧ Nth ops j p.2 ∧ p.1 = j % n
  closed : (∀ w, Op.panic w ∉ ops) → .stopPool ∉ ops →
    ∀ t, (t, .closed) ∈ σ.outs → ∃ j, Nth ops j t ∧ σ.alive (j % n) = false
  noinv : .stopPool ∉ ops → σ.up = true ∧ ∀ t, (t, .invalid) ∉ σ.outs

theorem Nth.snoc {ops : List Op} {j t : Nat} (h : Nth ops j t) (o : Op) : Nth (ops ++ [o]) j t := by
  unfold Nth at h ⊢
  rw [given_append]
  have := (List.getElem?_eq_some_iff.1 h).1
  rw [List.getElem?_append_left this]; exact h

theorem alive_step (res : Nat → Nat → R) (σ : St R) (o : Op) (w : Nat) (h : σ.alive w = false) :
    (step res σ o).alive w = false := by
  cases o with
  | dispatch t => simp only [step, dispatch]; split <;> exact h
  | handle =>
    simp only [step, handle]
    split
    · exact h
    · split <;> exact h
  | send i =>
    simp only [step, send]
    split
    · exact h
    · split <;> exact h
  | work v => simp only [step, work]; split <;> exact h
  | panic v =>
    simp only [step, panic]
    split
    · exact h
    · show (if w = v then false else σ.alive w) = false
      split
      · rfl
      · exact h
  | stopWorker v =>
    show (if w = v then false else σ.alive w) = false
    split
    · rfl
    · exact h
  | stopPool => exact h

theorem mem_box {σ : St R} {w t : Nat} : t ∈ box σ w ↔ (w, t) ∈ σ.queued := by
  unfold box
  constructor
  · intro h
    obtain ⟨p, hp, rfl⟩ := List.mem_map.1 h
    obtain ⟨h1, h2⟩ := List.mem_filter.1 hp
    have h3 : p.1 = w := by simpa using h2
    rw [← h3]; exact h1
  · intro h
    exact List.mem_map.2 ⟨(w, t), List.mem_filter.2 ⟨h, by simp⟩, rfl⟩

theorem mem_tell {o o' : Out R} {ts : List Nat} {t : Nat} : (t, o') ∈ tell o ts ↔ t ∈ ts ∧ o' = o := by
  unfold tell
  simp only [List.mem_map, Prod.mk.injEq]
  constructor
  · rintro ⟨a, h1, rfl, rfl⟩; exact ⟨h1, rfl⟩
  · rintro ⟨h1, rfl⟩; exact ⟨t, h1, rfl, rfl⟩

theorem given_own (ops : List Op) (o : Op) (h : given [o] = []) : given (ops ++ [o]) = given ops := by
  rw [given_append, h, List.append_nil]

theorem Turn.step {res : Nat → Nat → R} {n : Nat} (hn : 0 < n) {ops : List Op} {σ : St R} {k : Nat} (h : Turn n ops σ k)
    (o : Op) : ∃ k', Turn n (ops ++ [o]) (Pool.step res σ o) k' := by
  have hwho : ∀ p, p ∈ σ.fly ∨ p ∈ σ.queued ∨ p ∈ σ.done → ∃ j, j < k ∧ Nth (ops ++ [o]) j p.2 ∧ p.1 = j % n := by
    intro p hp
    obtain ⟨j, h1, h2, h3⟩ := h.who p hp
    exact ⟨j, h1, h2.snoc o, h3⟩
  have hclosed : (∀ w, Op.panic w ∉ ops ++ [o]) → .stopPool ∉ ops ++ [o] →
      ∀ t, (t, .closed) ∈ σ.outs → ∃ j, Nth (ops ++ [o]) j t ∧ (Pool.step res σ o).alive (j % n) = false := by
    intro h1 h2 t ht
    obtain ⟨j, h3, h4⟩ := h.closed (fun w hw => h1 w (List.mem_append_left _ hw))
      (fun hw => h2 (List.mem_append_left _ hw)) t ht
    exact ⟨j, h3.snoc o, alive_step res σ o _ h4⟩
  have hnoinv : .stopPool ∉ ops ++ [o] → σ.up = true ∧ ∀ t, (t, .invalid) ∉ σ.outs :=
    fun h1 => h.noinv fun hw => h1 (List.mem_append_left _ hw)
  cases o with
  | dispatch t =>
    have hg : given (ops ++ [.dispatch t]) = given ops ++ [t] := by rw [given_append]; rfl
    have hle : k ≤ (given (ops ++ [.dispatch t])).length := by rw [hg, List.length_append]; have := h.le; omega
    cases hu : σ.up with
    | true =>
      have e : Pool.step res σ (.dispatch t) = { σ with inbox := σ.inbox ++ [t] } := by simp [Pool.step, dispatch, hu]
      rw [e] at hclosed ⊢
      refine ⟨k, { ring := h.ring, inbox := fun _ => ?_, down := fun e => absurd hu (by rw [show σ.up = false from e]; simp), le := hle, who := hwho, closed := hclosed, noinv := hnoinv }⟩
      rw [hg, List.drop_append_of_le_length h.le, ← h.inbox hu]
    | false =>
      have e : Pool.step res σ (.dispatch t) = { σ with outs := σ.outs ++ [(t, .invalid)] } := by
        simp [Pool.step, dispatch, hu]
      rw [e] at hclosed ⊢
      refine ⟨k, { ring := h.ring, inbox := fun e => ?_, down := h.down, le := hle, who := hwho, closed := ?_, noinv := fun h1 => ?_ }⟩
      · rw [show σ.up = true from e] at hu; cases hu
      · intro h1 h2 t' ht
        simp only [List.mem_append, List.mem_singleton, Prod.mk.injEq, reduceCtorEq, and_false, or_false] at ht
        exact hclosed h1 h2 t' ht
      · have := (hnoinv h1).1; rw [hu] at this; cases this
  | handle =>
    have hg := given_own ops .handle rfl
    cases hb : σ.inbox with
    | nil =>
      have e : Pool.step res σ .handle = σ := by simp [Pool.step, handle, hb]
      rw [e] at hclosed ⊢
      exact ⟨k, { ring := h.ring, inbox := by rw [hg]; exact h.inbox, down := h.down, le := by rw [hg]; exact h.le, who := hwho,
                  closed := hclosed, noinv := hnoinv }⟩
    | cons t rest =>
      have e : Pool.step res σ .handle = { σ with inbox := rest, ring := rot n (k + 1), fly := σ.fly ++ [(k % n, t)] } := by
        simp [Pool.step, handle, hb, h.ring, rot_handle hn]
      rw [e] at hclosed ⊢
      have hu : σ.up = true := by
        cases hu : σ.up with
        | true => rfl
        | false => rw [h.down hu] at hb; cases hb
      have hd := h.inbox hu
      rw [hb] at hd
      have hk : (given ops)[k]? = some t := by
        have := congrArg (fun l : List Nat => l[0]?) hd
        simpa using this.symm
      have hlt : k < (given ops).length := (List.getElem?_eq_some_iff.1 hk).1
      refine ⟨k + 1, { ring := rfl, inbox := fun _ => ?_, down := fun e => absurd hu (by rw [show σ.up = false from e]; simp),
                       le := by rw [hg]; omega, who := ?_, closed := hclosed, noinv := hnoinv }⟩
      · show rest = _
        rw [hg]
        have := congrArg List.tail hd
        simpa using this
      · intro p hp
        have old : p ∈ σ.fly ∨ p ∈ σ.queued ∨ p ∈ σ.done →
            ∃ j, j < k + 1 ∧ Nth (ops ++ [.handle]) j p.2 ∧ p.1 = j % n := by
          intro hp
          obtain ⟨j, h1, h2⟩ := hwho p hp
          exact ⟨j, by omega, h2⟩
        rcases hp with hp | hp
        · rcases List.mem_append.1 hp with hp | hp
          · exact old (.inl hp)
          · simp only [List.mem_singleton] at hp
            subst hp
            exact ⟨k, by omega, Nth.snoc hk _, rfl⟩
        · exact old (.inr hp)
  | send i =>
    have hg := given_own ops (.send i) rfl
    cases hf : σ.fly[i]? with
    | none =>
      have e : Pool.step res σ (.send i) = σ := by simp [Pool.step, send, hf]
      rw [e] at hclosed ⊢
      exact ⟨k, { ring := h.ring, inbox := by rw [hg]; exact h.inbox, down := h.down, le := by rw [hg]; exact h.le, who := hwho,
                  closed := hclosed, noinv := hnoinv }⟩
    | some q =>
      obtain ⟨w, t⟩ := q
      have hm : (w, t) ∈ σ.fly := List.mem_of_getElem? hf
      cases ha : σ.alive w with
      | true =>
        have e : Pool.step res σ (.send i) = { σ with fly := σ.fly.eraseIdx i, queued := σ.queued ++ [(w, t)] } := by
          simp [Pool.step, send, hf, ha]
        rw [e] at hclosed ⊢
        refine ⟨k, { ring := h.ring, inbox := by rw [hg]; exact h.inbox, down := h.down, le := by rw [hg]; exact h.le, who := ?_,
                     closed := hclosed, noinv := hnoinv }⟩
        intro p hp
        apply hwho
        rcases hp with hp | hp | hp
        · exact .inl (List.mem_of_mem_eraseIdx hp)
        · rcases List.mem_append.1 hp with hp | hp
          · exact .inr (.inl hp)
          · simp only [List.mem_singleton] at hp; subst hp; exact .inl hm
        · exact .inr (.inr hp)
      | false =>
        have e : Pool.step res σ (.send i) = { σ with fly := σ.fly.eraseIdx i, outs := σ.outs ++ [(t, .closed)] } := by
          simp [Pool.step, send, hf, ha]
        rw [e] at hclosed ⊢
        refine ⟨k, { ring := h.ring, inbox := by rw [hg]; exact h.inbox, down := h.down, le := by rw [hg]; exact h.le, who := ?_,
                     closed := ?_, noinv := ?_ }⟩
        · intro p hp
          exact hwho p (hp.imp List.mem_of_mem_eraseIdx id)
        · intro h1 h2 t' ht
          rcases List.mem_append.1 ht with ht | ht
          · exact hclosed h1 h2 t' ht
          · simp only [List.mem_singleton, Prod.mk.injEq, and_true] at ht
            subst ht
            obtain ⟨j, -, h4, h5⟩ := hwho _ (.inl hm)
            exact ⟨j, h4, by rw [← h5]; exact ha⟩
        · intro h1
          refine ⟨(hnoinv h1).1, fun t' ht => (hnoinv h1).2 t' ?_⟩
          simpa using ht
  | work w =>
    have hg := given_own ops (.work w) rfl
    cases hb : box σ w with
    | nil =>
      have e : Pool.step res σ (.work w) = σ := by simp [Pool.step, work, hb]
      rw [e] at hclosed ⊢
      exact ⟨k, { ring := h.ring, inbox := by rw [hg]; exact h.inbox, down := h.down, le := by rw [hg]; exact h.le, who := hwho,
                  closed := hclosed, noinv := hnoinv }⟩
    | cons t ts =>
      have e : Pool.step res σ (.work w) = { σ with queued := σ.queued.erase (w, t), done := σ.done ++ [(w, t)], outs := σ.outs ++ [(t, .ok (res w t))] } := by
        simp [Pool.step, work, hb]
      rw [e] at hclosed ⊢
      have hq := box_head hb
      refine ⟨k, { ring := h.ring, inbox := by rw [hg]; exact h.inbox, down := h.down, le := by rw [hg]; exact h.le, who := ?_,
                   closed := ?_, noinv := ?_ }⟩
      · intro p hp
        apply hwho
        rcases hp with hp | hp | hp
        · exact .inl hp
        · exact .inr (.inl (List.mem_of_mem_erase hp))
        · rcases List.mem_append.1 hp with hp | hp
          · exact .inr (.inr hp)
          · simp only [List.mem_singleton] at hp; subst hp; exact .inr (.inl hq)
      · intro h1 h2 t' ht
        simp only [List.mem_append, List.mem_singleton, Prod.mk.injEq, reduceCtorEq, and_false, or_false] at ht
        exact hclosed h1 h2 t' ht
      · intro h1
        refine ⟨(hnoinv h1).1, fun t' ht => (hnoinv h1).2 t' ?_⟩
        simpa using ht
  | panic w =>
    have hg := given_own ops (.panic w) rfl
    cases hb : box σ w with
    | nil =>
      have e : Pool.step res σ (.panic w) = σ := by simp [Pool.step, panic, hb]
      rw [e] at hclosed ⊢
      exact ⟨k, { ring := h.ring, inbox := by rw [hg]; exact h.inbox, down := h.down, le := by rw [hg]; exact h.le, who := hwho,
                  closed := hclosed, noinv := hnoinv }⟩
    | cons t ts =>
      have hq := box_head hb
      have e : Pool.step res σ (.panic w) = { σ with alive := fun v => if v = w then false else σ.alive v, queued := others σ w, done := σ.done ++ [(w, t)], outs := σ.outs ++ tell .closed (t :: ts) } := by
        simp [Pool.step, panic, hb]
      rw [e]
      refine ⟨k, { ring := h.ring, inbox := by rw [hg]; exact h.inbox, down := h.down, le := by rw [hg]; exact h.le, who := ?_,
                   closed := fun h1 => absurd (by simp) (h1 w), noinv := ?_ }⟩
      · intro p hp
        apply hwho
        rcases hp with hp | hp | hp
        · exact .inl hp
        · exact .inr (.inl (mem_others hp).1)
        · rcases List.mem_append.1 hp with hp | hp
          · exact .inr (.inr hp)
          · simp only [List.mem_singleton] at hp; subst hp; exact .inr (.inl hq)
      · intro h1
        refine ⟨(hnoinv h1).1, fun t' ht => (hnoinv h1).2 t' ?_⟩
        rcases List.mem_append.1 ht with ht | ht
        · exact ht
        · have := (mem_tell.1 ht).2; cases this
  | stopWorker w =>
    have hg := given_own ops (.stopWorker w) rfl
    refine ⟨k, { ring := h.ring, inbox := by rw [hg]; exact h.inbox, down := h.down, le := by rw [hg]; exact h.le, who := ?_,
                 closed := ?_, noinv := ?_ }⟩
    · intro p hp
      exact hwho p (hp.imp id (Or.imp (fun hp => (mem_others hp).1) id))
    · intro h1 h2 t' ht
      rcases List.mem_append.1 ht with ht | ht
      · exact hclosed h1 h2 t' ht
      · have hq := mem_box.1 (mem_tell.1 ht).1
        obtain ⟨j, -, h4, h5⟩ := hwho _ (.inr (.inl hq))
        refine ⟨j, h4, ?_⟩
        show (if j % n = w then false else σ.alive (j % n)) = false
        rw [if_pos h5.symm]
    · intro h1
      refine ⟨(hnoinv h1).1, fun t' ht => (hnoinv h1).2 t' ?_⟩
      rcases List.mem_append.1 ht with ht | ht
      · exact ht
      · have := (mem_tell.1 ht).2; cases this
  | stopPool =>
    have hg := given_own ops .stopPool rfl
    exact ⟨k, { ring := h.ring, inbox := fun e => (by cases e), down := fun _ => rfl, le := by rw [hg]; exact h.le, who := hwho,
                closed := fun _ h2 => absurd (by simp) h2, noinv := fun h1 => absurd (by simp) h1 }⟩

theorem Turn.run (res : Nat → Nat → R) {n : Nat} (hn : 0 < n) (ops : List Op) : ∃ k, Turn n ops (Pool.run res (init n) ops) k := by
  induction ops using snoc_induction with
  | nil =>
    exact ⟨0, { ring := by simp [Pool.run, init, rot_zero], inbox := by simp [Pool.run, init, given], down := by simp [Pool.run, init], le := by simp,
                who := by simp [Pool.run, init], closed := by simp [Pool.run, init], noinv := by simp [Pool.run, init] }⟩
  | snoc ops o ih =>
    obtain ⟨k, ih⟩ := ih
    rw [run_snoc]; exact ih.step hn o

theorem alive_calm (res : Nat → Nat → R) (n : Nat) (ops : List Op) (h : ∀ o ∈ ops, o.Calm) (w : Nat) :
    (run res (init n) ops).alive w = decide (w < n) := by
  induction ops using snoc_induction with
  | nil => rfl
  | snoc ops o ih =>
    rw [run_snoc]
    have ih := ih fun o ho => h o (List.mem_append_left _ ho)
    have ho : o.Calm := h o (by simp)
    generalize run res (init n) ops = σ at ih ⊢
    cases o with
    | dispatch t => simp only [step, dispatch]; split <;> exact ih
    | handle =>
      simp only [step, handle]
      split
      · exact ih
      · split <;> exact ih
    | send i =>
      simp only [step, send]
      split
      · exact ih
      · split <;> exact ih
    | work v => simp only [step, work]; split <;> exact ih
    | panic v => exact ho.elim
    | stopWorker v => exact ho.elim
    | stopPool => exact ho.elim

theorem done_no_panic (res : Nat → Nat → R) (n w : Nat) (ops : List Op) (h : Op.panic w ∉ ops) (t : Nat)
    (hd : (w, t) ∈ (run res (init n) ops).done) : (t, .ok (res w t)) ∈ (run res (init n) ops).outs := by
  induction ops using snoc_induction with
  | nil => simp [run, init] at hd
  | snoc ops o ih =>
    rw [run_snoc] at hd ⊢
    have ih := ih fun ho => h (List.mem_append_left _ ho)
    have ho : o ≠ Op.panic w := fun e => h (by simp [e])
    generalize run res (init n) ops = σ at ih hd ⊢
    cases o with
    | dispatch t =>
      cases hu : σ.up with
      | true => simp only [step, dispatch, hu, if_true] at hd ⊢; exact ih hd
      | false =>
        simp only [step, dispatch, hu, Bool.false_eq_true, if_false] at hd ⊢
        exact List.mem_append_left _ (ih hd)
    | handle =>
      simp only [step, handle] at hd ⊢
      split at hd
      · exact ih hd
      · split at hd
        · exact List.mem_append_left _ (ih hd)
        · exact ih hd
    | send i =>
      simp only [step, send] at hd ⊢
      split at hd
      · exact ih hd
      · rename_i v t' hf
        cases ha : σ.alive v with
        | true => simp only [ha, if_true] at hd ⊢; exact ih hd
        | false =>
          simp only [ha, Bool.false_eq_true, if_false] at hd ⊢
          exact List.mem_append_left _ (ih hd)
    | work v =>
      simp only [step, work] at hd ⊢
      split at hd
      · exact ih hd
      · rcases List.mem_append.1 hd with hd | hd
        · exact List.mem_append_left _ (ih hd)
        · simp only [List.mem_singleton, Prod.mk.injEq] at hd
          obtain ⟨rfl, rfl⟩ := hd
          simp
    | panic v =>
      simp only [step, panic] at hd ⊢
      split at hd
      · exact ih hd
      · rcases List.mem_append.1 hd with hd | hd
        · exact List.mem_append_left _ (ih hd)
        · simp only [List.mem_singleton, Prod.mk.injEq] at hd
          exact absurd (by rw [hd.1]) ho
    | stopWorker v => exact List.mem_append_left _ (ih hd)
    | stopPool => exact List.mem_append_left _ (ih hd)

/-! ### Coming to rest -/

def weight (σ : St R) : Nat := 3 * σ.inbox.length + 2 * σ.fly.length + σ.queued.length

theorem own_step (res : Nat → Nat → R) (σ : St R) (o : Op) (h : o.Own) :
    step res σ o = σ ∨ weight (step res σ o) < weight σ := by
  cases o with
  | handle =>
    simp only [step, handle]
    split
    · exact .inl rfl
    · rename_i hb
      split <;> (right; simp [weight, hb]; try omega)
  | send i =>
    simp only [step, send]
    split
    · exact .inl rfl
    · rename_i w t hf
      have hl := (List.getElem?_eq_some_iff.1 hf).1
      split <;> (right; simp [weight, List.length_eraseIdx, hl]; omega)
  | work w =>
    simp only [step, work]
    split
    · exact .inl rfl
    · rename_i t ts hb
      have hq := box_head hb
      right
      have : 0 < σ.queued.length := List.length_pos_of_mem hq
      simp [weight, hq]; omega
  | dispatch t => exact h.elim
  | panic t => exact h.elim
  | stopWorker t => exact h.elim
  | stopPool => exact h.elim

theorem quiet_empty {res : Nat → Nat → R} {σ : St R} (h : Quiet res σ) : σ.inbox = [] ∧ σ.fly = [] ∧ σ.queued = [] := by
  obtain ⟨h1, h2, h3⟩ := h
  refine ⟨?_, ?_, ?_⟩
  · cases hb : σ.inbox with
    | nil => rfl
    | cons t rest =>
      have := congrArg (fun s : St R => s.inbox.length) h1
      simp only [handle, hb] at this
      split at this <;> simp [hb] at this
  · cases hb : σ.fly with
    | nil => rfl
    | cons q rest =>
      have := congrArg (fun s : St R => s.fly.length) (h2 0)
      simp only [send, hb, List.getElem?_cons_zero] at this
      split at this <;> simp [hb] at this
  · cases hb : σ.queued with
    | nil => rfl
    | cons q rest =>
      obtain ⟨w, t⟩ := q
      have hm : t ∈ box σ w := mem_box.2 (by rw [hb]; simp)
      have := congrArg (fun s : St R => s.queued.length) (h3 w)
      simp only [work] at this
      split at this
      · rename_i e; rw [e] at hm; cases hm
      · rename_i t' ts e
        have hq := box_head e
        have hl := List.length_pos_of_mem hq
        simp [List.length_erase, hq] at this
        omega

theorem comes_to_rest (res : Nat → Nat → R) (σ : St R) : ∃ os : List Op, (∀ o ∈ os, o.Own) ∧ Quiet res (run res σ os) := by
  generalize hw : weight σ = m
  induction m using Nat.strongRecOn generalizing σ with
  | ind m ih =>
    by_cases hq : Quiet res σ
    · exact ⟨[], by simp, hq⟩
    · have : ∃ o : Op, o.Own ∧ step res σ o ≠ σ := by
        apply Classical.byContradiction
        intro hno
        apply hq
        refine ⟨?_, fun i => ?_, fun w => ?_⟩
        · exact Classical.byContradiction fun e => hno ⟨.handle, trivial, e⟩
        · exact Classical.byContradiction fun e => hno ⟨.send i, trivial, e⟩
        · exact Classical.byContradiction fun e => hno ⟨.work w, trivial, e⟩
      obtain ⟨o, ho, hne⟩ := this
      have hlt := (own_step res σ o ho).resolve_left hne
      obtain ⟨os, h1, h2⟩ := ih _ (hw ▸ hlt) _ rfl
      refine ⟨o :: os, ?_, h2⟩
      intro x hx
      rcases List.mem_cons.1 hx with rfl | hx
      · exact ho
      · exact h1 x hx

/-! ### One task after another -/

/-- what a caller who waits gets. -/
def answer (res : Nat → Nat → R) (alive : Nat → Bool) (n : Nat) (p : Nat × Nat) : Nat × Out R :=
  (p.1, if alive (p.2 % n) then .ok (res (p.2 % n) p.1) else .closed)

theorem turn_run (res : Nat → Nat → R) {n : Nat} (hn : 0 < n) (alive : Nat → Bool) (k t : Nat) (done : List (Nat × Nat))
    (outs : List (Nat × Out R)) :
    ∃ done', run res { up := true, alive := alive, ring := rot n k, done := done, outs := outs } (turn t (k % n))
      = { up := true, alive := alive, ring := rot n (k + 1), done := done', outs := outs ++ [answer res alive n (t, k)] } := by
  cases ha : alive (k % n) with
  | true =>
    exact ⟨done ++ [(k % n, t)], by
      simp [run, turn, step, dispatch, handle, rot_handle hn, send, ha, work, box, answer]⟩
  | false =>
    exact ⟨done, by
      simp [run, turn, step, dispatch, handle, rot_handle hn, send, ha, work, box, answer]⟩

theorem turns_snoc (n : Nat) (ts : List Nat) (t : Nat) : turns n (ts ++ [t]) = turns n ts ++ turn t (ts.length % n) := by
  simp [turns, List.zipIdx_append]

theorem turns_run (res : Nat → Nat → R) {n : Nat} (hn : 0 < n) (alive : Nat → Bool) (ts : List Nat)
    (outs : List (Nat × Out R)) :
    ∃ done', run res { up := true, alive := alive, ring := rot n 0, outs := outs } (turns n ts)
      = { up := true, alive := alive, ring := rot n ts.length, done := done',
          outs := outs ++ ts.zipIdx.map (answer res alive n) } := by
  induction ts using snoc_induction with
  | nil => exact ⟨[], by simp [turns, run]⟩
  | snoc ts t ih =>
    obtain ⟨d, ih⟩ := ih
    obtain ⟨d', h⟩ := turn_run res hn alive ts.length t d (outs ++ ts.zipIdx.map (answer res alive n))
    refine ⟨d', ?_⟩
    have e : ∀ a b, run res { up := true, alive := alive, ring := rot n 0, outs := outs } (a ++ b)
        = run res (run res { up := true, alive := alive, ring := rot n 0, outs := outs } a) b := by
      intro a b; simp [run]
    rw [turns_snoc, e, ih, h]
    simp [List.zipIdx_append]

theorem stops_run (res : Nat → Nat → R) (n : Nat) (ws : List Nat) :
    run res (init n) (ws.map .stopWorker)
      = { up := true, alive := fun w => decide (w < n ∧ w ∉ ws), ring := rot n 0 } := by
  induction ws using snoc_induction with
  | nil => simp [run, init, rot_zero]
  | snoc ws v ih =>
    rw [List.map_append, List.map_singleton, run_snoc, ih]
    simp only [step, stopWorker, others, box, List.filter_nil, List.map_nil, tell, List.append_nil]
    congr 1
    funext w
    by_cases h : w = v <;> simp [h]

/-! ### Creating a pool -/

theorem newLoop_eq (starts : Nat → Bool) (k i : Nat) (ws : List Nat) :
    (∀ j, j < k → starts (i + j) = true) ∧ newLoop starts k i ws = (ws ++ List.range' i k, .ok (ws ++ List.range' i k)) ∨
    ∃ f, f < k ∧ starts (i + f) = false ∧ (∀ j, j < f → starts (i + j) = true) ∧
      newLoop starts k i ws = (ws ++ List.range' i f, .error .actorStartFailed) := by
  induction k generalizing i ws with
  | zero => exact .inl ⟨fun j h => absurd h (by omega), by simp [newLoop]⟩
  | succ k ih =>
    cases hs : starts i with
    | false => exact .inr ⟨0, by omega, hs, fun j h => absurd h (by omega), by simp [newLoop, hs]⟩
    | true =>
      have e : newLoop starts (k + 1) i ws = newLoop starts k (i + 1) (ws ++ [i]) := by simp [newLoop, hs]
      have lift : ∀ f, (∀ j, j < f → starts (i + 1 + j) = true) → ∀ j, j < f + 1 → starts (i + j) = true := by
        intro f h j hj
        cases j with
        | zero => exact hs
        | succ j => have := h j (by omega); rwa [Nat.add_right_comm, Nat.add_assoc] at this
      rcases ih (i + 1) (ws ++ [i]) with ⟨h1, h2⟩ | ⟨f, h1, h2, h3, h4⟩
      · left
        exact ⟨lift k h1, by rw [e, h2]; simp [List.range'_succ]⟩
      · right
        refine ⟨f + 1, by omega, ?_, lift f h3, ?_⟩
        · rwa [Nat.add_right_comm, Nat.add_assoc] at h2
        · rw [e, h4]; simp [List.range'_succ]

end Verif.Actor.Pool
