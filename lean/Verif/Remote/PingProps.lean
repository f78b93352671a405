import Verif.Remote.PingModel
import Verif.Util

/-!
# C84: every ping is reported once and truthfully
-/

namespace Verif.Remote
open Verif.Proto Verif.Proto.Network

/-! ## Specification -/

/-- ping `u` was written at time `s`. -/
def SentAt (limit : Nat) (ops : List PingOp) (u s : Nat) : Prop :=
  ∃ pre post, ops = pre ++ .tick true :: post ∧ (Pinger.run limit pre).next = u ∧ (Pinger.run limit pre).now = s

/-- `a` is the first answer that came for request `u` after the request was made. -/
def PingAnswered (limit : Nat) (ops : List PingOp) (u : Nat) (a : Answer) : Prop :=
  ∃ pre post, ops = pre ++ .answer u a :: post ∧ u < (Pinger.run limit pre).next ∧
    ∀ pre' a' post', pre = pre' ++ .answer u a' :: post' → (Pinger.run limit pre').next ≤ u

/-- the report is true of what happened. -/
def Report.True (limit : Nat) (ops : List PingOp) (r : Report) : Prop :=
  match r.res with
  | .ok latency receivedAt => ∃ u s bs, r.id = some u ∧ SentAt limit ops u s ∧ PingAnswered limit ops u (.ok bs) ∧
      PongEvent.read bs ≠ none ∧ receivedAt = r.time ∧ s + latency = r.time
  | .err => ∃ u s a, r.id = some u ∧ SentAt limit ops u s ∧ PingAnswered limit ops u a ∧ (a = .closed ∨ ∃ e, a = .err e)
  | .timeout => ∃ u s pre post, r.id = some u ∧ SentAt limit ops u s ∧ s + limit ≤ r.time ∧
      ops = pre ++ .poll u :: post ∧ (Pinger.run limit pre).now = r.time ∧ ∀ a, ¬ PingAnswered limit pre u a
  | .disconnected => r.id = none ∧ PingOp.tickDown true ∈ ops

/-! ## Lemmas -/

theorem prun_snoc (limit : Nat) (l : List PingOp) (x : PingOp) :
    Pinger.run limit (l ++ [x]) = (Pinger.run limit l).step limit x := by
  simp [Pinger.run]

theorem pingSplit_snoc {α : Type} {l pre post : List α} {x y : α} (h : l ++ [x] = pre ++ y :: post) :
    (∃ post', post = post' ++ [x] ∧ l = pre ++ y :: post') ∨ (post = [] ∧ pre = l ∧ y = x) := by
  rcases List.eq_nil_or_concat post with rfl | ⟨post', z, rfl⟩
  · right
    have := List.append_inj' h rfl
    simp only [List.cons.injEq, and_true] at this
    exact ⟨rfl, this.1.symm, this.2.symm⟩
  · left
    rw [List.concat_eq_append, ← List.cons_append, ← List.append_assoc] at h
    have := List.append_inj' h rfl
    simp only [List.cons.injEq, and_true] at this
    exact ⟨post', by rw [List.concat_eq_append, this.2], this.1⟩

theorem SentAt.snoc {limit : Nat} {l : List PingOp} {u s : Nat} (h : SentAt limit l u s) (x : PingOp) :
    SentAt limit (l ++ [x]) u s := by
  obtain ⟨pre, post, rfl, h⟩ := h
  exact ⟨pre, post ++ [x], by simp, h⟩

theorem PingAnswered.snoc {limit : Nat} {l : List PingOp} {u : Nat} {a : Answer} (h : PingAnswered limit l u a) (x : PingOp) :
    PingAnswered limit (l ++ [x]) u a := by
  obtain ⟨pre, post, rfl, h⟩ := h
  exact ⟨pre, post ++ [x], by simp, h⟩

theorem Report.True.snoc {limit : Nat} {l : List PingOp} {r : Report} (h : r.True limit l) (x : PingOp) :
    r.True limit (l ++ [x]) := by
  obtain ⟨id, res, time⟩ := r
  cases res with
  | ok lat at_ =>
    obtain ⟨u, s, bs, h1, h2, h3, h4⟩ := h
    exact ⟨u, s, bs, h1, h2.snoc x, h3.snoc x, h4⟩
  | err =>
    obtain ⟨u, s, a, h1, h2, h3, h4⟩ := h
    exact ⟨u, s, a, h1, h2.snoc x, h3.snoc x, h4⟩
  | timeout =>
    obtain ⟨u, s, pre, post, h1, h2, h3, rfl, h4⟩ := h
    exact ⟨u, s, pre, post ++ [x], h1, h2.snoc x, h3, by simp, h4⟩
  | disconnected => exact ⟨h.1, List.mem_append.2 (.inl h.2)⟩

/-- the table and its history. -/
structure TableOk (limit : Nat) (ops : List PingOp) (σ : Pinger) : Prop where
  pend : ∀ u, u ∈ σ.rpc.pending.map (·.1) ↔ u < σ.next ∧ ∀ a, ¬ PingAnswered limit ops u a
  done : ∀ u a, σ.rpc.got u = some a ↔ PingAnswered limit ops u a
  nodup : (σ.rpc.pending.map (·.1)).Nodup
  old : ∀ p ∈ σ.rpc.done, p.1 < σ.next

theorem ping_next_mono (limit : Nat) (σ : Pinger) (x : PingOp) : σ.next ≤ (σ.step limit x).next := by
  cases x with
  | tick w => simp [Pinger.step, Pinger.tick]
  | poll u =>
    simp only [Pinger.step]
    split
    · exact Nat.le_refl _
    · unfold Pinger.pollTask
      split
      · exact Nat.le_refl _
      · split <;> exact Nat.le_refl _
  | _ => exact Nat.le_refl _

theorem ping_next_mono_run (limit : Nat) (l m : List PingOp) : (Pinger.run limit l).next ≤ (Pinger.run limit (l ++ m)).next := by
  induction m using snoc_induction with
  | nil => simp
  | snoc m x ih => rw [← List.append_assoc, prun_snoc]; exact Nat.le_trans ih (ping_next_mono ..)

/-- an answer after an operation: it was there before, or the operation is the answer. -/
theorem pingAnswered_snoc (limit : Nat) (l : List PingOp) (x : PingOp) (u : Nat) (a : Answer) :
    PingAnswered limit (l ++ [x]) u a ↔ PingAnswered limit l u a ∨
      (x = .answer u a ∧ u < (Pinger.run limit l).next ∧ ∀ a', ¬ PingAnswered limit l u a') := by
  constructor
  · rintro ⟨pre, post, h, hn, hf⟩
    rcases pingSplit_snoc h with ⟨post', rfl, rfl⟩ | ⟨rfl, rfl, rfl⟩
    · exact .inl ⟨pre, post', rfl, hn, hf⟩
    · refine .inr ⟨rfl, hn, ?_⟩
      rintro a' ⟨pre', post', rfl, hn', -⟩
      exact absurd (hf pre' a' post' rfl) (by omega)
  · rintro (h | ⟨rfl, hn, hno⟩)
    · exact h.snoc x
    · refine ⟨l, [], rfl, hn, ?_⟩
      rintro pre' a' post' rfl
      -- otherwise the first such answer would be one
      refine Nat.le_of_not_lt fun hlt => ?_
      clear hn
      -- take the first answer for `u` that comes after the request
      have key : ∀ (l : List PingOp), (∃ pre a post, l = pre ++ .answer u a :: post ∧ u < (Pinger.run limit pre).next) →
          ∃ a, PingAnswered limit l u a := by
        intro l
        induction l using snoc_induction with
        | nil => rintro ⟨pre, a, post, h, -⟩; simp at h
        | snoc l y ih =>
          rintro ⟨pre, a, post, h, hlt⟩
          rcases pingSplit_snoc h with ⟨post', rfl, rfl⟩ | ⟨rfl, rfl, rfl⟩
          · obtain ⟨a, ha⟩ := ih ⟨pre, a, post', rfl, hlt⟩
            exact ⟨a, ha.snoc y⟩
          · by_cases hex : ∃ pre' a' post', pre = pre' ++ .answer u a' :: post' ∧ u < (Pinger.run limit pre').next
            · obtain ⟨a, ha⟩ := ih hex
              exact ⟨a, ha.snoc _⟩
            · refine ⟨a, pre, [], rfl, hlt, ?_⟩
              intro p' a' q' he
              refine Nat.le_of_not_lt fun hlt' => hex ⟨p', a', q', he, hlt'⟩
      obtain ⟨a'', ha''⟩ := key _ ⟨pre', a', post', rfl, hlt⟩
      exact hno a'' ha''

theorem pingAnswered_snoc_other {limit : Nat} {l : List PingOp} {x : PingOp} (hx : ∀ u a, x ≠ .answer u a) (u : Nat) (a : Answer) :
    PingAnswered limit (l ++ [x]) u a ↔ PingAnswered limit l u a := by
  rw [pingAnswered_snoc]
  constructor
  · rintro (h | ⟨h, -⟩)
    · exact h
    · exact absurd h (hx u a)
  · exact .inl

theorem pingAnswered_lt {limit : Nat} {l : List PingOp} {u : Nat} {a : Answer} (h : PingAnswered limit l u a) :
    u < (Pinger.run limit l).next := by
  obtain ⟨pre, post, rfl, hn, -⟩ := h
  exact Nat.lt_of_lt_of_le hn (ping_next_mono_run limit pre _)

/-- steps that leave the table as it is. -/
theorem tableOk_same {limit : Nat} {l : List PingOp} {x : PingOp} {σ τ : Pinger} (hx : ∀ u a, x ≠ .answer u a)
    (h : TableOk limit l σ) (h1 : τ.rpc = σ.rpc) (h2 : τ.next = σ.next) : TableOk limit (l ++ [x]) τ := by
  refine ⟨?_, ?_, ?_, ?_⟩
  · intro u; rw [h1, h2, h.pend]; simp only [pingAnswered_snoc_other hx]
  · intro u a; rw [h1, h.done, pingAnswered_snoc_other hx]
  · rw [h1]; exact h.nodup
  · rw [h1, h2]; exact h.old

theorem pollTask_rpc (limit : Nat) (σ : Pinger) (u s : Nat) :
    (σ.pollTask limit u s).rpc = σ.rpc ∧ (σ.pollTask limit u s).next = σ.next ∧ (σ.pollTask limit u s).now = σ.now := by
  unfold Pinger.pollTask
  split
  · exact ⟨rfl, rfl, rfl⟩
  · split <;> exact ⟨rfl, rfl, rfl⟩

theorem got_none_of_lt {σ : Rpc Nat Unit} {u : Nat} (h : ∀ p ∈ σ.done, p.1 < u) : σ.got u = none := by
  unfold Rpc.got
  rw [List.find?_eq_none.2]
  · rfl
  · intro p hp; have := h p hp; simp; omega

theorem push_fresh {σ : Rpc Nat Unit} {u : Nat} (h : u ∉ σ.pending.map (·.1)) :
    σ.push u () = { pending := (u, ()) :: σ.pending, done := σ.done } := by
  unfold Rpc.push
  have h1 : σ.pending.filter (fun p => p.1 ≠ u) = σ.pending := by
    rw [List.filter_eq_self]
    intro p hp
    simp only [decide_eq_true_eq]
    rintro rfl
    exact h (List.mem_map_of_mem hp)
  have h2 : σ.pending.filter (fun p => p.1 = u) = [] := by
    rw [List.filter_eq_nil_iff]
    intro p hp
    simp only [decide_eq_true_eq]
    rintro rfl
    exact h (List.mem_map_of_mem hp)
  rw [h1, h2]
  simp

theorem ping_find_key {l : List (Nat × Unit)} {u : Nat} : (∃ p, l.find? (fun p => p.1 = u) = some p) ↔ u ∈ l.map (·.1) := by
  constructor
  · rintro ⟨p, hp⟩
    have h1 := List.mem_of_find?_eq_some hp
    have h2 := List.find?_some hp
    simp only [decide_eq_true_eq] at h2
    exact List.mem_map.2 ⟨p, h1, h2⟩
  · intro h
    obtain ⟨p, hp, rfl⟩ := List.mem_map.1 h
    cases hf : l.find? (fun q => q.1 = p.1) with
    | some q => exact ⟨q, rfl⟩
    | none => have := List.find?_eq_none.1 hf p hp; simp at this

theorem got_append {σ : Rpc Nat Unit} (u v : Nat) (w : Unit) (a : Answer) (pend : List (Nat × Unit)) :
    Rpc.got ⟨pend, σ.done ++ [(u, w, a)]⟩ v = (σ.got v).or (if u = v then some a else none) := by
  unfold Rpc.got
  rw [List.find?_append]
  cases h : σ.done.find? (fun p => p.1 == v) with
  | some p => simp
  | none =>
    by_cases huv : u = v
    · simp [huv]
    · simp [huv]

theorem tableOk_run (limit : Nat) (ops : List PingOp) : TableOk limit ops (Pinger.run limit ops) := by
  induction ops using snoc_induction with
  | nil =>
    refine ⟨?_, ?_, List.nodup_nil, by intro p hp; cases hp⟩
    · intro u; simp [Pinger.run, Rpc.init]
    · intro u a
      constructor
      · intro h; simp [Pinger.run, Rpc.init, Rpc.got] at h
      · rintro ⟨pre, post, h, -⟩; simp at h
  | snoc l x ih =>
    rw [prun_snoc]
    cases x with
    | wait d => exact tableOk_same (by intros; simp) ih rfl rfl
    | tickDown k => exact tableOk_same (by intros; simp) ih rfl rfl
    | poll u =>
      simp only [Pinger.step]
      split
      · exact tableOk_same (by intros; simp) ih rfl rfl
      · exact tableOk_same (by intros; simp) ih (pollTask_rpc ..).1 (pollTask_rpc ..).2.1
    | tick w =>
      generalize hσ : Pinger.run limit l = σ at ih
      have hfr : σ.next ∉ σ.rpc.pending.map (·.1) := by
        intro h
        have := ((ih.pend _).1 h).1
        omega
      have hs : (σ.step limit (.tick w)).rpc = { pending := (σ.next, ()) :: σ.rpc.pending, done := σ.rpc.done } :=
        push_fresh hfr
      have hn : (σ.step limit (.tick w)).next = σ.next + 1 := rfl
      have hx : ∀ u a, PingOp.tick w ≠ .answer u a := by intros; simp
      refine ⟨?_, ?_, ?_, ?_⟩
      · intro u
        rw [hs, hn]
        simp only [List.map_cons, List.mem_cons, ih.pend, pingAnswered_snoc_other hx]
        constructor
        · rintro (rfl | ⟨h1, h2⟩)
          · refine ⟨by omega, fun a ha => ?_⟩
            have := pingAnswered_lt ha
            rw [hσ] at this
            omega
          · exact ⟨by omega, h2⟩
        · rintro ⟨h1, h2⟩
          by_cases e : u = σ.next
          · exact .inl e
          · exact .inr ⟨by omega, h2⟩
      · intro u a
        rw [pingAnswered_snoc_other hx, ← ih.done, hs]
        rfl
      · rw [hs]; exact List.nodup_cons.2 ⟨hfr, ih.nodup⟩
      · rw [hs, hn]
        intro p hp
        have := ih.old p hp
        omega
    | answer u a =>
      generalize hσ : Pinger.run limit l = σ at ih
      have hn : (σ.step limit (.answer u a)).next = σ.next := rfl
      cases hf : σ.rpc.pending.find? (fun p => p.1 = u) with
      | none =>
        have hs : (σ.step limit (.answer u a)).rpc = σ.rpc := by
          show σ.rpc.answer u a = σ.rpc
          unfold Rpc.answer
          rw [hf]
        have hnp : u ∉ σ.rpc.pending.map (·.1) := by
          intro h
          obtain ⟨p, hp⟩ := ping_find_key.2 h
          rw [hf] at hp
          cases hp
        have hkey : ∀ v b, PingAnswered limit (l ++ [.answer u a]) v b ↔ PingAnswered limit l v b := by
          intro v b
          rw [pingAnswered_snoc]
          constructor
          · rintro (h | ⟨h, h1, h2⟩)
            · exact h
            · cases h
              rw [hσ] at h1
              exact absurd ((ih.pend u).2 ⟨h1, h2⟩) hnp
          · exact .inl
        refine ⟨?_, ?_, ?_, ?_⟩
        · intro v; rw [hs, hn, ih.pend]; simp only [hkey]
        · intro v b; rw [hs, ih.done, hkey]
        · rw [hs]; exact ih.nodup
        · rw [hs, hn]; exact ih.old
      | some p =>
        have hup : u ∈ σ.rpc.pending.map (·.1) := ping_find_key.1 ⟨p, hf⟩
        obtain ⟨hlt, hno⟩ := (ih.pend u).1 hup
        have hs : (σ.step limit (.answer u a)).rpc =
            { pending := σ.rpc.pending.filter (fun q => q.1 ≠ u), done := σ.rpc.done ++ [(u, p.2, a)] } := by
          show σ.rpc.answer u a = _
          unfold Rpc.answer
          rw [hf]
        have hkey : ∀ v b, PingAnswered limit (l ++ [.answer u a]) v b ↔ PingAnswered limit l v b ∨ (v = u ∧ b = a) := by
          intro v b
          rw [pingAnswered_snoc]
          constructor
          · rintro (h | ⟨h, -, -⟩)
            · exact .inl h
            · cases h; exact .inr ⟨rfl, rfl⟩
          · rintro (h | ⟨rfl, rfl⟩)
            · exact .inl h
            · exact .inr ⟨rfl, by rw [hσ]; exact hlt, hno⟩
        refine ⟨?_, ?_, ?_, ?_⟩
        · intro v
          rw [hs, hn]
          simp only [hkey]
          constructor
          · intro h
            obtain ⟨q, hq, rfl⟩ := List.mem_map.1 h
            rw [List.mem_filter] at hq
            have hne : q.1 ≠ u := by simpa using hq.2
            obtain ⟨h1, h2⟩ := (ih.pend q.1).1 (List.mem_map_of_mem hq.1)
            exact ⟨h1, fun b hb => hb.elim (h2 b) (fun hb => hne hb.1)⟩
          · rintro ⟨h1, h2⟩
            have hne : v ≠ u := fun e => h2 a (.inr ⟨e, rfl⟩)
            obtain ⟨q, hq, rfl⟩ := List.mem_map.1 ((ih.pend v).2 ⟨h1, fun b hb => h2 b (.inl hb)⟩)
            exact List.mem_map.2 ⟨q, List.mem_filter.2 ⟨hq, by simpa using hne⟩, rfl⟩
        · intro v b
          rw [hs, got_append, hkey, ← ih.done]
          by_cases e : u = v
          · subst e
            have : σ.rpc.got u = none := by
              cases hg : σ.rpc.got u with
              | none => rfl
              | some b => exact absurd ((ih.done u b).1 hg) (hno b)
            rw [this]
            simp [eq_comm]
          · have e' : ¬ v = u := fun h => e h.symm
            simp [e, e']
        · rw [hs]
          exact List.Nodup.sublist (List.Sublist.map _ List.filter_sublist) ih.nodup
        · rw [hs, hn]
          intro q hq
          rcases List.mem_append.1 hq with hq | hq
          · exact ih.old q hq
          · simp only [List.mem_singleton] at hq; subst hq; exact hlt

/-- tasks and reports. -/
structure TasksOk (limit : Nat) (ops : List PingOp) (σ : Pinger) : Prop where
  sent : ∀ t ∈ σ.tasks, SentAt limit ops t.1 t.2 ∧ t.1 < σ.next ∧ t.2 ≤ σ.now
  once : (σ.tasks.map (·.1) ++ σ.reports.filterMap (·.id)).Nodup
  old : ∀ u ∈ σ.reports.filterMap (·.id), u < σ.next
  truth : ∀ r ∈ σ.reports, r.True limit ops
  all : ∀ u s, SentAt limit ops u s → (u, s) ∈ σ.tasks ∨ u ∈ σ.reports.filterMap (·.id) ∨
    ∃ bs, PingAnswered limit ops u (.ok bs) ∧ PongEvent.read bs = none

theorem sentAt_snoc_other {limit : Nat} {l : List PingOp} {x : PingOp} (hx : x ≠ .tick true) (u s : Nat) :
    SentAt limit (l ++ [x]) u s ↔ SentAt limit l u s := by
  constructor
  · rintro ⟨pre, post, h, h'⟩
    rcases pingSplit_snoc h with ⟨post', rfl, rfl⟩ | ⟨-, -, e⟩
    · exact ⟨pre, post', rfl, h'⟩
    · exact absurd e.symm hx
  · exact fun h => h.snoc x

theorem tasksOk_same {limit : Nat} {l : List PingOp} {x : PingOp} {σ τ : Pinger} (hx : x ≠ .tick true)
    (h : TasksOk limit l σ) (h1 : τ.tasks = σ.tasks) (h2 : τ.next = σ.next) (h3 : σ.now ≤ τ.now)
    (h4 : τ.reports = σ.reports) : TasksOk limit (l ++ [x]) τ := by
  refine ⟨?_, ?_, ?_, ?_, ?_⟩
  · intro t ht
    rw [h1] at ht
    obtain ⟨a, b, c⟩ := h.sent t ht
    exact ⟨a.snoc x, by omega, by omega⟩
  · rw [h1, h4]; exact h.once
  · rw [h4, h2]; exact h.old
  · rw [h4]; exact fun r hr => (h.truth r hr).snoc x
  · intro u s hs
    rw [sentAt_snoc_other hx] at hs
    rw [h1, h4]
    rcases h.all u s hs with h | h | ⟨bs, h, h'⟩
    · exact .inl h
    · exact .inr (.inl h)
    · exact .inr (.inr ⟨bs, h.snoc x, h'⟩)

theorem nodup_move {α β : Type} [BEq α] [LawfulBEq α] (f : α → β) {l : List α} {m : List β} {x : α} (hx : x ∈ l)
    (h : (l.map f ++ m).Nodup) : ((l.erase x).map f ++ (m ++ [f x])).Nodup := by
  have hp : (l.map f).Perm (f x :: (l.erase x).map f) := (List.perm_cons_erase hx).map f
  have h1 : (f x :: ((l.erase x).map f ++ m)).Nodup := (hp.append_right m).nodup_iff.1 h
  refine List.Perm.nodup_iff ?_ |>.2 h1
  rw [← List.append_assoc]
  exact List.perm_append_comm (l₂ := [f x])

/-- a task ends with result `r`. -/
theorem tasksOk_finish {limit : Nat} {l : List PingOp} {σ : Pinger} {u s : Nat} (h : TasksOk limit l σ)
    (ht : (u, s) ∈ σ.tasks) (r : Option Ping) (htrue : ∀ p, r = some p → Report.True limit (l ++ [.poll u]) ⟨some u, p, σ.now⟩)
    (hnone : r = none → ∃ bs, PingAnswered limit l u (.ok bs) ∧ PongEvent.read bs = none) :
    TasksOk limit (l ++ [.poll u]) (σ.finish u s r) := by
  have hids : (σ.finish u s r).reports.filterMap (·.id) = σ.reports.filterMap (·.id) ++ (if r.isSome then [u] else []) := by
    cases r <;> simp [Pinger.finish]
  have hmv := nodup_move (·.1) ht h.once
  have htk : (σ.finish u s r).tasks = σ.tasks.erase (u, s) := rfl
  refine ⟨?_, ?_, ?_, ?_, ?_⟩
  · intro t htt
    have : t ∈ σ.tasks := List.mem_of_mem_erase htt
    obtain ⟨a, b, c⟩ := h.sent t this
    exact ⟨a.snoc _, b, c⟩
  · rw [hids, htk]
    cases r with
    | some p => exact hmv
    | none =>
      simp only [Option.isSome_none, Bool.false_eq_true, if_false, List.append_nil]
      refine List.Nodup.sublist ?_ hmv
      exact List.Sublist.append (List.Sublist.refl _) (List.sublist_append_left _ _)
  · rw [hids]
    intro v hv
    rcases List.mem_append.1 hv with hv | hv
    · exact h.old v hv
    · split at hv
      · simp only [List.mem_singleton] at hv
        subst hv
        exact (h.sent _ ht).2.1
      · cases hv
  · intro q hq
    rcases List.mem_append.1 hq with hq | hq
    · exact (h.truth q hq).snoc _
    · cases r with
      | none => cases hq
      | some p =>
        simp only [Option.toList_some, List.map_cons, List.map_nil, List.mem_singleton] at hq
        subst hq
        exact htrue p rfl
  · intro v s' hs
    rw [sentAt_snoc_other (by simp)] at hs
    rw [hids]
    rcases h.all v s' hs with h' | h' | ⟨bs, h1, h2⟩
    · by_cases e : (v, s') = (u, s)
      · cases e
        cases r with
        | some p => exact .inr (.inl (by simp))
        | none =>
          obtain ⟨bs, h1, h2⟩ := hnone rfl
          exact .inr (.inr ⟨bs, h1.snoc _, h2⟩)
      · exact .inl ((List.mem_erase_of_ne e).2 h')
    · exact .inr (.inl (List.mem_append.2 (.inl h')))
    · exact .inr (.inr ⟨bs, h1.snoc _, h2⟩)

theorem pollTask_ok {limit : Nat} {l : List PingOp} {σ : Pinger} {u s : Nat} (hσ : Pinger.run limit l = σ)
    (h : TasksOk limit l σ) (hT : TableOk limit l σ) (ht : (u, s) ∈ σ.tasks) :
    TasksOk limit (l ++ [.poll u]) (σ.pollTask limit u s) := by
  obtain ⟨hsent, -, hle⟩ := h.sent _ ht
  simp only at hsent hle
  unfold Pinger.pollTask
  cases hg : σ.rpc.got u with
  | some a =>
    have ha := (hT.done u a).1 hg
    refine tasksOk_finish h ht _ ?_ ?_
    · intro p hp
      cases a with
      | ok bs =>
        cases hr : PongEvent.read bs with
        | none => simp [pingResult, hr] at hp
        | some pg =>
          simp only [pingResult, hr, Option.map_some, Option.some.injEq] at hp
          subst hp
          exact ⟨u, s, bs, rfl, hsent.snoc _, ha.snoc _, by simp [hr], rfl, by simp only; omega⟩
      | err e =>
        simp only [pingResult, Option.some.injEq] at hp
        subst hp
        exact ⟨u, s, _, rfl, hsent.snoc _, ha.snoc _, .inr ⟨e, rfl⟩⟩
      | closed =>
        simp only [pingResult, Option.some.injEq] at hp
        subst hp
        exact ⟨u, s, _, rfl, hsent.snoc _, ha.snoc _, .inl rfl⟩
    · intro hn
      cases a with
      | ok bs =>
        cases hr : PongEvent.read bs with
        | none => exact ⟨bs, ha, hr⟩
        | some pg => simp [pingResult, hr] at hn
      | err e => simp [pingResult] at hn
      | closed => simp [pingResult] at hn
  | none =>
    simp only
    split
    · rename_i hlim
      refine tasksOk_finish h ht _ ?_ (by simp)
      intro p hp
      cases hp
      refine ⟨u, s, l, [], rfl, hsent.snoc _, hlim, rfl, by rw [hσ], ?_⟩
      intro a ha
      rw [(hT.done u a).2 ha] at hg
      cases hg
    · exact tasksOk_same (by simp) h rfl rfl (Nat.le_refl _) rfl

theorem tasksOk_run (limit : Nat) (ops : List PingOp) : TasksOk limit ops (Pinger.run limit ops) := by
  induction ops using snoc_induction with
  | nil =>
    refine ⟨?_, List.nodup_nil, ?_, ?_, ?_⟩
    · intro t ht; cases ht
    · intro u hu; cases hu
    · intro r hr; cases hr
    · rintro u s ⟨pre, post, h, -⟩; simp at h
  | snoc l x ih =>
    rw [prun_snoc]
    have hT := tableOk_run limit l
    generalize hσ : Pinger.run limit l = σ at ih hT
    cases x with
    | wait d => exact tasksOk_same (by simp) ih rfl rfl (by simp [Pinger.step]) rfl
    | answer u a => exact tasksOk_same (by simp) ih rfl rfl (Nat.le_refl _) rfl
    | tickDown k =>
      cases k with
      | false => exact tasksOk_same (by simp) ih rfl rfl (Nat.le_refl _) (by simp [Pinger.step, Pinger.tickDown])
      | true =>
        have hids : (σ.step limit (.tickDown true)).reports.filterMap (·.id) = σ.reports.filterMap (·.id) := by
          simp [Pinger.step, Pinger.tickDown]
        refine ⟨?_, ?_, ?_, ?_, ?_⟩
        · intro t ht
          obtain ⟨a, b, c⟩ := ih.sent t ht
          exact ⟨a.snoc _, b, c⟩
        · rw [hids]; exact ih.once
        · rw [hids]; exact ih.old
        · intro r hr
          rcases List.mem_append.1 hr with hr | hr
          · exact (ih.truth r hr).snoc _
          · simp only [if_true, List.mem_singleton] at hr
            subst hr
            exact ⟨rfl, by simp⟩
        · intro u s hs
          rw [sentAt_snoc_other (by simp)] at hs
          rw [hids]
          rcases ih.all u s hs with h | h | ⟨bs, h, h'⟩
          · exact .inl h
          · exact .inr (.inl h)
          · exact .inr (.inr ⟨bs, h.snoc _, h'⟩)
    | tick w =>
      cases w with
      | false =>
        refine ⟨?_, ih.once, ?_, ?_, ?_⟩
        · intro t ht
          obtain ⟨a, b, c⟩ := ih.sent t ht
          exact ⟨a.snoc _, Nat.lt_succ_of_lt b, c⟩
        · intro u hu; exact Nat.lt_succ_of_lt (ih.old u hu)
        · exact fun r hr => (ih.truth r hr).snoc _
        · intro u s hs
          rw [sentAt_snoc_other (by simp)] at hs
          rcases ih.all u s hs with h | h | ⟨bs, h, h'⟩
          · exact .inl h
          · exact .inr (.inl h)
          · exact .inr (.inr ⟨bs, h.snoc _, h'⟩)
      | true =>
        have htasks : (σ.step limit (.tick true)).tasks = σ.tasks ++ [(σ.next, σ.now)] := rfl
        have hrep : (σ.step limit (.tick true)).reports = σ.reports := rfl
        have hnew : SentAt limit (l ++ [.tick true]) σ.next σ.now := ⟨l, [], rfl, by rw [hσ], by rw [hσ]⟩
        refine ⟨?_, ?_, ?_, ?_, ?_⟩
        · intro t ht
          rw [htasks] at ht
          rcases List.mem_append.1 ht with ht | ht
          · obtain ⟨a, b, c⟩ := ih.sent t ht
            exact ⟨a.snoc _, Nat.lt_succ_of_lt b, c⟩
          · simp only [List.mem_singleton] at ht
            subst ht
            exact ⟨hnew, Nat.lt_succ_self _, Nat.le_refl _⟩
        · rw [htasks, hrep, List.map_append, List.append_assoc]
          refine (List.perm_middle (a := σ.next)).nodup_iff.2 (List.nodup_cons.2 ⟨?_, ih.once⟩)
          intro hm
          rcases List.mem_append.1 hm with hm | hm
          · obtain ⟨t, ht, e⟩ := List.mem_map.1 hm
            have := (ih.sent t ht).2.1
            omega
          · have := ih.old _ hm
            omega
        · intro u hu; exact Nat.lt_succ_of_lt (ih.old u hu)
        · exact fun r hr => (ih.truth r hr).snoc _
        · rintro u s ⟨pre, post, h, h1, h2⟩
          rw [htasks, hrep]
          rcases pingSplit_snoc h with ⟨post', rfl, rfl⟩ | ⟨rfl, rfl, -⟩
          · rcases ih.all u s ⟨pre, post', rfl, h1, h2⟩ with h | h | ⟨bs, h, h'⟩
            · exact .inl (List.mem_append.2 (.inl h))
            · exact .inr (.inl h)
            · exact .inr (.inr ⟨bs, h.snoc _, h'⟩)
          · rw [hσ] at h1 h2
            subst h1 h2
            exact .inl (by simp)
    | poll u =>
      simp only [Pinger.step]
      cases hf : σ.tasks.find? (fun t => t.1 == u) with
      | none => exact tasksOk_same (by simp) ih rfl rfl (Nat.le_refl _) rfl
      | some t =>
        have h1 := List.mem_of_find?_eq_some hf
        have h2 := List.find?_some hf
        simp only [beq_iff_eq] at h2
        have : (u, t.2) ∈ σ.tasks := by rw [← h2]; exact h1
        exact pollTask_ok hσ ih hT this

theorem ping_key_inj {l : List (Nat × Nat)} (h : (l.map (·.1)).Nodup) {x y : Nat × Nat} (hx : x ∈ l) (hy : y ∈ l)
    (e : x.1 = y.1) : x = y := by
  induction l with
  | nil => cases hx
  | cons a l ih =>
    rw [List.map_cons, List.nodup_cons] at h
    rcases List.mem_cons.1 hx with rfl | hx' <;> rcases List.mem_cons.1 hy with rfl | hy'
    · rfl
    · exact absurd (e ▸ List.mem_map_of_mem hy') h.1
    · exact absurd (e ▸ List.mem_map_of_mem hx') h.1
    · exact ih h.2 hx' hy'

/-! ## Properties -/

/-- **C84.** Whatever is reported to the heartbeat is true: that the node is alive only if a readable answer to this very
ping came, with the time since the ping was written; that it timed out only if no answer had come for the whole limit;
an error only if an error came; and the loss of the connection only if the connection was found lost. -/
theorem C84_truth (limit : Nat) (ops : List PingOp) (r : Report) (hr : r ∈ (Pinger.run limit ops).reports) :
    r.True limit ops :=
  (tasksOk_run limit ops).truth r hr

/-- **C84.** No ping is reported twice. -/
theorem C84_once (limit : Nat) (ops : List PingOp) : ((Pinger.run limit ops).reports.filterMap (·.id)).Nodup :=
  (List.nodup_append.1 (tasksOk_run limit ops).once).2.1

/-- **C84.** Every ping that was written has been reported, or its task is still waiting, unless bytes that are no pong
came as the answer (then the task panics). -/
theorem C84_none_lost (limit : Nat) (ops : List PingOp) (u s : Nat) (h : SentAt limit ops u s) :
    (u, s) ∈ (Pinger.run limit ops).tasks ∨ (∃ r ∈ (Pinger.run limit ops).reports, r.id = some u) ∨
      ∃ bs, PingAnswered limit ops u (.ok bs) ∧ PongEvent.read bs = none := by
  rcases (tasksOk_run limit ops).all u s h with h | h | h
  · exact .inl h
  · obtain ⟨r, hr, e⟩ := List.mem_filterMap.1 h
    exact .inr (.inl ⟨r, hr, e⟩)
  · exact .inr (.inr h)

/-- **C84.** A waiting ping is over, at the latest, when its task is run after the limit. -/
theorem C84_ends (limit : Nat) (ops : List PingOp) (u s : Nat) (h : (u, s) ∈ (Pinger.run limit ops).tasks) :
    u ∉ (Pinger.run limit (ops ++ [.wait limit] ++ [.poll u])).tasks.map (·.1) := by
  rw [prun_snoc, prun_snoc]
  have hok := tasksOk_run limit ops
  generalize Pinger.run limit ops = σ at h hok
  have hnd : (σ.tasks.map (·.1)).Nodup := (List.nodup_append.1 hok.once).1
  have hgone : u ∉ (σ.tasks.erase (u, s)).map (·.1) := by
    have hp : (σ.tasks.map (·.1)).Perm (u :: (σ.tasks.erase (u, s)).map (·.1)) := (List.perm_cons_erase h).map _
    exact (List.nodup_cons.1 (hp.nodup_iff.1 hnd)).1
  have hfind : ∃ t, σ.tasks.find? (fun t => t.1 == u) = some t ∧ t = (u, s) := by
    cases hf : σ.tasks.find? (fun t => t.1 == u) with
    | none => have := List.find?_eq_none.1 hf _ h; simp at this
    | some t =>
      have h1 := List.mem_of_find?_eq_some hf
      have h2 := List.find?_some hf
      simp only [beq_iff_eq] at h2
      exact ⟨t, rfl, ping_key_inj hnd h1 h h2⟩
  obtain ⟨t, ht, rfl⟩ := hfind
  have hle := (hok.sent _ h).2.2
  simp only at hle
  have e : ((σ.step limit (.wait limit)).step limit (.poll u)) = (σ.step limit (.wait limit)).pollTask limit u s := by
    show (match σ.tasks.find? (fun t => t.1 == u) with
      | none => _
      | some t => _) = _
    rw [ht]
  rw [e]
  unfold Pinger.pollTask
  split
  · exact hgone
  · rw [if_pos (by show s + limit ≤ σ.now + limit; omega)]
    exact hgone

/-- **C84.** The table of requests holds exactly the pings that were never answered, including those that are over and
those that could not be written. -/
theorem C84_table (limit : Nat) (ops : List PingOp) (u : Nat) :
    u ∈ (Pinger.run limit ops).rpc.pending.map (·.1) ↔
      u < (Pinger.run limit ops).next ∧ ∀ a, ¬ PingAnswered limit ops u a :=
  (tableOk_run limit ops).pend u

/-- a pong as the receive loop passes it on, `/repo/coerce/src/remote/net/client/receive.rs` 140-147. -/
def pongBytes : Bytes := PongEvent.write {}

/-- `n` pings, one after the other, that are never answered and time out. -/
def unanswered (limit : Nat) : Nat → List PingOp
  | 0 => []
  | n + 1 => unanswered limit n ++ [.tick true] ++ [.wait limit] ++ [.poll n]

theorem unanswered_run (limit n : Nat) :
    (Pinger.run limit (unanswered limit n)).next = n ∧ (Pinger.run limit (unanswered limit n)).tasks = [] ∧
    (Pinger.run limit (unanswered limit n)).rpc.pending.length = n ∧ (Pinger.run limit (unanswered limit n)).rpc.done = [] ∧
    (Pinger.run limit (unanswered limit n)).reports.length = n := by
  induction n with
  | zero => exact ⟨rfl, rfl, rfl, rfl, rfl⟩
  | succ n ih =>
    have hT := tableOk_run limit (unanswered limit n)
    simp only [unanswered]
    rw [prun_snoc, prun_snoc, prun_snoc]
    generalize Pinger.run limit (unanswered limit n) = σ at ih hT
    obtain ⟨h1, h2, h3, h4, h5⟩ := ih
    have hfr : σ.next ∉ σ.rpc.pending.map (·.1) := by
      intro h
      have := ((hT.pend _).1 h).1
      omega
    have e1 : (σ.step limit (.tick true)).step limit (.wait limit) =
        { now := σ.now + limit, next := n + 1, rpc := { pending := (n, ()) :: σ.rpc.pending, done := [] },
          tasks := [(n, σ.now)], reports := σ.reports } := by
      have hp := push_fresh hfr
      rw [h1, h4] at hp
      simp only [Pinger.step, Pinger.tick, h1, h2, hp]
      rfl
    rw [e1]
    have e2 : (Pinger.mk (σ.now + limit) (n + 1) { pending := (n, ()) :: σ.rpc.pending, done := [] }
          [(n, σ.now)] σ.reports).step limit (.poll n) =
        { now := σ.now + limit, next := n + 1, rpc := { pending := (n, ()) :: σ.rpc.pending, done := [] },
          tasks := [], reports := σ.reports ++ [⟨some n, .timeout, σ.now + limit⟩] } := by
      simp [Pinger.step, Pinger.pollTask, Rpc.got, Pinger.finish]
    rw [e2]
    refine ⟨rfl, rfl, ?_, rfl, ?_⟩
    · simp [h3]
    · simp [h5]

/-- Refuted: a request is forgotten when it is over. A ping that times out leaves its entry in the table for good, so a
node that does not answer makes the table grow without bound. -/
theorem C84_leak_refuted (limit n : Nat) : ∃ ops, (Pinger.run limit ops).tasks = [] ∧
    (Pinger.run limit ops).reports.length = n ∧ (Pinger.run limit ops).rpc.pending.length = n :=
  ⟨unanswered limit n, (unanswered_run limit n).2.1, (unanswered_run limit n).2.2.2.2, (unanswered_run limit n).2.2.1⟩

/-- the default `HeartbeatConfig`, `/repo/coerce/src/remote/heartbeat/mod.rs` 123-133, and its `ping_timeout`. -/
def hbDefault : HbConfig := ⟨1500, 30000, none⟩
def pingTimeoutDefault : Nat := 15000

/-- A ping lost with its connection; the client connects again, and the pings after that are answered at once, every half
second. -/
def overtaken : List PingOp :=
  [.tick true, .wait 14500, .tick true, .answer 1 (.ok pongBytes), .poll 1,
   .wait 500, .tick true, .answer 2 (.ok pongBytes), .poll 2, .poll 0]

/-- Refuted: the heartbeat goes by the newest ping. The result of an older ping replaces it, so one lost ping makes the
heartbeat take a node for terminated that has just answered. -/
theorem C84_overtaken_refuted (env : Chrono) (henv : ∀ t d, env.addOk t d = true) (previous : NodeStatus) :
    let σ := Pinger.run pingTimeoutDefault overtaken
    (∃ r ∈ σ.reports, r.id = some 2 ∧ r.res = .ok 0 15000) ∧ σ.next = 3 ∧ σ.tasks = [] ∧ σ.heard = some .timeout ∧
      nodeStatus env hbDefault σ.now previous (some 15000) σ.heard = some .terminated ∧
      nodeStatus env hbDefault σ.now previous (some 15000) (some (.ok 0 15000)) = some .healthy := by
  have hrep : (Pinger.run pingTimeoutDefault overtaken).reports =
      [⟨some 1, .ok 0 14500, 14500⟩, ⟨some 2, .ok 0 15000, 15000⟩, ⟨some 0, .timeout, 15000⟩] := by decide +kernel
  have hnow : (Pinger.run pingTimeoutDefault overtaken).now = 15000 := by decide +kernel
  have hnext : (Pinger.run pingTimeoutDefault overtaken).next = 3 := by decide +kernel
  have htasks : (Pinger.run pingTimeoutDefault overtaken).tasks = [] := by decide +kernel
  have hheard : (Pinger.run pingTimeoutDefault overtaken).heard = some .timeout := by
    unfold Pinger.heard; rw [hrep]; rfl
  simp only [hrep, hnow, hnext, htasks, hheard]
  refine ⟨⟨⟨some 2, .ok 0 15000, 15000⟩, by simp, rfl, rfl⟩, trivial, trivial, trivial, ?_, ?_⟩
  · simp [nodeStatus, henv, hbDefault]
  · simp [nodeStatus, hbDefault]

/-- Refuted: a node found disconnected stays so until it has been reached again. The task of an earlier ping may report
its answer afterwards, and no more pings follow, because the timer has been stopped. -/
theorem C84_revived_refuted (env : Chrono) (previous : NodeStatus) (last : Option Int) :
    ∃ ops, (∃ pre, ops = pre ++ [.tickDown true, .poll 0]) ∧ (Pinger.run pingTimeoutDefault ops).tasks = [] ∧
      nodeStatus env hbDefault (Pinger.run pingTimeoutDefault ops).now previous last
        (Pinger.run pingTimeoutDefault ops).heard = some .healthy := by
  refine ⟨[.tick true, .answer 0 (.ok pongBytes), .tickDown true, .poll 0],
    ⟨[.tick true, .answer 0 (.ok pongBytes)], rfl⟩, by decide +kernel, ?_⟩
  have hheard : (Pinger.run pingTimeoutDefault [.tick true, .answer 0 (.ok pongBytes), .tickDown true, .poll 0]).heard =
      some (.ok 0 0) := by decide +kernel
  have hnow : (Pinger.run pingTimeoutDefault [.tick true, .answer 0 (.ok pongBytes), .tickDown true, .poll 0]).now = 0 := by
    decide +kernel
  rw [hheard, hnow]
  simp [nodeStatus, hbDefault]

/-- each ping is over before the next. -/
def OneByOne (limit : Nat) (ops : List PingOp) : Prop :=
  ∀ pre w post, ops = pre ++ .tick w :: post → (Pinger.run limit pre).tasks = []

/-- the ids of reports and of tasks when each ping is over before the next. -/
theorem oneByOne_run (limit : Nat) (ops : List PingOp) (h : OneByOne limit ops) :
    ((Pinger.run limit ops).reports.filterMap (·.id) ++ (Pinger.run limit ops).tasks.map (·.1)).Pairwise (· < ·) ∧
      (Pinger.run limit ops).tasks.length ≤ 1 := by
  induction ops using snoc_induction with
  | nil => exact ⟨List.Pairwise.nil, Nat.zero_le _⟩
  | snoc l x ih =>
    have ih := ih fun pre w post e => h pre w (post ++ [x]) (by rw [e]; simp)
    have hok := tasksOk_run limit l
    rw [prun_snoc]
    cases x with
    | wait d => exact ih
    | answer u a => exact ih
    | tickDown k =>
      refine ⟨?_, ih.2⟩
      have : ((Pinger.run limit l).step limit (.tickDown k)).reports.filterMap (·.id) =
          (Pinger.run limit l).reports.filterMap (·.id) := by
        cases k <;> simp [Pinger.step, Pinger.tickDown]
      rw [this]
      exact ih.1
    | tick w =>
      have hnil := h l w [] rfl
      generalize Pinger.run limit l = σ at ih hok hnil
      simp only [Pinger.step, Pinger.tick, hnil, List.nil_append] at ih ⊢
      simp only [List.map_nil, List.append_nil] at ih
      cases w with
      | false => exact ⟨by simpa using ih.1, by simp⟩
      | true =>
        refine ⟨?_, by simp⟩
        simp only [if_true, List.map_cons, List.map_nil]
        rw [List.pairwise_append]
        refine ⟨ih.1, List.pairwise_singleton _ _, ?_⟩
        intro a ha b hb
        simp only [List.mem_singleton] at hb
        subst hb
        exact hok.old a ha
    | poll u =>
      generalize Pinger.run limit l = σ at ih
      simp only [Pinger.step]
      cases hf : σ.tasks.find? (fun t => t.1 == u) with
      | none => exact ih
      | some t =>
        have h1 := List.mem_of_find?_eq_some hf
        have h2 := List.find?_some hf
        simp only [beq_iff_eq] at h2
        have htk : σ.tasks = [(u, t.2)] := by
          obtain ⟨a, b⟩ := t
          simp only at h2
          subst h2
          cases htl : σ.tasks with
          | nil => rw [htl] at h1; cases h1
          | cons y ys =>
            rw [htl] at h1 ih
            simp only [List.length_cons] at ih
            have : ys = [] := List.length_eq_zero_iff.1 (by omega)
            subst this
            simp only [List.mem_singleton] at h1
            rw [h1]
        have hfin : ∀ r, ((σ.finish u t.2 r).reports.filterMap (·.id) ++ (σ.finish u t.2 r).tasks.map (·.1)).Pairwise (· < ·) ∧
            (σ.finish u t.2 r).tasks.length ≤ 1 := by
          intro r
          have e : (σ.finish u t.2 r).tasks = [] := by simp [Pinger.finish, htk]
          have ih1 := ih.1
          rw [htk] at ih1
          rw [e]
          cases r with
          | none =>
            refine ⟨?_, by simp⟩
            simp only [Pinger.finish, Option.toList_none, List.map_nil, List.append_nil]
            exact (List.pairwise_append.1 ih1).1
          | some p =>
            refine ⟨?_, by simp⟩
            simpa [Pinger.finish] using ih1
        simp only
        unfold Pinger.pollTask
        split
        · exact hfin _
        · split
          · exact hfin _
          · exact ih

/-- **C84** (for clients whose pings do not overlap): reports come in the order of the pings. With the default
configuration pings overlap: one is sent every half second, and each may take fifteen seconds. -/
theorem C84_in_order_partial (limit : Nat) (ops : List PingOp) (h : OneByOne limit ops) :
    ((Pinger.run limit ops).reports.filterMap (·.id)).Pairwise (· < ·) :=
  (List.pairwise_append.1 (oneByOne_run limit ops h).1).1

/-! ## Cases -/

-- three pings: one answered, one timed out, one waiting
def pingSample : List PingOp :=
  [.tick true, .wait 20, .answer 0 (.ok pongBytes), .wait 1, .poll 0, .tick true, .wait 15000, .poll 1, .tick true]

example : (Pinger.run 15000 pingSample).reports = [⟨some 0, .ok 21 21, 21⟩, ⟨some 1, .timeout, 15021⟩] ∧
    (Pinger.run 15000 pingSample).tasks = [(2, 15021)] ∧
    (Pinger.run 15000 pingSample).rpc.pending.map (·.1) = [2, 1] := by decide +kernel

example : SentAt 15000 pingSample 1 21 :=
  ⟨[.tick true, .wait 20, .answer 0 (.ok pongBytes), .wait 1, .poll 0], [.wait 15000, .poll 1, .tick true], rfl,
    by decide +kernel, by decide +kernel⟩

example : OneByOne 15000 [.tick true, .wait 15000, .poll 0, .tick true] := by
  intro pre w post h
  rcases pre with _ | ⟨a, _ | ⟨b, _ | ⟨c, _ | ⟨d, pre⟩⟩⟩⟩
  · rfl
  · simp at h
  · simp at h
  · simp only [List.cons_append, List.nil_append, List.cons.injEq] at h
    obtain ⟨rfl, rfl, rfl, -⟩ := h
    decide +kernel
  · simp only [List.cons_append, List.cons.injEq] at h
    have := congrArg List.length h.2.2.2.2
    simp at this

end Verif.Remote
