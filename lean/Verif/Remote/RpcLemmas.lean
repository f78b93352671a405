import Verif.Remote.RpcModel
import Verif.Util

namespace Verif.Remote
set_option linter.unusedSectionVars false
open Verif.Proto Verif.Proto.Network

section
variable {U W : Type} [DecidableEq U]

/-! ### Specification vocabulary (used by the property statements) -/

/-- the request an operation makes. -/
def RpcOp.issues : RpcOp U W → Option (U × W)
  | .request u w => some (u, w)
  | .failedRequest u w => some (u, w)
  | _ => none

/-- the reply an operation carries: the id it is for and what it says. -/
def RpcOp.reply (parse : String → Option U) : RpcOp U W → Option (U × Answer)
  | .clientEvent (.result e) => (parse e.messageId).map fun u => (u, .ok e.result)
  | .clientEvent (.err e) => (parse e.messageId).map fun u =>
      (u, match e.error.bind ActorRefErr.fromProto with | some x => .err x | none => .closed)
  | .clientEvent (.pong e) => (parse e.messageId).map fun u =>
      (u, .ok (PongEvent.write { messageId := e.messageId }))
  | .sessionEvent (.result e) => (parse e.messageId).map fun u => (u, .ok e.result)
  | .sessionEvent (.err e) => (e.error.bind ActorRefErr.fromProto).bind fun x =>
      (parse e.messageId).map fun u => (u, .err x)
  | .localAnswer u a => some (u, a)
  | _ => none

/-- the operation concerns id `u`. -/
def RpcOp.Touches (parse : String → Option U) (u : U) (op : RpcOp U W) : Prop :=
  (∃ w, op.issues = some (u, w)) ∨ ∃ a, op.reply parse = some (u, a)

/-- caller `w` made request `u` and nothing has concerned `u` since. -/
def Waiting (parse : String → Option U) (ops : List (RpcOp U W)) (u : U) (w : W) : Prop :=
  ∃ pre op post, ops = pre ++ op :: post ∧ op.issues = some (u, w) ∧
    ∀ o ∈ post, ¬ o.Touches parse u

/-- caller `w` made request `u`, and the first thing that concerned `u` afterwards was a reply saying
`a` (or another request reusing the id, which drops the caller). -/
def Answered (parse : String → Option U) (ops : List (RpcOp U W)) (u : U) (w : W) (a : Answer) :
    Prop :=
  ∃ pre op mid o post, ops = pre ++ op :: (mid ++ o :: post) ∧ op.issues = some (u, w) ∧
    (∀ x ∈ mid, ¬ x.Touches parse u) ∧
    (o.reply parse = some (u, a) ∨ (a = .closed ∧ ∃ w', o.issues = some (u, w')))

/-! ### Lemmas -/

theorem issues_reply (parse : String → Option U) (op : RpcOp U W) (h : op.issues ≠ none) :
    op.reply parse = none := by
  cases op <;> simp_all [RpcOp.issues, RpcOp.reply]

/-- a step is a push, an answer or nothing. -/
theorem step_eq (parse : String → Option U) (σ : Rpc U W) (op : RpcOp U W) :
    σ.step parse op = match op.issues, op.reply parse with
      | some (u, w), _ => σ.push u w
      | none, some (u, a) => σ.answer u a
      | none, none => σ := by
  cases op with
  | request u w => rfl
  | failedRequest u w => rfl
  | localAnswer u a => rfl
  | clientEvent e =>
    cases e <;> simp only [Rpc.step, Rpc.onClientEvent, RpcOp.issues, RpcOp.reply]
    · rename_i e; cases parse e.messageId <;> rfl
    · rename_i e
      cases parse e.messageId
      · rfl
      · cases e.error.bind ActorRefErr.fromProto <;> rfl
    · rename_i e; cases parse e.messageId <;> rfl
  | sessionEvent e =>
    cases e <;> simp only [Rpc.step, Rpc.onSessionEvent, RpcOp.issues, RpcOp.reply]
    · rename_i e; cases parse e.messageId <;> rfl
    · rename_i e
      cases e.error.bind ActorRefErr.fromProto
      · rfl
      · cases parse e.messageId <;> rfl

theorem run_snoc (parse : String → Option U) (ops : List (RpcOp U W)) (op : RpcOp U W) :
    Rpc.run parse (ops ++ [op]) = (Rpc.run parse ops).step parse op := by
  simp [Rpc.run]

/-- at most one entry per id. -/
def Rpc.Uniq (σ : Rpc U W) : Prop := ∀ u w w', (u, w) ∈ σ.pending → (u, w') ∈ σ.pending → w = w'

theorem push_pending (σ : Rpc U W) (u u' : U) (w w' : W) :
    (u', w') ∈ (σ.push u w).pending ↔
      (u' = u ∧ w' = w) ∨ (u' ≠ u ∧ (u', w') ∈ σ.pending) := by
  simp [Rpc.push, and_comm]

theorem push_done (σ : Rpc U W) (u u' : U) (w w' : W) (a : Answer) :
    (u', w', a) ∈ (σ.push u w).done ↔
      (u', w', a) ∈ σ.done ∨ (u' = u ∧ a = .closed ∧ (u, w') ∈ σ.pending) := by
  simp only [Rpc.push, List.mem_append, List.mem_map, List.mem_filter, decide_eq_true_eq,
    Prod.exists, Prod.mk.injEq]
  constructor
  · rintro (h | ⟨x, y, ⟨h1, rfl⟩, rfl, rfl, rfl⟩)
    · exact .inl h
    · exact .inr ⟨rfl, rfl, h1⟩
  · rintro (h | ⟨rfl, rfl, h1⟩)
    · exact .inl h
    · exact .inr ⟨_, _, ⟨h1, rfl⟩, rfl, rfl, rfl⟩

theorem answer_pending (σ : Rpc U W) (u u' : U) (w' : W) (a : Answer) :
    (u', w') ∈ (σ.answer u a).pending ↔ u' ≠ u ∧ (u', w') ∈ σ.pending := by
  unfold Rpc.answer
  split
  · rename_i h
    constructor
    · intro hm
      refine ⟨?_, hm⟩
      rintro rfl
      have := List.find?_eq_none.1 h _ hm
      simp at this
    · exact fun h => h.2
  · simp [and_comm]

theorem answer_done (σ : Rpc U W) (hu : σ.Uniq) (u u' : U) (w' : W) (a a' : Answer) :
    (u', w', a') ∈ (σ.answer u a).done ↔
      (u', w', a') ∈ σ.done ∨ (u' = u ∧ a' = a ∧ (u, w') ∈ σ.pending) := by
  unfold Rpc.answer
  split
  · rename_i h
    constructor
    · exact fun h => .inl h
    · rintro (h' | ⟨rfl, rfl, hm⟩)
      · exact h'
      · have := List.find?_eq_none.1 h _ hm
        simp at this
  · rename_i p h
    have hm := List.mem_of_find?_eq_some h
    have hp : p.1 = u := by have := List.find?_some h; simpa using this
    obtain ⟨p1, p2⟩ := p
    simp only at hp; subst hp
    simp only [List.mem_append, List.mem_singleton, Prod.mk.injEq]
    constructor
    · rintro (h' | ⟨rfl, rfl, rfl⟩)
      · exact .inl h'
      · exact .inr ⟨rfl, rfl, hm⟩
    · rintro (h' | ⟨rfl, rfl, hm'⟩)
      · exact .inl h'
      · exact .inr ⟨rfl, hu _ _ _ hm' hm, rfl⟩

theorem uniq_push (σ : Rpc U W) (h : σ.Uniq) (u : U) (w : W) : (σ.push u w).Uniq := by
  intro u' w1 w2 h1 h2
  rw [push_pending] at h1 h2
  rcases h1 with ⟨rfl, rfl⟩ | ⟨hn, h1⟩
  · rcases h2 with ⟨_, rfl⟩ | ⟨hn, _⟩
    · rfl
    · exact absurd rfl hn
  · rcases h2 with ⟨rfl, _⟩ | ⟨_, h2⟩
    · exact absurd rfl hn
    · exact h _ _ _ h1 h2

theorem uniq_answer (σ : Rpc U W) (h : σ.Uniq) (u : U) (a : Answer) : (σ.answer u a).Uniq := by
  intro u' w1 w2 h1 h2
  rw [answer_pending] at h1 h2
  exact h _ _ _ h1.2 h2.2

theorem uniq_step (parse : String → Option U) (σ : Rpc U W) (h : σ.Uniq) (op : RpcOp U W) :
    (σ.step parse op).Uniq := by
  rw [step_eq]
  split
  · exact uniq_push _ h _ _
  · exact uniq_answer _ h _ _
  · exact h

theorem uniq_run (parse : String → Option U) (ops : List (RpcOp U W)) : (Rpc.run parse ops).Uniq := by
  induction ops using snoc_induction with
  | nil => intro u w w' h; simp [Rpc.run, Rpc.init] at h
  | snoc ops op ih => rw [run_snoc]; exact uniq_step _ _ ih _

theorem not_touches_iff (parse : String → Option U) (u : U) (op : RpcOp U W) :
    ¬ op.Touches parse u ↔ (∀ w, op.issues ≠ some (u, w)) ∧ ∀ a, op.reply parse ≠ some (u, a) := by
  simp [RpcOp.Touches]

theorem waiting_nil (parse : String → Option U) (u : U) (w : W) : ¬ Waiting parse [] u w := by
  rintro ⟨pre, op, post, h, _⟩; simp at h

theorem waiting_snoc (parse : String → Option U) (ops : List (RpcOp U W)) (op : RpcOp U W) (u : U)
    (w : W) : Waiting parse (ops ++ [op]) u w ↔
      op.issues = some (u, w) ∨ (¬ op.Touches parse u ∧ Waiting parse ops u w) := by
  constructor
  · rintro ⟨pre, o, post, h, hi, hp⟩
    rcases snoc_eq_append_cons h with ⟨rfl, rfl, rfl⟩ | ⟨post', rfl, rfl⟩
    · exact .inl hi
    · exact .inr ⟨hp op (by simp), pre, o, post', rfl, hi, fun x hx => hp x (by simp [hx])⟩
  · rintro (h | ⟨h, pre, o, post, rfl, hi, hp⟩)
    · exact ⟨ops, op, [], by simp, h, by simp⟩
    · refine ⟨pre, o, post ++ [op], by simp, hi, ?_⟩
      intro x hx
      rcases List.mem_append.1 hx with hx | hx
      · exact hp x hx
      · simp at hx; subst hx; exact h

theorem answered_snoc (parse : String → Option U) (ops : List (RpcOp U W)) (op : RpcOp U W) (u : U)
    (w : W) (a : Answer) : Answered parse (ops ++ [op]) u w a ↔
      Answered parse ops u w a ∨
      (Waiting parse ops u w ∧
        (op.reply parse = some (u, a) ∨ (a = .closed ∧ ∃ w', op.issues = some (u, w')))) := by
  constructor
  · rintro ⟨pre, o, mid, o', post, h, hi, hm, ho⟩
    have h' : ops ++ [op] = (pre ++ o :: mid) ++ o' :: post := by simpa using h
    rcases snoc_eq_append_cons h' with ⟨rfl, h2, rfl⟩ | ⟨post', rfl, rfl⟩
    · exact .inr ⟨⟨pre, o, mid, h2, hi, hm⟩, ho⟩
    · exact .inl ⟨pre, o, mid, o', post', by simp, hi, hm, ho⟩
  · rintro (⟨pre, o, mid, o', post, rfl, hi, hm, ho⟩ | ⟨⟨pre, o, mid, rfl, hi, hm⟩, ho⟩)
    · exact ⟨pre, o, mid, o', post ++ [op], by simp, hi, hm, ho⟩
    · exact ⟨pre, o, mid, op, [], by simp, hi, hm, ho⟩

theorem pending_iff (parse : String → Option U) (ops : List (RpcOp U W)) (u : U) (w : W) :
    (u, w) ∈ (Rpc.run parse ops).pending ↔ Waiting parse ops u w := by
  induction ops using snoc_induction generalizing u w with
  | nil => simp [Rpc.run, Rpc.init, waiting_nil]
  | snoc ops op ih =>
    rw [run_snoc, step_eq, waiting_snoc, not_touches_iff]
    split
    · rename_i u' w' hi
      have hr := issues_reply parse op (by rw [hi]; simp)
      rw [push_pending, hi, hr, ih]
      simp only [Option.some.injEq, Prod.mk.injEq]
      constructor
      · rintro (⟨rfl, rfl⟩ | ⟨h1, h2⟩)
        · exact .inl ⟨rfl, rfl⟩
        · exact .inr ⟨⟨fun w h => h1 (by simp at h; exact h.1.symm), by simp⟩, h2⟩
      · rintro (⟨rfl, rfl⟩ | ⟨⟨h1, _⟩, h2⟩)
        · exact .inl ⟨rfl, rfl⟩
        · exact .inr ⟨fun h => h1 w' (by rw [h]), h2⟩
    · rename_i u' a hi hr
      rw [answer_pending, hi, hr, ih]
      simp only [reduceCtorEq, false_or, ne_eq, not_false_eq_true, implies_true, true_and,
        Option.some.injEq, Prod.mk.injEq, not_and]
      constructor
      · rintro ⟨h1, h2⟩; exact ⟨fun _ h => absurd h.symm h1, h2⟩
      · rintro ⟨h1, h2⟩; exact ⟨fun h => h1 a h.symm rfl, h2⟩
    · rename_i hi hr
      rw [hi, hr, ih]; simp

theorem done_iff (parse : String → Option U) (ops : List (RpcOp U W)) (u : U) (w : W) (a : Answer) :
    (u, w, a) ∈ (Rpc.run parse ops).done ↔ Answered parse ops u w a := by
  induction ops using snoc_induction generalizing u w a with
  | nil =>
    simp only [Rpc.run, Rpc.init, List.foldl_nil, List.not_mem_nil, false_iff]
    rintro ⟨pre, op, mid, o, post, h, _⟩
    simp at h
  | snoc ops op ih =>
    rw [run_snoc, step_eq, answered_snoc]
    split
    · rename_i u' w' hi
      have hr := issues_reply parse op (by rw [hi]; simp)
      rw [push_done, hi, hr, ih, pending_iff]
      simp only [reduceCtorEq, Option.some.injEq, Prod.mk.injEq, false_or]
      constructor
      · rintro (h | ⟨rfl, rfl, h⟩)
        · exact .inl h
        · exact .inr ⟨h, rfl, _, rfl, rfl⟩
      · rintro (h | ⟨h, rfl, _, rfl, _⟩)
        · exact .inl h
        · exact .inr ⟨rfl, rfl, h⟩
    · rename_i u' a' hi hr
      rw [answer_done _ (uniq_run _ _), hi, hr, ih, pending_iff]
      simp only [reduceCtorEq, Option.some.injEq, Prod.mk.injEq, exists_false, and_false, or_false]
      constructor
      · rintro (h | ⟨rfl, rfl, h⟩)
        · exact .inl h
        · exact .inr ⟨h, rfl, rfl⟩
      · rintro (h | ⟨h, rfl, rfl⟩)
        · exact .inl h
        · exact .inr ⟨rfl, rfl, h⟩
    · rename_i hi hr
      rw [hi, hr, ih]; simp

/-! callers answered at most once -/

/-- the callers of the requests made, in order. -/
def callers (ops : List (RpcOp U W)) : List W := ops.filterMap fun o => o.issues.map (·.2)

theorem waiting_caller {parse : String → Option U} {ops : List (RpcOp U W)} {u : U} {w : W}
    (h : Waiting parse ops u w) : w ∈ callers ops := by
  obtain ⟨pre, op, post, rfl, hi, _⟩ := h
  unfold callers
  rw [List.mem_filterMap]
  exact ⟨op, by simp, by simp [hi]⟩

theorem step_done (parse : String → Option U) (σ : Rpc U W) (op : RpcOp U W) :
    (σ.step parse op).done = σ.done ∨
    (∃ u w a, (u, w) ∈ σ.pending ∧ (σ.step parse op).done = σ.done ++ [(u, w, a)] ∧
      ∀ w', (u, w') ∈ (σ.step parse op).pending → op.issues = some (u, w')) ∨
    ∃ u w, op.issues = some (u, w) ∧ (σ.step parse op).done = σ.done ++
      (σ.pending.filter (fun p => p.1 = u)).map fun p => (p.1, p.2, .closed) := by
  rw [step_eq]
  split
  · rename_i u w hi
    right; right
    exact ⟨u, w, hi, rfl⟩
  · rename_i u a hi hr
    unfold Rpc.answer
    split
    · left; rfl
    · rename_i p hp
      right; left
      refine ⟨u, p.2, a, ?_, rfl, ?_⟩
      · have hm := List.mem_of_find?_eq_some hp
        have hpu : p.1 = u := by have := List.find?_some hp; simpa using this
        rw [← hpu]; exact hm
      · intro w' hw
        simp at hw
  · left; rfl

/-- pending callers, in table order. -/
def Rpc.callers (σ : Rpc U W) : List W := σ.pending.map (·.2)

theorem once_inv (parse : String → Option U) (ops : List (RpcOp U W)) (hd : (callers ops).Nodup) :
    let σ := Rpc.run parse ops
    (σ.done.map (·.2.1) ++ σ.callers).Nodup ∧
      ∀ w ∈ σ.done.map (·.2.1) ++ σ.callers, w ∈ callers ops := by
  induction ops using snoc_induction with
  | nil => simp [Rpc.run, Rpc.init, Rpc.callers]
  | snoc ops op ih =>
    have hc : callers (ops ++ [op]) = callers ops ++ (op.issues.map (·.2)).toList := by
      unfold callers
      rw [List.filterMap_append]
      cases h : op.issues <;> simp [List.filterMap, h]
    rw [hc] at hd ⊢
    have hd' : (callers ops).Nodup := (List.nodup_append.1 hd).1
    obtain ⟨ih1, ih2⟩ := ih hd'
    intro σ
    have hσ : σ = (Rpc.run parse ops).step parse op := run_snoc _ _ _
    clear_value σ
    generalize Rpc.run parse ops = τ at ih1 ih2 hσ
    rw [step_eq] at hσ
    split at hσ
    · rename_i u w hi
      have hperm : (σ.done.map (·.2.1) ++ σ.callers).Perm (w :: (τ.done.map (·.2.1) ++ τ.callers)) := by
        subst hσ
        simp only [Rpc.push, Rpc.callers, List.map_append, List.map_map, List.map_cons]
        have h1 : (τ.pending.map (·.2)).Perm
            ((τ.pending.filter (fun p => p.1 = u)).map (·.2) ++
              (τ.pending.filter (fun p => p.1 ≠ u)).map (·.2)) := by
          rw [← List.map_append]
          apply List.Perm.map
          have := (List.filter_append_perm (fun p : U × W => decide (p.1 = u)) τ.pending).symm
          simpa using this
        have h2 : (List.map ((fun x => x.2.1) ∘ fun p : U × W => (p.1, p.2, Answer.closed))
            (τ.pending.filter (fun p => p.1 = u))) = (τ.pending.filter (fun p => p.1 = u)).map (·.2) := by
          apply List.map_congr_left; intro p _; rfl
        rw [h2]
        refine List.Perm.trans ?_ (List.Perm.cons w (List.Perm.append_left _ h1.symm))
        rw [← List.append_assoc]
        exact List.perm_middle
      have hw : w ∉ callers ops := by
        rw [hi] at hd
        simp only [Option.map_some, Option.toList_some, List.nodup_append] at hd
        intro hm
        exact hd.2.2 w hm w (by simp) rfl
      constructor
      · rw [hperm.nodup_iff, List.nodup_cons]
        exact ⟨fun hm => hw (ih2 w hm), ih1⟩
      · intro x hx
        rw [hperm.mem_iff, List.mem_cons] at hx
        rw [hi]
        rcases hx with rfl | hx
        · simp
        · simp [ih2 x hx]
    · rename_i u a hi hr
      rw [hi]
      simp only [Option.map_none, Option.toList_none, List.append_nil]
      subst hσ
      unfold Rpc.answer
      split
      · exact ⟨ih1, ih2⟩
      · rename_i p hp
        have hm := List.mem_of_find?_eq_some hp
        have hpu : p.1 = u := by have := List.find?_some hp; simpa using this
        simp only [Rpc.callers, List.map_append, List.map_cons, List.map_nil, List.append_assoc,
          List.cons_append, List.nil_append] at ih1 ih2 ⊢
        have hper := (List.filter_append_perm (fun p : U × W => decide (p.1 = u)) τ.pending)
        have hp' : p ∈ τ.pending.filter (fun q => decide (q.1 = u)) := by simp [hm, hpu]
        have hs : (p :: τ.pending.filter (fun q => q.1 ≠ u)).Sublist
            (τ.pending.filter (fun q => decide (q.1 = u)) ++
              τ.pending.filter (fun q => !decide (q.1 = u))) := by
          have := (List.singleton_sublist.2 hp').append_right
            (τ.pending.filter (fun q => !decide (q.1 = u)))
          simpa using this
        have hs' := (hs.map (·.2)).append_left (τ.done.map (·.2.1))
        have hper' := (hper.map (·.2)).append_left (τ.done.map (·.2.1))
        refine ⟨List.Sublist.nodup hs' (hper'.nodup_iff.2 ih1), fun x hx => ih2 x ?_⟩
        exact hper'.mem_iff.1 (hs'.subset hx)
    · rename_i hi hr
      rw [hi]
      simp only [Option.map_none, Option.toList_none, List.append_nil]
      subst hσ
      exact ⟨ih1, ih2⟩

end

/-! ### the pair -/

theorem pair_run_snoc {U : Type} [DecidableEq U] (ops : List (PairOp U)) (op : PairOp U) :
    Pair.run (ops ++ [op]) = (Pair.run ops).step op := by simp [Pair.run]

theorem pair_responder {U : Type} [DecidableEq U] (ops : List (PairOp U)) :
    (Pair.run ops).responder = (Pair.run ops).rpcReplies := by
  induction ops using snoc_induction with
  | nil => rfl
  | snoc ops op ih =>
    rw [pair_run_snoc]
    cases op <;> simp only [Pair.step]
    · exact ih
    · split <;> exact ih
    · split <;> simp [ih]
    · split
      · split <;> exact ih
      · exact ih

end Verif.Remote
