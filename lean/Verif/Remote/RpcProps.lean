import Verif.Remote.RpcLemmas

/-!
# C19: remote replies reach the request they belong to

Vocabulary (`RpcLemmas.lean`): `RpcOp.issues` (the request an operation makes), `RpcOp.reply` (the
reply it carries), `Waiting` and `Answered` (statements about the list of operations alone).
-/

namespace Verif.Remote
open Verif.Proto Verif.Proto.Network

section
variable {U W : Type} [DecidableEq U]

/-- **C19.** After any interleaving of requests, replies, duplicates and unsolicited replies, a
request is outstanding exactly when it was issued and nothing has answered it since. -/
theorem C19_outstanding (parse : String → Option U) (ops : List (RpcOp U W)) (u : U) (w : W) :
    (u, w) ∈ (Rpc.run parse ops).pending ↔ Waiting parse ops u w :=
  pending_iff parse ops u w

/-- **C19.** A caller gets an answer exactly when it made a request and a reply with that very id
came: it gets what the first such reply said. (If the id is reused before that, its channel is
closed.) -/
theorem C19_answered (parse : String → Option U) (ops : List (RpcOp U W)) (u : U) (w : W)
    (a : Answer) : (u, w, a) ∈ (Rpc.run parse ops).done ↔ Answered parse ops u w a :=
  done_iff parse ops u w a

/-- **C19.** No caller is answered twice, and no answered caller is still waiting. -/
theorem C19_at_most_once (parse : String → Option U) (ops : List (RpcOp U W))
    (hd : (callers ops).Nodup) :
    ((Rpc.run parse ops).done.map (fun d => d.2.1)).Nodup ∧
    ∀ u w a, (u, w, a) ∈ (Rpc.run parse ops).done → ∀ u', (u', w) ∉ (Rpc.run parse ops).pending := by
  have h := (once_inv parse ops hd).1
  rw [List.nodup_append] at h
  refine ⟨h.1, ?_⟩
  intro u w a hm u' hm'
  exact h.2.2 w (List.mem_map.2 ⟨_, hm, rfl⟩) w (List.mem_map.2 ⟨_, hm', rfl⟩) rfl

/-- **C19.** A reply completes at most one request: it adds at most one answer, and touches no
request with another id. -/
theorem C19_reply_completes_one (parse : String → Option U) (ops : List (RpcOp U W))
    (op : RpcOp U W) (u : U) (a : Answer) (hr : op.reply parse = some (u, a)) :
    (Rpc.run parse (ops ++ [op])).done.length ≤ (Rpc.run parse ops).done.length + 1 ∧
    ∀ u' w, u' ≠ u →
      ((u', w) ∈ (Rpc.run parse (ops ++ [op])).pending ↔ (u', w) ∈ (Rpc.run parse ops).pending) := by
  have hi : op.issues = none := by
    cases h : op.issues with
    | none => rfl
    | some x =>
      have := issues_reply parse op (by rw [h]; simp)
      rw [this] at hr; cases hr
  rw [run_snoc, step_eq, hi, hr]
  constructor
  · simp only [Rpc.answer]; split <;> simp
  · intro u' w hne
    simp only
    rw [answer_pending]
    exact ⟨fun h => h.2, fun h => ⟨hne, h⟩⟩

/-- **C19.** A reply nobody is waiting for - unknown, repeated or late - changes nothing. -/
theorem C19_unknown_reply_ignored (parse : String → Option U) (ops : List (RpcOp U W))
    (op : RpcOp U W) (u : U) (a : Answer) (hr : op.reply parse = some (u, a))
    (hn : ∀ w, ¬ Waiting parse ops u w) :
    Rpc.run parse (ops ++ [op]) = Rpc.run parse ops := by
  have hi : op.issues = none := by
    cases h : op.issues with
    | none => rfl
    | some x =>
      have := issues_reply parse op (by rw [h]; simp)
      rw [this] at hr; cases hr
  rw [run_snoc, step_eq, hi, hr]
  simp only [Rpc.answer]
  split
  · rfl
  · rename_i p hp
    have hm := List.mem_of_find?_eq_some hp
    have hpu : p.1 = u := by have := List.find?_some hp; simpa using this
    exact absurd ((pending_iff parse ops u p.2).1 (by rw [← hpu]; exact hm)) (hn p.2)

/-- **C19.** In particular the same reply twice is the same as once. -/
theorem C19_duplicate_reply_ignored (parse : String → Option U) (ops : List (RpcOp U W))
    (op op' : RpcOp U W) (u : U) (a a' : Answer) (hr : op.reply parse = some (u, a))
    (hr' : op'.reply parse = some (u, a')) :
    Rpc.run parse (ops ++ [op, op']) = Rpc.run parse (ops ++ [op]) := by
  have h := C19_unknown_reply_ignored parse (ops ++ [op]) op' u a' hr' (by
    intro w hw
    rw [waiting_snoc] at hw
    rcases hw with h | ⟨h, _⟩
    · have := issues_reply parse op (by rw [h]; simp)
      rw [this] at hr; cases hr
    · exact h (.inr ⟨a, hr⟩))
  simpa using h

/-- a request whose caller already returned with an error of its own. -/
def CallerGone (ops : List (RpcOp U W)) (u : U) (w : W) : Prop := .failedRequest u w ∈ ops

/-- **C19, as far as it holds.** If no request fails locally before it is written, the outstanding
requests are exactly those whose caller still waits. What is missing: `C19_failed_request_refuted`. -/
theorem C19_outstanding_partial (parse : String → Option U) (ops : List (RpcOp U W))
    (hf : ∀ u w, ¬ CallerGone ops u w) (u : U) (w : W) :
    (u, w) ∈ (Rpc.run parse ops).pending ↔ Waiting parse ops u w ∧ ¬ CallerGone ops u w :=
  ⟨fun h => ⟨(pending_iff parse ops u w).1 h, hf u w⟩, fun h => (pending_iff parse ops u w).2 h.1⟩

end

/-- **C19 refuted for failed sends.** `RemoteActorRef::send` stores the request before it builds it;
when building fails the caller gets the error but the entry stays, for ever: no operation but a reply
with that id removes it, and no such request was ever written. -/
theorem C19_failed_request_refuted :
    ∃ ops : List (RpcOp Nat Nat), ∃ u w, CallerGone ops u w ∧
      (u, w) ∈ (Rpc.run (fun _ => none) ops).pending :=
  ⟨[.failedRequest 1 7], 1, 7, by simp [CallerGone], by decide⟩

/-- **C19.** The other node's table: what the responder has outstanding on account of the requests it
serves is exactly the replies it sent through `node_rpc_raw` (every error reply and every result of a
sharded entity), whatever has been delivered since: the entries are never taken out again. -/
theorem C19_responder_keeps_entries {U : Type} [DecidableEq U] (ops : List (PairOp U)) :
    (Pair.run ops).responder = (Pair.run ops).rpcReplies :=
  pair_responder ops

/-- **C19 refuted for replies sent as requests.** One request, answered and delivered: nothing is in
flight and nobody waits, yet the responder has a request outstanding (and a task waiting on it). -/
theorem C19_reply_leak_refuted :
    ∃ ops : List (PairOp Nat), (Pair.run ops).asker = [] ∧ (Pair.run ops).requests = [] ∧
      (Pair.run ops).replies = [] ∧ (Pair.run ops).answered = [1] ∧ (Pair.run ops).responder = [1] :=
  ⟨[.ask 1, .replyByRpc 1, .deliver 1], by decide⟩

/-- replies on the session leave nothing behind. -/
theorem C19_session_reply_clean_partial {U : Type} [DecidableEq U] (ops : List (PairOp U))
    (h : ∀ u, .replyByRpc u ∉ ops) : (Pair.run ops).responder = [] := by
  rw [pair_responder]
  induction ops using snoc_induction with
  | nil => rfl
  | snoc ops op ih =>
    rw [pair_run_snoc]
    have ih' := ih (fun u hu => h u (by simp [hu]))
    cases op <;> simp only [Pair.step]
    · exact ih'
    · split <;> exact ih'
    · rename_i u; exact absurd (by simp) (h u)
    · split
      · split <;> exact ih'
      · exact ih'

/-! Concrete cases. -/

private def num (s : String) : Option Nat := if s = "one" then some 1 else if s = "two" then some 2 else none

private def sample : List (RpcOp Nat Nat) :=
  [.request 1 10, .request 2 20,
   .clientEvent (.result { messageId := "two", result := [5] }),
   .sessionEvent (.result { messageId := "two", result := [6] }),
   .clientEvent (.result { messageId := "zzz", result := [7] })]

example : (Rpc.run num sample).done = [(2, 20, .ok [5])] ∧ (Rpc.run num sample).pending = [(1, 10)] := by
  decide
example : (callers sample).Nodup := by decide
example : Waiting num sample 1 10 :=
  (pending_iff num sample 1 10).1 (by decide)
example : Answered num sample 2 20 (.ok [5]) :=
  (done_iff num sample 2 20 _).1 (by decide)
example : Rpc.run num (sample ++ [.localAnswer 2 .closed]) = Rpc.run num sample :=
  C19_unknown_reply_ignored num sample _ 2 .closed rfl
    (fun w h => by
      have := (pending_iff num sample 2 w).2 h
      have h1 : (Rpc.run num sample).pending = [(1, 10)] := by decide
      rw [h1] at this; simp at this)
example : (∀ u w, ¬ CallerGone sample u w) := by
  intro u w h; simp [CallerGone, sample] at h
example : (Pair.run [.ask 1, .ask 2, .replyOnSession 2, .deliver 2]).answered = [2] ∧
    (Pair.run [.ask 1, .ask 2, .replyOnSession 2, .deliver 2] : Pair Nat).asker = [1] := by decide

/-- the requests made. -/
def asks {U : Type} (ops : List (PairOp U)) : List U :=
  ops.filterMap fun | .ask u => some u | _ => none

/-- **C19.** Nothing is lost between the two nodes: a request that was made is on its way to the
responder, or its reply is on its way back, or it was answered; exactly one of these for each request
made, and the asker waits exactly for those not answered. -/
theorem C19_pair_conserved {U : Type} [DecidableEq U] (ops : List (PairOp U)) :
    ((Pair.run ops).requests ++ (Pair.run ops).replies ++ (Pair.run ops).answered).Perm (asks ops) ∧
      (Pair.run ops).asker.Perm ((Pair.run ops).requests ++ (Pair.run ops).replies) := by
  induction ops using snoc_induction with
  | nil => exact ⟨.refl _, .refl _⟩
  | snoc ops op ih =>
    rw [pair_run_snoc]
    obtain ⟨h1, h2⟩ := ih
    simp only [List.perm_iff_count] at h1 h2 ⊢
    cases op with
    | ask u =>
      constructor
      · intro v
        have := h1 v
        simp only [Pair.step, asks, List.filterMap_append, List.count_append, List.count_cons, List.filterMap_cons, List.filterMap_nil, List.count_nil] at this ⊢
        omega
      · intro v
        have := h2 v
        simp only [Pair.step, List.count_append, List.count_cons] at this ⊢
        omega
    | replyOnSession u =>
      have ha : asks (ops ++ [PairOp.replyOnSession u]) = asks ops := by simp [asks]
      rw [ha]
      simp only [Pair.step]
      by_cases hu : u ∈ (Pair.run ops).requests
      · rw [if_pos hu]
        have hc := List.count_pos_iff.2 hu
        refine ⟨fun v => ?_, fun v => ?_⟩
        · have := h1 v
          simp only [List.count_append, List.count_cons, List.count_erase, beq_iff_eq] at this ⊢
          by_cases e : u = v
          · subst e; simp; omega
          · simp [e]; omega
        · have := h2 v
          simp only [List.count_append, List.count_cons, List.count_erase, beq_iff_eq] at this ⊢
          by_cases e : u = v
          · subst e; simp; omega
          · simp [e]; omega
      · rw [if_neg hu]; exact ⟨h1, h2⟩
    | replyByRpc u =>
      have ha : asks (ops ++ [PairOp.replyByRpc u]) = asks ops := by simp [asks]
      rw [ha]
      simp only [Pair.step]
      by_cases hu : u ∈ (Pair.run ops).requests
      · rw [if_pos hu]
        have hc := List.count_pos_iff.2 hu
        refine ⟨fun v => ?_, fun v => ?_⟩
        · have := h1 v
          simp only [List.count_append, List.count_cons, List.count_erase, beq_iff_eq] at this ⊢
          by_cases e : u = v
          · subst e; simp; omega
          · simp [e]; omega
        · have := h2 v
          simp only [List.count_append, List.count_cons, List.count_erase, beq_iff_eq] at this ⊢
          by_cases e : u = v
          · subst e; simp; omega
          · simp [e]; omega
      · rw [if_neg hu]; exact ⟨h1, h2⟩
    | deliver u =>
      have ha : asks (ops ++ [PairOp.deliver u]) = asks ops := by simp [asks]
      rw [ha]
      simp only [Pair.step]
      by_cases hu : u ∈ (Pair.run ops).replies
      · rw [if_pos hu]
        have hc := List.count_pos_iff.2 hu
        have hm : u ∈ (Pair.run ops).asker := by
          have := h2 u
          simp only [List.count_append] at this
          exact List.count_pos_iff.1 (by omega)
        rw [if_pos hm]
        refine ⟨fun v => ?_, fun v => ?_⟩
        · have := h1 v
          simp only [List.count_append, List.count_cons, List.count_erase, beq_iff_eq] at this ⊢
          by_cases e : u = v
          · subst e; simp; omega
          · simp [e]; omega
        · have := h2 v
          simp only [List.count_append, List.count_cons, List.count_erase, beq_iff_eq] at this ⊢
          by_cases e : u = v
          · subst e; simp; omega
          · simp [e]; omega
      · rw [if_neg hu]; exact ⟨h1, h2⟩

example : (Pair.run [.ask 1, .ask 2, .replyOnSession 1, .deliver 1, .replyByRpc 2] : Pair Nat) =
    ⟨[2], [2], [], [2], [1], [2]⟩ := by decide

end Verif.Remote
