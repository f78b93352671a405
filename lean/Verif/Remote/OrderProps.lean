import Verif.Remote.OrderModel

/-!
# C82: what order messages to an actor of another node arrive in
-/

namespace Verif.Remote
variable {M : Type}

/-- `f`: the sender of a message. Whenever `s` sends in this history, everything it sent before is in the mailbox: it
waited for the answers. -/
def Waits {S : Type} (f : M → S) (s : S) (σ : Line M) : List (LineOp M) → Prop
  | [] => True
  | .send m :: ops => (f m = s → ∀ x ∈ σ.wire ++ σ.tasks, f x ≠ s) ∧ Waits f s (σ.step (.send m)) ops
  | op :: ops => Waits f s (σ.step op) ops

theorem perm_eraseIdx_cons (l : List M) (i : Nat) (m : M) (h : l[i]? = some m) : l.Perm (m :: l.eraseIdx i) := by
  induction l generalizing i with
  | nil => simp at h
  | cons x l ih =>
    cases i with
    | zero => simp at h; subst h; exact .refl _
    | succ i =>
      simp only [List.getElem?_cons_succ] at h
      simp only [List.eraseIdx_cons_succ]
      exact ((ih i h).cons x).trans (.swap m x _)

theorem line_conserved_step (σ : Line M) (op : LineOp M) (h : σ.sent.Perm (σ.mailbox ++ σ.tasks ++ σ.wire)) :
    (σ.step op).sent.Perm ((σ.step op).mailbox ++ (σ.step op).tasks ++ (σ.step op).wire) := by
  cases op with
  | send m =>
    simp only [Line.step]
    rw [← List.append_assoc]
    exact h.append_right [m]
  | arrive =>
    simp only [Line.step]; unfold Line.arrive
    split
    · exact h
    · rename_i m r hw
      simp only
      rw [hw] at h
      simpa using h
  | deliver i =>
    simp only [Line.step]; unfold Line.deliver
    split
    · exact h
    · rename_i m hm
      simp only
      refine h.trans ?_
      have := perm_eraseIdx_cons σ.tasks i m hm
      simp only [List.append_assoc]
      refine List.Perm.append_left _ ?_
      rw [List.cons_append, List.nil_append]
      exact this.append_right σ.wire

/-- **C82.** Nothing is lost and nothing duplicated: at every moment the messages sent are those in the mailbox, those of
tasks still running and those on the wire. -/
theorem C82_conserved (ops : List (LineOp M)) :
    let σ := ({} : Line M).run ops
    σ.sent.Perm (σ.mailbox ++ σ.tasks ++ σ.wire) := by
  induction ops using snoc_induction with
  | nil => exact .refl _
  | snoc ops op ih =>
    simp only [Line.run, List.foldl_append, List.foldl_cons, List.foldl_nil] at ih ⊢
    exact line_conserved_step _ op ih

theorem waits_order {S : Type} [DecidableEq S] (f : M → S) (s : S) (ops : List (LineOp M)) (σ : Line M)
    (hw : Waits f s σ ops)
    (h1 : (σ.mailbox ++ σ.tasks ++ σ.wire).filter (fun x => f x = s) = σ.sent.filter (fun x => f x = s))
    (h2 : ((σ.tasks ++ σ.wire).filter (fun x => f x = s)).length ≤ 1) :
    let τ := σ.run ops
    (τ.mailbox ++ τ.tasks ++ τ.wire).filter (fun x => f x = s) = τ.sent.filter (fun x => f x = s) := by
  induction ops generalizing σ with
  | nil => exact h1
  | cons op ops ih =>
    show _ = _
    have hrun : σ.run (op :: ops) = (σ.step op).run ops := rfl
    rw [hrun]
    cases op with
    | send m =>
      obtain ⟨hm, hrest⟩ := hw
      refine ih (σ.step (.send m)) hrest ?_ ?_
      · simp only [Line.step, ← List.append_assoc, List.filter_append] at h1 ⊢
        rw [h1]
      · simp only [Line.step, ← List.append_assoc]
        rw [List.filter_append]
        by_cases hs : f m = s
        · have : (σ.tasks ++ σ.wire).filter (fun x => f x = s) = [] := by
            apply List.filter_eq_nil_iff.2
            intro x hx
            have := hm hs x (by rw [List.mem_append] at hx ⊢; exact hx.symm)
            simpa using this
          rw [this]
          simp [hs]
        · simp only [List.filter_cons, hs, decide_false, Bool.false_eq_true, if_false, List.filter_nil,
            List.append_nil]
          exact h2
    | arrive =>
      refine ih (σ.step .arrive) hw ?_ ?_
      · simp only [Line.step]; unfold Line.arrive
        split
        · exact h1
        · rename_i m r hwire
          rw [hwire] at h1
          simpa using h1
      · simp only [Line.step]; unfold Line.arrive
        split
        · exact h2
        · rename_i m r hwire
          rw [hwire] at h2
          simpa using h2
    | deliver i =>
      refine ih (σ.step (.deliver i)) hw ?_ ?_
      · simp only [Line.step]; unfold Line.deliver
        split
        · exact h1
        · rename_i m hm
          simp only
          rw [← h1]
          simp only [List.filter_append, List.append_assoc]
          congr 1
          rw [← List.append_assoc]
          congr 1
          have hp := (perm_eraseIdx_cons σ.tasks i m hm).filter (fun x => f x = s)
          have hl : (σ.tasks.filter (fun x => f x = s)).length ≤ 1 := by
            rw [List.filter_append, List.length_append] at h2
            omega
          have hcons : List.filter (fun x => decide (f x = s)) [m] ++
              (σ.tasks.eraseIdx i).filter (fun x => f x = s) =
              (m :: σ.tasks.eraseIdx i).filter (fun x => f x = s) := by
            rw [← List.filter_append]
            rfl
          rw [hcons]
          generalize hA : σ.tasks.filter (fun x => f x = s) = A at hp hl
          generalize (m :: σ.tasks.eraseIdx i).filter (fun x => f x = s) = B at hp
          match A, hl with
          | [], _ => exact hp.nil_eq.symm
          | [x], _ => exact (List.singleton_perm.1 hp).symm
      · simp only [Line.step]; unfold Line.deliver
        split
        · exact h2
        · rename_i m hm
          simp only
          refine Nat.le_trans ?_ h2
          rw [List.filter_append, List.filter_append, List.length_append, List.length_append]
          exact Nat.add_le_add_right (((List.eraseIdx_sublist σ.tasks i).filter _).length_le) _

/-- **C82.** A sender that waits for the answer to each message before it sends the next has its messages put into the
mailbox in the order sent, whatever other senders do and however the tasks are scheduled. -/
theorem C82_waiting_sender {S : Type} [DecidableEq S] (f : M → S) (s : S) (ops : List (LineOp M))
    (hw : Waits f s {} ops) :
    (({} : Line M).run ops).mailbox.filter (fun x => f x = s) <+:
      (({} : Line M).run ops).sent.filter (fun x => f x = s) := by
  have := waits_order f s ops {} hw rfl (by simp)
  simp only at this
  rw [← this]
  simp only [List.filter_append, List.append_assoc]
  exact List.prefix_append _ _

theorem send_all (l : List M) (σ : Line M) :
    σ.run (l.map .send) = { σ with sent := σ.sent ++ l, wire := σ.wire ++ l } := by
  induction l generalizing σ with
  | nil => simp [Line.run]
  | cons m l ih =>
    have : σ.run ((m :: l).map .send) = (σ.step (.send m)).run (l.map .send) := rfl
    rw [this, ih]
    simp [Line.step]

theorem arrive_all (l : List M) (σ : Line M) (h : σ.wire = l) :
    σ.run (List.replicate l.length .arrive) = { σ with wire := [], tasks := σ.tasks ++ l } := by
  induction l generalizing σ with
  | nil => cases σ; simp_all [Line.run]
  | cons m l ih =>
    have : σ.run (List.replicate (m :: l).length .arrive) = (σ.step .arrive).run (List.replicate l.length .arrive) := rfl
    have hs : σ.step .arrive = { σ with wire := l, tasks := σ.tasks ++ [m] } := by simp [Line.step, Line.arrive, h]
    rw [this, hs, ih _ rfl]
    simp

theorem deliver_any (l' : List M) (σ : Line M) (h : l'.Perm σ.tasks) :
    ∃ ops, σ.run ops = { σ with tasks := [], mailbox := σ.mailbox ++ l' } := by
  induction l' generalizing σ with
  | nil =>
    refine ⟨[], ?_⟩
    have := h.nil_eq
    cases σ
    simp_all [Line.run]
  | cons m l' ih =>
    have hm : m ∈ σ.tasks := h.subset (List.mem_cons_self ..)
    obtain ⟨i, hi⟩ := List.mem_iff_getElem?.1 hm
    have hp : l'.Perm (σ.tasks.eraseIdx i) :=
      (List.perm_cons m).1 (h.trans (perm_eraseIdx_cons σ.tasks i m hi))
    have hs : σ.step (.deliver i) = { σ with tasks := σ.tasks.eraseIdx i, mailbox := σ.mailbox ++ [m] } := by
      simp [Line.step, Line.deliver, hi]
    obtain ⟨ops, hops⟩ := ih (σ.step (.deliver i)) (by rw [hs]; exact hp)
    refine ⟨.deliver i :: ops, ?_⟩
    have : σ.run (.deliver i :: ops) = (σ.step (.deliver i)).run ops := rfl
    rw [this, hops, hs]
    simp

/-- The intended claim: messages of one sender to one actor are handled in the order sent, as they are locally (C12). -/
def C82_full : Prop :=
  ∀ ops : List (LineOp Nat), (({} : Line Nat).run ops).mailbox <+: (({} : Line Nat).run ops).sent

/-- **C82.** Messages that are not waited for can arrive in every order whatsoever. -/
theorem C82_any_order (l l' : List M) (h : l'.Perm l) :
    ∃ ops, ({} : Line M).run ops = { sent := l, mailbox := l' } := by
  have h1 := send_all l ({} : Line M)
  have h2 := arrive_all l (({} : Line M).run (l.map .send)) (by rw [h1]; simp)
  obtain ⟨ops, h3⟩ := deliver_any l'
    ((({} : Line M).run (l.map .send)).run (List.replicate l.length .arrive)) (by rw [h2, h1]; simpa using h)
  refine ⟨l.map .send ++ List.replicate l.length .arrive ++ ops, ?_⟩
  have hsplit : ({} : Line M).run (l.map .send ++ List.replicate l.length .arrive ++ ops) =
      ((({} : Line M).run (l.map .send)).run (List.replicate l.length .arrive)).run ops := by
    simp [Line.run, List.foldl_append]
  rw [hsplit, h3, h2, h1]
  simp

/-- **C82 refuted.** The order is not kept for notifications (or sends that are not awaited) to an actor of another
node: every message is handled by its own task. -/
theorem C82_order_refuted : ¬ C82_full := by
  intro h
  have := h [.send 1, .send 2, .arrive, .arrive, .deliver 1]
  revert this
  decide

example : Waits (fun m : Nat => m % 2) 1 {} [.send 1, .send 2, .arrive, .arrive, .deliver 1, .deliver 0, .send 3] ∧
    (({} : Line Nat).run [.send 1, .send 2, .arrive, .arrive, .deliver 1, .deliver 0, .send 3]).mailbox = [2, 1] := by
  refine ⟨?_, by decide⟩
  simp [Waits, Line.step, Line.arrive, Line.deliver]

end Verif.Remote
