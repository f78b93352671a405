import Verif.Remote.ClientRegModel

/-!
# C58: writes reach the client of the node, and one dead client does not stop the others
-/

namespace Verif.Remote
variable {M : Type}

theorem cregrun_snoc (ops : List (CRegOp M)) (op : CRegOp M) :
    CReg.run (ops ++ [op]) = (CReg.run ops).step op := by simp [CReg.run]

def isDeath : CRegOp M → Bool
  | .dies _ => true
  | _ => false

theorem creg_alive (ops : List (CRegOp M)) (h : ∀ op ∈ ops, isDeath op = false) :
    (CReg.run ops).crashed = false ∧ (CReg.run ops).dead = [] := by
  induction ops using snoc_induction with
  | nil => exact ⟨rfl, rfl⟩
  | snoc ops op ih =>
    obtain ⟨h1, h2⟩ := ih (fun o ho => h o (by simp [ho]))
    have ho := h op (by simp)
    rw [cregrun_snoc]
    generalize CReg.run ops = σ at *
    cases op with
    | dies c => simp [isDeath] at ho
    | newClient a => simp only [CReg.step, h1, CReg.newClient, Bool.false_eq_true, if_false]; split <;> simp [h1, h2]
    | connected n c => simp [CReg.step, h1, h2]
    | remove n a => simp [CReg.step, h1, h2, CReg.remove]
    | write n m => simp only [CReg.step, h1, CReg.write, Bool.false_eq_true, if_false]; split <;> simp [h1, h2]

/-- touches the client registered for node `n`. -/
def touches (n : Nat) : CRegOp M → Bool
  | .connected n' _ => n' == n
  | .remove (some n') _ => n' == n
  | _ => false

theorem byId_step (σ : CReg M) (n : Nat) (op : CRegOp M) (h : touches n op = false) :
    (σ.step op).byId.get n = σ.byId.get n := by
  cases op with
  | dies c => rfl
  | newClient a => simp only [CReg.step, CReg.newClient]; split <;> (try split) <;> rfl
  | connected n' c =>
    simp only [CReg.step]
    simp [touches] at h
    split
    · rfl
    · simp [Assoc.get_insert, Ne.symm h]
  | remove n' a =>
    simp only [CReg.step, CReg.remove]
    split
    · rfl
    · cases n' with
      | none => rfl
      | some n' =>
        simp [touches] at h
        simp [Assoc.get_erase, Ne.symm h]
  | write n' m =>
    simp only [CReg.step, CReg.write]
    split
    · rfl
    · split
      · split <;> rfl
      · rfl

theorem byId_run (pre post : List (CRegOp M)) (n : Nat) (h : ∀ op ∈ post, touches n op = false) :
    (CReg.run (pre ++ post)).byId.get n = (CReg.run pre).byId.get n := by
  induction post using snoc_induction with
  | nil => simp
  | snoc post op ih =>
    rw [← List.append_assoc, cregrun_snoc, byId_step _ _ _ (h op (by simp))]
    exact ih (fun o ho => h o (by simp [ho]))

/-- **C58 (no client actor dies).** A message for a node is handed exactly once, and only, to the
client that last connected to that node. -/
theorem C58_delivered_partial (pre post : List (CRegOp M)) (n c : Nat) (m : M)
    (hpost : ∀ op ∈ post, touches n op = false)
    (hd : ∀ op ∈ pre ++ .connected n c :: post, isDeath op = false) :
    (CReg.run (pre ++ .connected n c :: post ++ [.write n m])).got =
      (CReg.run (pre ++ .connected n c :: post)).got ++ [(c, m)] := by
  obtain ⟨h1, h2⟩ := creg_alive _ hd
  obtain ⟨h3, _⟩ := creg_alive pre (fun o ho => hd o (by simp [ho]))
  have hget : (CReg.run (pre ++ .connected n c :: post)).byId.get n = some c := by
    have := byId_run (pre ++ [.connected n c]) post n hpost
    rw [List.append_assoc] at this
    simp only [List.singleton_append] at this
    rw [this, cregrun_snoc]
    simp [CReg.step, h3, Assoc.get_insert]
  rw [cregrun_snoc]
  simp [CReg.step, CReg.write, h1, h2, hget]

/-- **C58.** A message for a node no client has connected to - or whose client has been removed - is
dropped and changes nothing. -/
theorem C58_unknown_dropped (σ : CReg M) (n : Nat) (m : M) (h : σ.byId.get n = none) :
    σ.step (.write n m) = σ := by
  simp only [CReg.step, CReg.write, h]
  split <;> rfl

/-- the op is the removal of address `a`. -/
def removes (a : String) : CRegOp M → Bool
  | .remove _ a' => a' == a
  | _ => false

theorem byAddr_step (σ : CReg M) (a : String) (c : Nat) (op : CRegOp M) (h : removes a op = false)
    (hg : σ.byAddr.get a = some c) : (σ.step op).byAddr.get a = some c := by
  cases op with
  | dies c => exact hg
  | newClient a' =>
    simp only [CReg.step, CReg.newClient]
    split
    · exact hg
    · split
      · exact hg
      · rename_i hn
        have : a ≠ a' := by rintro rfl; simp [hg] at hn
        simp [Assoc.get_insert, this, hg]
  | connected n' c => simp only [CReg.step]; split <;> exact hg
  | remove n' a' =>
    simp only [CReg.step, CReg.remove]
    simp [removes] at h
    split
    · exact hg
    · simp [Assoc.get_erase, Ne.symm h, hg]
  | write n' m =>
    simp only [CReg.step, CReg.write]
    split
    · exact hg
    · split
      · split <;> exact hg
      · exact hg

/-- **C58.** At most one client per address: until the client of an address is removed, asking for a
client for that address answers the same one and creates none. -/
theorem C58_one_client_per_address (pre post : List (CRegOp M)) (a : String)
    (hpost : ∀ op ∈ post, removes a op = false) (hd : ∀ op ∈ pre, isDeath op = false) :
    let c := ((CReg.run pre).newClient a).2
    let σ := CReg.run (pre ++ .newClient a :: post)
    (σ.newClient a).2 = c ∧ (σ.newClient a).1 = σ := by
  obtain ⟨h1, _⟩ := creg_alive pre hd
  simp only
  have hget : (CReg.run (pre ++ .newClient a :: post)).byAddr.get a =
      some ((CReg.run pre).newClient a).2 := by
    induction post using snoc_induction with
    | nil =>
      rw [cregrun_snoc]
      simp only [CReg.step, h1]
      simp only [CReg.newClient]
      rcases Option.eq_none_or_eq_some ((CReg.run pre).byAddr.get a) with h | ⟨c, h⟩
      · simp [h, Assoc.get_insert]
      · simp [h]
    | snoc post op ih =>
      rw [← List.cons_append, ← List.append_assoc, cregrun_snoc]
      exact byAddr_step _ _ _ _ (hpost op (by simp)) (ih (fun o ho => hpost o (by simp [ho])))
  constructor
  · conv => lhs; unfold CReg.newClient
    simp [hget]
  · unfold CReg.newClient
    simp [hget]

/-- The full claim: a message for a node goes to the client that last connected to it and is alive,
whatever happened to the clients of other nodes. -/
def C58_full (M : Type) : Prop :=
  ∀ (pre post : List (CRegOp M)) (n c : Nat) (m : M), (∀ op ∈ post, touches n op = false) →
    (∀ op ∈ pre ++ post, ∀ c', op = .dies c' → c' ≠ c) →
    (CReg.run (pre ++ .connected n c :: post ++ [.write n m])).got =
      (CReg.run (pre ++ .connected n c :: post)).got ++ [(c, m)]

theorem creg_crashed (σ : CReg M) (h : σ.crashed = true) (ops : List (CRegOp M)) :
    (ops.foldl CReg.step σ).got = σ.got ∧ (ops.foldl CReg.step σ).crashed = true := by
  induction ops generalizing σ with
  | nil => exact ⟨rfl, h⟩
  | cons op ops ih =>
    have : (σ.step op).got = σ.got ∧ (σ.step op).crashed = true := by
      cases op <;> simp [CReg.step, h]
    obtain ⟨a, b⟩ := ih _ this.2
    exact ⟨a.trans this.1, b⟩

/-- **C58, what really happens.** One write to a node whose client actor has died takes the registry
down: nothing is ever written to any node again. -/
theorem C58_dead_client_kills_all (σ : CReg M) (n c : Nat) (m : M) (hg : σ.byId.get n = some c)
    (hdead : c ∈ σ.dead) (ops : List (CRegOp M)) :
    (ops.foldl CReg.step (σ.step (.write n m))).got = σ.got := by
  by_cases hc : σ.crashed = true
  · rw [(creg_crashed (σ.step (.write n m)) (by simp [CReg.step, hc]) ops).1]
    simp [CReg.step, hc]
  · have h1 : (σ.step (.write n m)) = { σ with crashed := true } := by
      simp [CReg.step, hc, CReg.write, hg, hdead]
    rw [h1]
    exact (creg_crashed _ rfl ops).1

/-- **C58 refuted.** -/
theorem C58_refuted : ¬ C58_full Nat := by
  intro h
  have := h [.newClient "a", .newClient "b", .connected 1 0] [.dies 0, .write 1 7] 2 1 8
    (by decide) (by intro op ho c' he; subst he; simp at ho; omega)
  revert this
  decide

/-- **C58 refuted (aliases).** Two clients of one node, under two addresses. When one of them gives up,
the node can no longer be written to, although the other client is connected. -/
theorem C58_alias_refuted (m : M) :
    let σ := CReg.run [.newClient "a", .newClient "b", .connected 1 0, .connected 1 1,
      .remove (some 1) "a"]
    σ.byAddr.get "b" = some 1 ∧ 1 ∉ σ.dead ∧ σ.crashed = false ∧ (σ.step (.write 1 m)).got = [] := by
  refine ⟨rfl, ?_, rfl, rfl⟩
  exact List.not_mem_nil

/-! Concrete cases. -/
example : (CReg.run [.newClient "a", .newClient "b", .connected 1 0, .connected 2 1, .write 1 10,
    .write 2 20, .write 3 30, .write 1 11]).got = [(0, 10), (1, 20), (0, 11)] := by decide
example : (∀ op ∈ [CRegOp.write 2 5, .connected 2 1], touches 1 op = false) := by decide

/-- **C58.** A client that gives up is forgotten: its address leads to a fresh client from then on,
other addresses and nodes are not touched. -/
theorem C58_removed (σ : CReg M) (node : Option Nat) (addr : String) (hc : σ.crashed = false) :
    ((σ.step (.remove node addr)).newClient addr).2 = σ.next ∧
      (∀ a, a ≠ addr → (σ.step (.remove node addr)).byAddr.get a = σ.byAddr.get a) ∧
      (∀ n, (σ.step (.remove node addr)).byId.get n = if node = some n then none else σ.byId.get n) ∧
      (σ.step (.remove node addr)).next = σ.next := by
  simp only [CReg.step, hc, CReg.remove]
  refine ⟨by simp [CReg.newClient, Assoc.get_erase], fun a ha => by simp [Assoc.get_erase, ha], ?_, rfl⟩
  intro n
  cases node with
  | none => simp
  | some k =>
    simp only [Bool.false_eq_true, if_false, Assoc.get_erase, Option.some.injEq]
    by_cases e : n = k <;> simp [e, eq_comm]

/-- every client is younger than the counter. -/
theorem byAddr_lt (ops : List (CRegOp M)) (a : String) (c : Nat) (h : (CReg.run ops).byAddr.get a = some c) :
    c < (CReg.run ops).next := by
  induction ops using snoc_induction generalizing a c with
  | nil => simp [CReg.run, Assoc.get_nil] at h
  | snoc ops op ih =>
    rw [cregrun_snoc] at h ⊢
    generalize CReg.run ops = σ at h ih
    cases op with
    | dies x => exact ih a c h
    | newClient b =>
      simp only [CReg.step] at h ⊢
      split at h
      · rename_i hc; rw [if_pos hc]; exact ih a c h
      · rename_i hc
        rw [if_neg hc]
        simp only [CReg.newClient] at h ⊢
        split at h
        · rename_i c' hb; simp only [hb] at *; exact ih a c h
        · rename_i hb
          simp only [hb] at *
          rw [Assoc.get_insert] at h
          split at h
          · cases h; exact Nat.lt_succ_self _
          · exact Nat.lt_succ_of_lt (ih a c h)
    | connected n x =>
      simp only [CReg.step] at h ⊢
      split at h
      · rename_i hc; rw [if_pos hc]; exact ih a c h
      · rename_i hc; rw [if_neg hc]; exact ih a c h
    | remove n b =>
      simp only [CReg.step] at h ⊢
      split at h
      · rename_i hc; rw [if_pos hc]; exact ih a c h
      · rename_i hc
        rw [if_neg hc]
        simp only [CReg.remove, Assoc.get_erase] at h ⊢
        split at h
        · cases h
        · exact ih a c h
    | write n m =>
      simp only [CReg.step, CReg.write] at h ⊢
      split at h
      · rename_i hc; rw [if_pos hc]; exact ih a c h
      · rename_i hc
        rw [if_neg hc]
        split at h
        · split at h
          · rename_i hd; rw [if_pos hd]; exact ih a c h
          · rename_i hd; rw [if_neg hd]; exact ih a c h
        · exact ih a c h

/-- **C58.** Clients of different addresses are different clients. -/
theorem C58_clients_distinct (ops : List (CRegOp M)) (a b : String) (c : Nat)
    (ha : (CReg.run ops).byAddr.get a = some c) (hb : (CReg.run ops).byAddr.get b = some c) : a = b := by
  induction ops using snoc_induction generalizing a b c with
  | nil => simp [CReg.run, Assoc.get_nil] at ha
  | snoc ops op ih =>
    have hlt := byAddr_lt ops
    rw [cregrun_snoc] at ha hb
    generalize CReg.run ops = σ at ha hb ih hlt
    cases op with
    | dies x => exact ih a b c ha hb
    | newClient d =>
      simp only [CReg.step] at ha hb
      split at ha
      · rename_i hc; rw [if_pos hc] at hb; exact ih a b c ha hb
      · rename_i hc
        rw [if_neg hc] at hb
        simp only [CReg.newClient] at ha hb
        split at ha
        · rename_i x hd; simp only [hd] at hb; exact ih a b c ha hb
        · rename_i hd
          simp only [hd, Assoc.get_insert] at ha hb
          by_cases e1 : a = d <;> by_cases e2 : b = d <;> simp only [e1, e2, if_true, if_false, Option.some.injEq] at ha hb
          · rw [e1, e2]
          · have := hlt b c hb; omega
          · have := hlt a c ha; omega
          · exact ih a b c ha hb
    | connected n x =>
      simp only [CReg.step] at ha hb
      split at ha
      · rename_i hc; rw [if_pos hc] at hb; exact ih a b c ha hb
      · rename_i hc; rw [if_neg hc] at hb; exact ih a b c ha hb
    | remove n d =>
      simp only [CReg.step] at ha hb
      split at ha
      · rename_i hc; rw [if_pos hc] at hb; exact ih a b c ha hb
      · rename_i hc
        rw [if_neg hc] at hb
        simp only [CReg.remove, Assoc.get_erase] at ha hb
        split at ha
        · cases ha
        · split at hb
          · cases hb
          · exact ih a b c ha hb
    | write n m =>
      have hk : (σ.step (.write n m)).byAddr = σ.byAddr := by
        simp only [CReg.step, CReg.write]
        split
        · rfl
        · split
          · split <;> rfl
          · rfl
      rw [hk] at ha hb
      exact ih a b c ha hb

example : let σ := (CReg.run [.newClient "a", .newClient "b", .connected 1 0, .remove (some 1) "a"] : CReg Nat)
    (σ.newClient "a").2 = 2 ∧ (σ.newClient "b").2 = 1 ∧ σ.byId.get 1 = none := by decide

end Verif.Remote
