import Verif.Remote.LookupLemmas

/-!
# C105: the search for an actor comes to an end, whatever each node knows
-/

namespace Verif.Remote.Lookup

variable {h : RNode → Nat} {key : Nat → Nat}

/-- **C105 (no circles)**: if the nodes are known under the same details everywhere, no question comes back to a node it has already
been put to: not even if every node knows other nodes, and learns of more while the question is under way. -/
theorem C105_no_circle {D : Nat → RNode} {ops : List Op} (hc : Consistent h D ops) (c : Chain) (hm : c ∈ (run h key ops).chains) :
    c.path.Nodup := by
  refine (chains_ok hc c hm).2.imp ?_
  rintro p q hpq rfl
  exact Closer.irrefl hpq

/-- **C105 (it ends)**: from any point on there is a bound to the steps that the questions under way can take, in whatever order
they are taken. -/
theorem C105_ends {D : Nat → RNode} {ops : List Op} (hc : Consistent h D ops) :
    ∃ B, ∀ more, Goes h key (run h key ops) more → more.length ≤ B :=
  ⟨_, fun more hg => goes_weight hc more (learned ops) (fun x n hx => List.mem_filterMap.2 ⟨_, hx, rfl⟩) hg⟩

/-- **C105 (never stuck)**: as long as a question is under way there is a step to take, without anybody giving up. -/
theorem C105_moves (ops : List Op) (hne : (run h key ops).chains ≠ []) : ∃ o, o.Calm ∧ Enabled (run h key ops) o :=
  enabled_of_chain hne

/-- **C105 (answered)**: at any moment those who asked are those who have an answer and those whose question is under way; each
exactly as often as they asked. -/
theorem C105_account (ops : List Op) :
    ((run h key ops).results.map (·.1) ++ (run h key ops).chains.filterMap (·.caller)).Perm (asked ops) := callers_run ops

/-- **C105 (all answered)**: when no step is left everybody who asked has got exactly one answer for each question. -/
theorem C105_answered (ops : List Op) (hq : ∀ o, ¬ Enabled (run h key ops) o) :
    ((run h key ops).results.map (·.1)).Perm (asked ops) := by
  have := callers_run (h := h) (key := key) ops
  have hn : (run h key ops).chains = [] := by
    refine Classical.byContradiction fun hne => ?_
    obtain ⟨o, _, he⟩ := enabled_of_chain hne
    exact hq o he
  simpa [St.callers, hn] using this

/-- **C105 (true)**: an answer that names a node names one on which the actor asked for has been started. -/
theorem C105_true (ops : List Op) (c n : Nat) (hm : (c, some n) ∈ (run h key ops).results) :
    ∃ x a, .ask x a c ∈ ops ∧ .start n a ∈ ops := by
  obtain ⟨x, a, h1, h2⟩ := (truth_run (h := h) (key := key) ops).res _ hm
  exact ⟨x, a, h1, h2 n rfl⟩

/-! ### Found -/

/-- the nodes of `S` know exactly each other. -/
def Whole (D : Nat → RNode) (S : List Nat) (ops : List Op) : Prop :=
  ∀ x ∈ S, ∀ n, .learn x n ∈ ops ↔ n.id ∈ S ∧ n = D n.id

theorem owner_whole {D : Nat → RNode} {ops : List Op} (hc : Consistent h D ops) {S : List Nat} (hw : Whole D S ops) {x y : Nat}
    (hx : x ∈ S) (hy : y ∈ S) (a : Nat) :
    (run h key ops).owner key x a = (run h key ops).owner key y a ∧ (run h key ops).owner key x a ∈ S := by
  have hh := holds_run (h := h) (key := key) hc.same
  obtain ⟨ms, h1, h2⟩ := hh.ring x
  obtain ⟨ms', h1', h2'⟩ := hh.ring y
  have hsame : ∀ m, m ∈ ms ↔ m ∈ ms' := fun m => by rw [h2, h2', hw x hx, hw y hy]
  have hcl : NoClash h ms := by
    intro p hp q hq e
    have hp' := hc.same x p ((h2 p).1 hp)
    have hq' := hc.same x q ((h2 q).1 hq)
    rw [hp', hq'] at e
    rw [hp', hq', hc.clash _ _ e]
  have hDx : D x ∈ ms := (h2 _).2 ((hw x hx _).2 ⟨by rw [hc.id]; exact hx, by rw [hc.id]⟩)
  have hne : ∀ {r : Ring} {l : List RNode}, RingOf h r l → D x ∈ l → r ≠ [] := by
    intro r l hr hm e
    subst e
    have := hr.perm.length_eq
    cases l with
    | nil => simp at hm
    | cons b l => simp at this
  have s1 := ringGet_isSome (key a) (hne h1 hDx)
  have s2 := ringGet_isSome (key a) (hne h1' ((hsame _).1 hDx))
  obtain ⟨n, hn⟩ := Option.isSome_iff_exists.1 s1
  obtain ⟨n', hn'⟩ := Option.isSome_iff_exists.1 s2
  have o1 := ringGet_owner h1 hn
  have o2 := ringGet_owner h1' hn'
  have o2' : IsOwner h ms (key a) n' := by
    refine ⟨(hsame _).2 o2.1, ?_⟩
    rcases o2.2 with ⟨g1, g2⟩ | ⟨g1, g2⟩
    · exact .inl ⟨g1, fun m hm => g2 m ((hsame m).1 hm)⟩
    · exact .inr ⟨fun m hm => g1 m ((hsame m).1 hm), fun m hm => g2 m ((hsame m).1 hm)⟩
  have e := o1.unique hcl o2'
  subst e
  simp only [St.owner, NStore.byKey]
  rw [hn, hn']
  exact ⟨rfl, ((hw x hx n).1 ((h2 n).1 o1.1)).1⟩

theorem run_append (ops more : List Op) : run h key (ops ++ more) = more.foldl (St.step h key) (run h key ops) := by
  simp [run, List.foldl_append]

theorem stores_settled (ops more : List Op) (hs : ∀ o ∈ more, o.Settled) : (run h key (ops ++ more)).stores = (run h key ops).stores := by
  induction more using snoc_induction with
  | nil => simp
  | snoc more o ih =>
    rw [← List.append_assoc, run_snoc, stores_step _ _ ?_, ih fun p hp => hs p (List.mem_append_left _ hp)]
    rintro x n rfl
    exact hs (.learn x n) (by simp)

theorem owner_settled (ops more : List Op) (hs : ∀ o ∈ more, o.Settled) (x a : Nat) :
    (run h key (ops ++ more)).owner key x a = (run h key ops).owner key x a := by
  simp only [St.owner, stores_settled ops more hs]

/-- what is said of an actor that only node `n` starts: all registries and registrations have `n`. -/
theorem only_home {ops : List Op} {a n : Nat} (ho : ∀ x, .start x a ∈ ops → x = n) :
    (∀ x m, (run h key ops).reg x a = some m → m = n) ∧ (∀ e ∈ (run h key ops).flying, e.2.1 = a → e.2.2 = n) := by
  have ht := truth_run (h := h) (key := key) ops
  refine ⟨fun x m hr => ho m (ht.reg x a m hr), fun e he e2 => ho _ ?_⟩
  rw [← e2]
  exact ht.fly e he

/-- a registration is with the node responsible or on its way to it. -/
theorem registered_mid {D : Nat → RNode} {pre : List Op} {S : List Nat} {n a : Nat} (mid : List Op)
    (hs : ∀ o ∈ mid, o.Settled) (hd : ∀ i, .drop i ∉ mid) (hst : .start n a ∈ mid) (ho : ∀ x, .start x a ∈ pre ++ mid → x = n) :
    (run h key (pre ++ mid)).reg ((run h key pre).owner key n a) a = some n ∨
      ((run h key pre).owner key n a, a, n) ∈ (run h key (pre ++ mid)).flying := by
  induction mid using snoc_induction with
  | nil => simp at hst
  | snoc mid o ih =>
    have hs' : ∀ p ∈ mid, p.Settled := fun p hp => hs p (List.mem_append_left _ hp)
    have ho' : ∀ x, .start x a ∈ pre ++ mid → x = n := fun x hx => ho x (by
      rw [← List.append_assoc]; exact List.mem_append_left _ hx)
    have hown := owner_settled (h := h) (key := key) pre mid hs'
    have hhome := only_home (h := h) (key := key) ho'
    rw [← List.append_assoc, run_snoc]
    have ih := fun hm => ih hs' (fun i hi => hd i (List.mem_append_left _ hi)) hm ho'
    have hset : o.Settled := hs o (by simp)
    have hnd : ∀ i, o ≠ .drop i := fun i e => hd i (by simp [e])
    have hstart : ∀ x, o = .start x a → x = n := fun x e => ho x (by simp [e])
    have hown := hown n a
    generalize (run h key pre).owner key n a = ow at *
    generalize run h key (pre ++ mid) = σ at *
    have hcase : .start n a ∈ mid ∨ o = .start n a := by
      rcases List.mem_append.1 hst with h1 | h1
      · exact .inl h1
      · exact .inr (List.mem_singleton.1 h1).symm
    rcases hcase with hm | rfl
    · have ih := ih hm
      cases o with
      | learn x m => exact hset.elim
      | drop i => exact absurd rfl (hnd i)
      | start x b =>
        simp only [St.step, St.start]
        split
        · simp only [St.setReg]
          rcases ih with h1 | h1
          · left
            split
            · rename_i e
              obtain ⟨e1, e2⟩ := e
              rw [hstart x (by rw [e2])]
            · exact h1
          · exact .inr h1
        · rcases ih with h1 | h1
          · exact .inl h1
          · exact .inr (List.mem_append_left _ h1)
      | arrive i =>
        simp only [St.step]
        split
        · exact ih
        · rename_i o' a' n' hi
          have hn' : a' = a → n' = n := fun e => hhome.2 _ (List.mem_of_getElem? hi) e
          simp only [St.setReg]
          rcases ih with h1 | h1
          · left
            split
            · rename_i e
              rw [hn' e.2.symm]
            · exact h1
          · rcases List.mem_cons.1 ((Peering.eraseIdx_split hi).mem_iff.1 h1) with h2 | h2
            · cases h2
              left
              simp
            · exact .inr h2
      | ask x b c => exact ih
      | look i => simp only [St.step]; split <;> exact ih
      | back i => simp only [St.step]; split <;> exact ih
      | giveUp i k =>
        simp only [St.step]
        split
        · split <;> exact ih
        · exact ih
      | lost i => simp only [St.step]; split <;> exact ih
    · simp only [St.step, St.start, hown]
      split
      · rename_i e
        left
        simp [St.setReg, e]
      · right
        simp

/-- **C105 (found)**, the part that holds: once the nodes of a cluster all know exactly each other, an actor started on one of them
and nowhere else, whose registration has arrived, is found from every node by every later question, provided nobody gives up
waiting. Without these conditions see the refutations below. -/
theorem C105_found_partial {D : Nat → RNode} (pre mid post : List Op) (hc : Consistent h D (pre ++ mid ++ post))
    {S : List Nat} (hw : Whole D S pre) (hset : ∀ o ∈ mid ++ post, o.Settled) {n a : Nat} (hn : n ∈ S)
    (hst : .start n a ∈ mid) (ho : ∀ x, .start x a ∈ pre ++ mid ++ post → x = n)
    (hd : ∀ i, .drop i ∉ mid) (hfl : ∀ e ∈ (run h key (pre ++ mid)).flying, e.2.1 ≠ a)
    (hcalm : ∀ o ∈ post, o.Calm) {c : Nat} (hnew : c ∉ asked (pre ++ mid)) (hask : ∀ x b, .ask x b c ∈ post → x ∈ S ∧ b = a)
    (r : Option Nat) (hr : (c, r) ∈ (run h key (pre ++ mid ++ post)).results) : r = some n := by
  have hcpre : Consistent h D pre := by
    refine ⟨hc.id, hc.clash, fun x m hx => hc.same x m (by simp [hx]), fun p x m q e => hc.self p x m (q ++ mid ++ post) ?_⟩
    rw [e]; simp
  have hop : ∀ {x y : Nat}, x ∈ S → y ∈ S → ∀ b, _ := fun hx hy b => owner_whole (key := key) hcpre hw hx hy b
  have hreg : (run h key (pre ++ mid)).reg ((run h key pre).owner key n a) a = some n := by
    rcases registered_mid (D := D) (S := S) (h := h) (key := key) (pre := pre) mid
      (fun o ho => hset o (List.mem_append_left _ ho)) hd hst (fun x hx => ho x (List.mem_append_left _ hx)) with h1 | h1
    · exact h1
    · exact absurd rfl (hfl _ h1)
  suffices H : (run h key (pre ++ mid ++ post)).reg ((run h key pre).owner key n a) a = some n ∧
      (∀ d ∈ (run h key (pre ++ mid ++ post)).chains, d.caller = some c →
        d.actor = a ∧ (∃ x p, d.path = x :: p ∧ x ∈ S) ∧ (d.phase = .asking ∨ d.phase = .back (some n)) ∧ ∀ x ∈ d.path, x ∈ S) ∧
      ∀ e ∈ (run h key (pre ++ mid ++ post)).results, e.1 = c → e.2 = some n from H.2.2 _ hr rfl
  clear hr
  induction post using snoc_induction with
  | nil =>
    have hcal := callers_run (h := h) (key := key) (pre ++ mid)
    rw [List.append_nil]
    refine ⟨hreg, fun d hd e => ?_, fun e he e1 => ?_⟩
    · refine absurd (hcal.mem_iff.1 ?_) hnew
      exact List.mem_append_right _ (List.mem_filterMap.2 ⟨d, hd, e⟩)
    · refine absurd (hcal.mem_iff.1 ?_) hnew
      exact List.mem_append_left _ (List.mem_map.2 ⟨e, he, e1⟩)
  | snoc post o ih =>
    have hsub : ∀ p, p ∈ pre ++ mid ++ post → p ∈ pre ++ mid ++ (post ++ [o]) := fun p hp => by
      rw [← List.append_assoc]; exact List.mem_append_left _ hp
    rw [← List.append_assoc] at hc
    have ih := ih hc.init (fun p hp => hset p (by
        rw [← List.append_assoc]; exact List.mem_append_left _ hp))
      (fun x hx => ho x (hsub _ hx)) (fun p hp => hcalm p (List.mem_append_left _ hp))
      (fun x b hx => hask x b (List.mem_append_left _ hx))
    have hhome := only_home (h := h) (key := key) (ops := pre ++ mid ++ post) (fun x hx => ho x (hsub _ hx))
    have hown : ∀ x b, (run h key (pre ++ mid ++ post)).owner key x b = (run h key pre).owner key x b := by
      intro x b
      rw [List.append_assoc]
      exact owner_settled _ _ (fun p hp => hset p (by
        rcases List.mem_append.1 hp with h1 | h1
        · exact List.mem_append_left _ h1
        · exact List.mem_append_right _ (List.mem_append_left _ h1))) x b
    have hcal : o.Calm := hcalm o (by simp)
    have hst' : o.Settled := hset o (by simp)
    have hstart : ∀ x, o = .start x a → x = n := fun x e => ho x (by simp [e])
    have hask' : ∀ x b, o = .ask x b c → x ∈ S ∧ b = a := fun x b e => hask x b (by simp [e])
    rw [← List.append_assoc, run_snoc]
    clear hc hcalm hset hask ho hsub
    generalize run h key (pre ++ mid ++ post) = σ at *
    obtain ⟨i1, i2, i3⟩ := ih
    cases o with
    | learn x m => exact hst'.elim
    | drop i => exact hcal.elim
    | giveUp i k => exact hcal.elim
    | lost i => exact hcal.elim
    | start x b =>
      simp only [St.step, St.start]
      split
      · refine ⟨?_, i2, i3⟩
        simp only [St.setReg]
        split
        · rename_i e
          rw [hstart x (by rw [e.2])]
        · exact i1
      · exact ⟨i1, i2, i3⟩
    | arrive i =>
      simp only [St.step]
      split
      · exact ⟨i1, i2, i3⟩
      · rename_i o' a' n' hi
        have hn' : a' = a → n' = n := fun e => hhome.2 _ (List.mem_of_getElem? hi) e
        refine ⟨?_, i2, i3⟩
        simp only [St.setReg]
        split
        · rename_i e
          rw [hn' e.2.symm]
        · exact i1
    | ask x b c' =>
      refine ⟨i1, fun d hd e => ?_, i3⟩
      simp only [St.step, List.mem_append, List.mem_singleton] at hd
      rcases hd with hd | rfl
      · exact i2 d hd e
      · simp only [Option.some.injEq] at e
        subst e
        obtain ⟨h1, h2⟩ := hask' x b rfl
        exact ⟨h2, ⟨x, [], rfl, h1⟩, .inl rfl, by simpa using h1⟩
    | look i =>
      simp only [St.step]
      split
      · rename_i b x p c' hi
        refine ⟨i1, fun d hd e => ?_, i3⟩
        rcases mem_set_cases hd with hd | rfl
        · exact i2 d hd e
        · have hk := i2 _ (List.mem_of_getElem? hi)
          simp only [St.look] at e ⊢
          cases hq : σ.reg x b with
          | some m =>
            simp only [hq] at e ⊢
            obtain ⟨h1, h2, h3, h4⟩ := hk e
            simp only at h1
            subst h1
            refine ⟨rfl, h2, .inr ?_, h4⟩
            rw [hhome.1 x m hq]
          | none =>
            simp only [hq] at e ⊢
            split at e
            · obtain ⟨h1, h2, h3, h4⟩ := hk e
              simp only at h1
              subst h1
              rename_i he
              rw [hown, (hop (h4 x (by simp)) hn b).1] at he
              rw [he, hq] at i1
              cases i1
            · rename_i he
              obtain ⟨h1, h2, h3, h4⟩ := hk e
              simp only at h1
              subst h1
              rw [if_neg he]
              have hS := (hop (h4 x (by simp)) hn b).2
              rw [hown]
              refine ⟨rfl, ⟨_, _, rfl, hS⟩, h3, fun y hy => ?_⟩
              rcases List.mem_cons.1 hy with rfl | hy
              · exact hS
              · exact h4 y hy
      · exact ⟨i1, i2, i3⟩
    | back i =>
      simp only [St.step]
      split
      · rename_i b x y p r' c' hi
        refine ⟨i1, fun d hd e => ?_, i3⟩
        rcases mem_set_cases hd with hd | rfl
        · exact i2 d hd e
        · obtain ⟨h1, h2, h3, h4⟩ := i2 _ (List.mem_of_getElem? hi) e
          exact ⟨h1, ⟨y, p, rfl, h4 y (by simp)⟩, h3, fun z hz => h4 z (List.mem_cons_of_mem _ hz)⟩
      · rename_i b x r' c' hi
        refine ⟨i1, fun d hd e => i2 d (List.mem_of_mem_eraseIdx hd) e, fun e he e1 => ?_⟩
        rcases List.mem_append.1 he with he | he
        · exact i3 e he e1
        · cases c' with
          | none => simp at he
          | some c' =>
            simp at he
            subst he
            simp only at e1
            subst e1
            obtain ⟨h1, h2, h3, h4⟩ := i2 _ (List.mem_of_getElem? hi) rfl
            rcases h3 with h3 | h3
            · cases h3
            · simp only [Phase.back.injEq] at h3
              exact h3
      · exact ⟨i1, i2, i3⟩

/-! ### What does not hold -/

/-- the hash of the examples: the length of the address. -/
def addrLen (n : RNode) : Nat := n.addr.length

def nodeAt (m : Nat) (addr : String) : RNode := ⟨m, addr, "n", none⟩

/-- two nodes; each knows itself as `localhost:30101`, and the other under the address the connection came from. -/
def twoNames : List Op :=
  [.learn 0 (nodeAt 0 "localhost:30101"), .learn 1 (nodeAt 1 "localhost:30101"), .learn 0 (nodeAt 1 "n1:30101"),
    .learn 1 (nodeAt 0 "n0:30101")]

/-- the question of node 0 after an actor nobody has started, its caller answered after five seconds. -/
def askedOnce : List Op := twoNames ++ [.ask 0 0 7, .look 0, .giveUp 0 1, .back 0]

theorem circle_goes (N : Nat) : ∀ (σ : St) (x : Nat) (p : List Nat) (c : Option Nat), σ.stores = (run addrLen id twoNames).stores →
    σ.reg = (fun _ _ => none) → x < 2 → σ.chains[0]? = some ⟨0, x :: p, .asking, c⟩ → Goes addrLen id σ (List.replicate N (.look 0)) := by
  induction N with
  | zero => intros; trivial
  | succ N ih =>
    intro σ x p c hs hr hx hi
    refine ⟨⟨0, x, p, c, hi⟩, ?_⟩
    have how : σ.owner id x 0 = 1 - x := by
      unfold St.owner
      rw [hs]
      match x, hx with
      | 0, _ => decide +kernel
      | 1, _ => decide +kernel
    have hne : ¬ (1 - x = x) := by omega
    simp only [St.step, hi, St.look, hr, how, if_neg hne]
    refine ih _ (1 - x) (x :: p) c hs rfl (by omega) ?_
    cases hl : σ.chains with
    | nil => rw [hl] at hi; simp at hi
    | cons d l => simp

/-- **C105 refuted if details differ**: a session registers a connecting node under the address it sees if
`override_incoming_node_addr` is set (`/repo/coerce/src/remote/net/server/session/mod.rs` 480-486), and the place on the ring comes
from all details (`/repo/coerce/src/remote/cluster/node.rs` 82-89). Two nodes that know each other under other addresses than they
know themselves can each hold the other responsible: one question after an actor that is not there goes back and forth for ever,
long after the caller has been told `None`; every round leaves another request waiting on both nodes. -/
theorem C105_circle_refuted :
    (run addrLen id askedOnce).results = [(7, none)] ∧
    ∀ N, Goes addrLen id (run addrLen id askedOnce) (List.replicate N (.look 0)) := by
  refine ⟨by decide +kernel, fun N => ?_⟩
  refine circle_goes N _ 1 [] none ?_ ?_ (by decide) (by decide +kernel)
  · unfold askedOnce
    exact stores_settled twoNames _ (by intro o ho; simp at ho; rcases ho with rfl | rfl | rfl | rfl <;> trivial)
  · funext x a
    cases hq : (run addrLen id askedOnce).reg x a with
    | none => rfl
    | some n =>
      have := (truth_run (h := addrLen) (key := id) askedOnce).reg x a n hq
      simp [askedOnce, twoNames] at this

/-- node `m` of the examples with addresses that differ in length. -/
def nodeNo (m : Nat) : RNode := nodeAt m (String.ofList (List.replicate (m + 1) 'x'))

/-- node 1 starts actor 0 before it has joined, then both nodes learn of each other; node 0 asks. -/
def beforeJoin : List Op :=
  [.learn 0 (nodeNo 0), .learn 1 (nodeNo 1), .start 1 0, .learn 0 (nodeNo 1), .learn 1 (nodeNo 0), .ask 0 0 7, .look 0, .back 0]

theorem nodeNo_id (m : Nat) : (nodeNo m).id = m := rfl

theorem nodeNo_len (m : Nat) : addrLen (nodeNo m) = m + 1 := by simp [addrLen, nodeNo, nodeAt]

/-- a Bool check of the last clause of `Consistent` for the examples. -/
def selfFirst (D : Nat → RNode) : List Op → List Op → Bool
  | _, [] => true
  | pre, .learn x n :: os => (decide (n.id = x) || decide (.learn x (D x) ∈ pre)) && selfFirst D (.learn x n :: pre) os
  | pre, o :: os => selfFirst D (o :: pre) os

theorem selfFirst_sound (D : Nat → RNode) (ops : List Op) : ∀ acc, selfFirst D acc ops = true → ∀ pre x n post,
    ops = pre ++ .learn x n :: post → n.id = x ∨ .learn x (D x) ∈ pre ∨ .learn x (D x) ∈ acc := by
  induction ops with
  | nil => intro acc _ pre x n post e; simp at e
  | cons o os ih =>
    intro acc hs pre x n post e
    have hrest : selfFirst D (o :: acc) os = true := by
      cases o <;> simp only [selfFirst, Bool.and_eq_true] at hs <;> first | exact hs | exact hs.2
    cases pre with
    | nil =>
      simp only [List.nil_append, List.cons.injEq] at e
      obtain ⟨rfl, rfl⟩ := e
      simp only [selfFirst, Bool.and_eq_true, Bool.or_eq_true, decide_eq_true_eq] at hs
      rcases hs.1 with h1 | h1
      · exact .inl h1
      · exact .inr (.inr h1)
    | cons q pre =>
      simp only [List.cons_append, List.cons.injEq] at e
      obtain ⟨rfl, rfl⟩ := e
      rcases ih (o :: acc) hrest pre x n post rfl with h1 | h1 | h1
      · exact .inl h1
      · exact .inr (.inl (List.mem_cons_of_mem _ h1))
      · rcases List.mem_cons.1 h1 with h2 | h2
        · exact .inr (.inl (by rw [h2]; simp))
        · exact .inr (.inr h2)

theorem consistent_of_check (ops : List Op) (h1 : (ops.all fun | .learn _ n => decide (n = nodeNo n.id) | _ => true) = true)
    (h2 : selfFirst nodeNo [] ops = true) : Consistent addrLen nodeNo ops where
  id := nodeNo_id
  clash := by intro m m' e; rw [nodeNo_len, nodeNo_len] at e; omega
  same := by
    intro x n hm
    have := List.all_eq_true.1 h1 _ hm
    simpa using this
  self := by
    intro pre x n post e
    rcases selfFirst_sound nodeNo ops [] h2 pre x n post e with h | h | h
    · exact .inl h
    · exact .inr h
    · simp at h

/-- **C105 refuted for actors started before their node joined**: with details the same everywhere, nothing lost and nobody giving up,
an actor started on a node before it knows the others stays in that node's own registry; nothing hands it over when nodes become
known (`/repo/coerce/src/remote/actor/registry.rs` 73-84 only registers them), and any other node is told that there is no such
actor. -/
theorem C105_before_join_refuted :
    Consistent addrLen nodeNo beforeJoin ∧ (∀ o ∈ beforeJoin, o.Calm) ∧ .start 1 0 ∈ beforeJoin ∧
    (run addrLen id beforeJoin).flying = [] ∧ (run addrLen id beforeJoin).chains = [] ∧
    (run addrLen id beforeJoin).results = [(7, none)] := by
  refine ⟨consistent_of_check _ (by decide +kernel) (by decide +kernel), ?_, by decide +kernel, by decide +kernel, by decide +kernel,
    by decide +kernel⟩
  intro o ho
  simp [beforeJoin] at ho
  rcases ho with rfl | rfl | rfl | rfl | rfl | rfl | rfl | rfl <;> trivial

/-- two nodes that know each other. -/
def joined : List Op := [.learn 0 (nodeNo 0), .learn 1 (nodeNo 1), .learn 0 (nodeNo 1), .learn 1 (nodeNo 0)]

def slowAnswer : List Op := joined ++ [.start 0 2, .arrive 0, .ask 0 2 8, .look 0, .giveUp 0 1, .back 0]

/-- **C105 refuted for those who give up**: an actor that runs and is registered is not found if an answer takes more than five
seconds: the caller is told `None`, the same as for an actor that does not exist
(`/repo/coerce/src/remote/system/actor.rs` 87-106). -/
theorem C105_giveup_refuted :
    Consistent addrLen nodeNo slowAnswer ∧ (run addrLen id slowAnswer).reg 1 2 = some 0 ∧
    (run addrLen id slowAnswer).owner id 0 2 = 1 ∧ (8, none) ∈ (run addrLen id slowAnswer).results :=
  ⟨consistent_of_check _ (by decide +kernel) (by decide +kernel), by decide +kernel, by decide +kernel, by decide +kernel⟩

/-! ### Instances -/

/-- three nodes; node 0 knows 2 only, node 2 knows all, and a question goes 0, 2, 1. -/
def partView : List Op :=
  [.learn 0 (nodeNo 0), .learn 0 (nodeNo 2), .learn 2 (nodeNo 2), .learn 2 (nodeNo 0), .learn 2 (nodeNo 1), .learn 1 (nodeNo 1),
    .ask 0 2 7, .look 0, .look 0]

example : Consistent addrLen nodeNo partView ∧ (run addrLen id partView).chains.map (·.path) = [[1, 2, 0]] :=
  ⟨consistent_of_check _ (by decide +kernel) (by decide +kernel), by decide +kernel⟩

example : (run addrLen id (partView ++ [.look 0, .back 0, .back 0, .back 0])).results = [(7, none)] := by decide +kernel

/-- `C105_found_partial` on a run with both ways of registering. -/
example : (7, some 0) ∈ (run addrLen id (joined ++ [.start 0 2, .arrive 0] ++ [.ask 0 2 7, .look 0, .look 0, .back 0, .back 0])).results := by
  decide +kernel

example : ∃ r, (7, r) ∈ (run addrLen id (joined ++ [.start 0 2, .arrive 0] ++ [.ask 0 2 7, .look 0, .look 0, .back 0, .back 0])).results ∧
    r = some 0 := by
  refine ⟨some 0, by decide +kernel, ?_⟩
  refine C105_found_partial (h := addrLen) (key := id) (D := nodeNo) (S := [0, 1]) joined [.start 0 2, .arrive 0]
    [.ask 0 2 7, .look 0, .look 0, .back 0, .back 0] (consistent_of_check _ (by decide +kernel) (by decide +kernel)) ?_ ?_ (by simp)
    (a := 2) (by simp) ?_ (by simp) (by decide +kernel) ?_ (c := 7) (by decide +kernel) ?_ (some 0) (by decide +kernel)
  · intro x hx n
    simp only [List.mem_cons, List.not_mem_nil, or_false] at hx
    simp only [joined, List.mem_cons, List.not_mem_nil, or_false, Op.learn.injEq]
    constructor
    · rcases hx with rfl | rfl <;> rintro (⟨h0, rfl⟩ | ⟨h0, rfl⟩ | ⟨h0, rfl⟩ | ⟨h0, rfl⟩) <;> simp [nodeNo_id] at h0 ⊢
    · rintro ⟨h1 | h1, h2⟩ <;> rw [h1] at h2 <;> subst h2 <;> rcases hx with rfl | rfl <;> simp
  · intro o ho
    simp at ho
    rcases ho with rfl | rfl | rfl | rfl | rfl <;> trivial
  · intro x hx
    simpa [joined] using hx
  · intro o ho
    simp at ho
    rcases ho with rfl | rfl | rfl <;> trivial
  · intro x b hx
    simp at hx
    simp [hx]

end Verif.Remote.Lookup
