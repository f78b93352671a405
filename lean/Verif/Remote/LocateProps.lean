import Verif.Remote.LocateModel

/-!
# C31, C59: finding actors in the cluster
-/

namespace Verif.Remote

theorem lrun_snoc (v : String → Option Nat) (ops : List LocOp) (op : LocOp) :
    Loc.run v (ops ++ [op]) = (Loc.run v ops).step op := by simp [Loc.run]

/-- the operation does not change the membership. -/
def LocOp.stable : LocOp → Bool
  | .view _ => false
  | _ => true

/-- the node on which the operation tries to start actor `a`. -/
def LocOp.startsOn (a : String) : LocOp → Option Nat
  | .start n b => if b = a then some n else none
  | .create n b => if b = a then some n else none
  | _ => none

/-- with a stable membership `v`: entries and messages are where they belong, and name nodes on which
the actor was started. -/
structure LWF (v : String → Option Nat) (ops : List LocOp) (σ : Loc) : Prop where
  view : σ.view = v
  reg : ∀ o a n, σ.reg.get (o, a) = some n → o = (v a).getD n ∧ ∃ op ∈ ops, op.startsOn a = some n
  fly : ∀ o a n, (o, a, n) ∈ σ.flying → o = (v a).getD n ∧ ∃ op ∈ ops, op.startsOn a = some n

theorem LWF.mono {v : String → Option Nat} {ops : List LocOp} {σ : Loc} (h : LWF v ops σ) (op : LocOp) :
    LWF v (ops ++ [op]) σ :=
  ⟨h.view,
   fun o a n hg => ⟨(h.reg o a n hg).1, by
     obtain ⟨x, hx, e⟩ := (h.reg o a n hg).2; exact ⟨x, by simp [hx], e⟩⟩,
   fun o a n hg => ⟨(h.fly o a n hg).1, by
     obtain ⟨x, hx, e⟩ := (h.fly o a n hg).2; exact ⟨x, by simp [hx], e⟩⟩⟩

theorem LWF.start {v : String → Option Nat} {ops : List LocOp} {σ : Loc} (h : LWF v ops σ) (n : Nat) (a : String)
    (hop : ∃ op ∈ ops, op.startsOn a = some n) : LWF v ops (σ.start n a) := by
  have hreg := h.reg
  have hfly := h.fly
  have hview := h.view
  have ho' : σ.owner n a = (v a).getD n := by unfold Loc.owner; rw [hview]
  show LWF v ops (if σ.owner n a = n then _ else _)
  rw [ho']
  by_cases ho : (v a).getD n = n
  · rw [if_pos ho]
    refine ⟨hview, ?_, hfly⟩
    intro o b m hg
    simp only [Assoc.get_insert, Prod.mk.injEq] at hg
    split at hg
    · rename_i he
      cases hg
      obtain ⟨rfl, rfl⟩ := he
      exact ⟨ho.symm, hop⟩
    · exact hreg o b m hg
  · rw [if_neg ho]
    refine ⟨hview, hreg, ?_⟩
    intro o b m hm
    simp only [List.mem_append, List.mem_singleton, Prod.mk.injEq] at hm
    rcases hm with hm | ⟨rfl, rfl, rfl⟩
    · exact hfly o b m hm
    · exact ⟨ho', hop⟩

theorem LWF.step {v : String → Option Nat} {ops : List LocOp} {σ : Loc} (h : LWF v ops σ) (op : LocOp)
    (hs : op.stable = true) : LWF v (ops ++ [op]) (σ.step op) := by
  have hm := h.mono op
  cases op with
  | start n a => exact hm.start n a ⟨.start n a, by simp, by simp [LocOp.startsOn]⟩
  | create n a =>
    simp only [Loc.step, Loc.create]
    split
    · exact hm
    · exact hm.start n a ⟨.create n a, by simp, by simp [LocOp.startsOn]⟩
  | deliver i =>
    simp only [Loc.step]
    rcases Option.eq_none_or_eq_some (σ.flying[i]?) with hi | ⟨⟨o, a, n⟩, hi⟩
    · simp only [hi]; exact hm
    · simp only [hi]
      have hmem := List.mem_of_getElem? hi
      refine ⟨hm.view, ?_, fun o' a' n' hx => hm.fly o' a' n' (List.mem_of_mem_eraseIdx hx)⟩
      intro o' b m hg
      simp only [Assoc.get_insert, Prod.mk.injEq] at hg
      split at hg
      · rename_i he
        cases hg
        obtain ⟨rfl, rfl⟩ := he
        exact hm.fly _ _ _ hmem
      · exact hm.reg o' b m hg
  | lose i => exact ⟨hm.view, hm.reg, fun o' a' n' hx => hm.fly o' a' n' (List.mem_of_mem_eraseIdx hx)⟩
  | stop n a => exact ⟨hm.view, hm.reg, hm.fly⟩
  | view w => simp [LocOp.stable] at hs

theorem LWF.run (v : String → Option Nat) (ops : List LocOp) (hs : ∀ op ∈ ops, op.stable = true) :
    LWF v ops (Loc.run v ops) := by
  induction ops using snoc_induction with
  | nil => exact ⟨rfl, by simp [Loc.run], by simp [Loc.run]⟩
  | snoc ops op ih =>
    rw [lrun_snoc]
    exact (ih (fun o ho => hs o (by simp [ho]))).step op (hs op (by simp))

theorem lookup_owner {v : String → Option Nat} {ops : List LocOp} {σ : Loc} (h : LWF v ops σ) (a : String)
    (o : Nat) (ho : v a = some o) (m : Nat) : σ.lookup m a = σ.reg.get (o, a) := by
  unfold Loc.lookup Loc.owner
  rw [h.view, ho]
  simp only [Option.getD_some]
  rcases Option.eq_none_or_eq_some (σ.reg.get (m, a)) with hg | ⟨x, hg⟩
  · simp only [hg]
    split
    · rename_i e; subst e; exact hg.symm
    · rfl
  · simp only [hg]
    have := (h.reg m a x hg).1
    rw [ho] at this
    simp only [Option.getD_some] at this
    rw [this] at hg
    exact hg.symm

/-- **C31.** While the membership does not change, all nodes find the same answer. -/
theorem C31_agree (v : String → Option Nat) (ops : List LocOp) (hs : ∀ op ∈ ops, op.stable = true)
    (a : String) (hv : v a ≠ none) (m m' : Nat) :
    (Loc.run v ops).lookup m a = (Loc.run v ops).lookup m' a := by
  obtain ⟨o, ho⟩ := Option.ne_none_iff_exists'.1 hv
  rw [lookup_owner (LWF.run v ops hs) a o ho, lookup_owner (LWF.run v ops hs) a o ho]

/-- **C31.** A node that is found is one on which the actor was started. -/
theorem C31_sound (v : String → Option Nat) (ops : List LocOp) (hs : ∀ op ∈ ops, op.stable = true)
    (a : String) (m n : Nat) (h : (Loc.run v ops).lookup m a = some n) :
    ∃ op ∈ ops, op.startsOn a = some n := by
  have hw := LWF.run v ops hs
  unfold Loc.lookup at h
  rcases Option.eq_none_or_eq_some ((Loc.run v ops).reg.get (m, a)) with hg | ⟨x, hg⟩
  · simp only [hg] at h
    split at h
    · cases h
    · exact (hw.reg _ _ _ h).2
  · simp only [hg] at h
    cases h
    exact (hw.reg _ _ _ hg).2

/-- no message is lost. -/
def LocOp.lossless : LocOp → Bool
  | .lose _ => false
  | _ => true

/-- **C31 (one home).** An actor only ever started on node `n` is found on `n`, from every node, once
the registration has arrived. -/
theorem C31_found_partial (v : String → Option Nat) (ops : List LocOp) (hs : ∀ op ∈ ops, op.stable = true)
    (hl : ∀ op ∈ ops, op.lossless = true) (a : String) (n : Nat) (hv : v a ≠ none)
    (honly : ∀ op ∈ ops, ∀ n', op.startsOn a = some n' → n' = n)
    (hstart : ∃ op ∈ ops, op.startsOn a = some n)
    (harr : ∀ o n', (o, a, n') ∉ (Loc.run v ops).flying) (m : Nat) :
    (Loc.run v ops).lookup m a = some n := by
  obtain ⟨o, ho⟩ := Option.ne_none_iff_exists'.1 hv
  rw [lookup_owner (LWF.run v ops hs) a o ho]
  suffices h : (∃ op ∈ ops, op.startsOn a = some n) →
      (Loc.run v ops).reg.get (o, a) = some n ∨ (o, a, n) ∈ (Loc.run v ops).flying by
    exact (h hstart).resolve_right (harr o n)
  clear hstart harr
  induction ops using snoc_induction with
  | nil => rintro ⟨op, h, _⟩; cases h
  | snoc ops op ih =>
    have ih := ih (fun x hx => hs x (by simp [hx])) (fun x hx => hl x (by simp [hx]))
      (fun x hx => honly x (by simp [hx]))
    have hw := LWF.run v ops (fun x hx => hs x (by simp [hx]))
    have hw' := LWF.run v (ops ++ [op]) hs
    have hop1 := hl op (by simp)
    have hon := honly op (by simp)
    rw [lrun_snoc] at hw' ⊢
    have hall : ∀ x, ((Loc.run v ops).step op).reg.get (o, a) = some x → x = n := by
      intro x hx
      obtain ⟨op', h1, h2⟩ := (hw'.reg o a x hx).2
      exact honly op' h1 x h2
    generalize Loc.run v ops = σ at *
    -- starting
    have hst : ∀ n', op.startsOn a = some n' → ∀ τ : Loc, τ = σ.start n' a →
        (τ.reg.get (o, a) = some n ∨ (o, a, n) ∈ τ.flying) := by
      intro n' hn' τ hτ
      have := hon n' hn'
      subst this
      subst hτ
      have ho' : ({ σ with running := (n', a) :: σ.running } : Loc).owner n' a = o := by
        unfold Loc.owner; rw [hw.view, ho]; rfl
      simp only [Loc.start, Loc.register]
      rw [ho']
      split
      · rename_i e; subst e; left; simp [Assoc.get_insert]
      · right; simp
    have hkeepStart : ∀ n' b, b ≠ a → (σ.reg.get (o, a) = some n ∨ (o, a, n) ∈ σ.flying) →
        ((σ.start n' b).reg.get (o, a) = some n ∨ (o, a, n) ∈ (σ.start n' b).flying) := by
      intro n' b hb hh
      simp only [Loc.start, Loc.register]
      split
      · simp only [Assoc.get_insert, Prod.mk.injEq, Ne.symm hb, and_false, if_false]; exact hh
      · rcases hh with hh | hh
        · exact .inl hh
        · exact .inr (by simp [hh])
    rintro ⟨op', hop', hst'⟩
    have hprev : op'.startsOn a = some n → op' ∈ ops → σ.reg.get (o, a) = some n ∨ (o, a, n) ∈ σ.flying :=
      fun h1 h2 => ih ⟨op', h2, h1⟩
    simp only [List.mem_append, List.mem_singleton] at hop'
    cases op with
    | start n' b =>
      by_cases hb : b = a
      · subst hb
        exact hst n' (by simp [LocOp.startsOn]) _ rfl
      · rcases hop' with hop' | rfl
        · exact hkeepStart n' b hb (hprev hst' hop')
        · simp [LocOp.startsOn, hb] at hst'
    | create n' b =>
      simp only [Loc.step, Loc.create]
      by_cases hb : b = a
      · subst hb
        split
        · rename_i hsome
          rw [lookup_owner hw b o ho] at hsome
          obtain ⟨x, hx⟩ := Option.isSome_iff_exists.1 hsome
          left
          have := hall x (by simp only [Loc.step, Loc.create, lookup_owner hw b o ho, hsome, if_true]; exact hx)
          rw [hx, this]
        · exact hst n' (by simp [LocOp.startsOn]) _ rfl
      · rcases hop' with hop' | rfl
        · split
          · exact hprev hst' hop'
          · exact hkeepStart n' b hb (hprev hst' hop')
        · simp [LocOp.startsOn, hb] at hst'
    | deliver i =>
      rcases hop' with hop' | rfl
      · have hp := hprev hst' hop'
        simp only [Loc.step] at hall ⊢
        rcases Option.eq_none_or_eq_some (σ.flying[i]?) with hi | ⟨⟨o', b, n'⟩, hi⟩
        · simp only [hi]; exact hp
        · simp only [hi] at hall ⊢
          by_cases he : (o, a) = (o', b)
          · left
            have := hall n' (by simp [Assoc.get_insert, he])
            subst this
            simp [Assoc.get_insert, he]
          · simp only [Assoc.get_insert, he, if_false]
            rcases hp with hp | hp
            · exact .inl hp
            · right
              obtain ⟨hlt, hge⟩ := List.getElem?_eq_some_iff.1 hi
              rw [List.mem_eraseIdx_iff_getElem?]
              obtain ⟨j, hj⟩ := List.getElem?_of_mem hp
              refine ⟨j, ?_, hj⟩
              rintro rfl
              rw [hi] at hj
              cases hj
              exact he rfl
      · simp [LocOp.startsOn] at hst'
    | lose i => simp [LocOp.lossless] at hop1
    | stop n' b =>
      rcases hop' with hop' | rfl
      · exact hprev hst' hop'
      · simp [LocOp.startsOn] at hst'
    | view w =>
      have := hs (.view w) (by simp)
      simp [LocOp.stable] at this

/-- **C31 refuted (gone).** Stopping an actor changes no lookup: the stale node is answered until
something is registered over it. -/
theorem C31_stale_refuted (v : String → Option Nat) (ops : List LocOp) (n m : Nat) (a b : String) :
    (Loc.run v (ops ++ [.stop n a])).lookup m b = (Loc.run v ops).lookup m b := by
  rw [lrun_snoc]; rfl

/-- **C31 refuted (gone, instance).** Nothing runs, and node 2 is answered. -/
theorem C31_stale_instance_refuted :
    let σ := Loc.run (fun _ => some 1) [.start 2 "x", .deliver 0, .stop 2 "x"]
    σ.running = [] ∧ σ.lookup 3 "x" = some 2 := by decide

/-- **C31 refuted (membership changes).** When another node becomes responsible for the id, a running
actor is no longer found: nothing is registered again. -/
theorem C31_view_refuted :
    let σ := Loc.run (fun _ => some 1) [.start 2 "x", .deliver 0, .view (fun _ => some 3)]
    σ.running = [(2, "x")] ∧ σ.lookup 2 "x" = none ∧ σ.lookup 3 "x" = none := by decide

/-- **C31 refuted (moved).** An actor stopped on node 2 and started on node 3 may be found on node 2 for
ever, as the registrations are sent by tasks of their own and may arrive in the wrong order. -/
theorem C31_order_refuted :
    let σ := Loc.run (fun _ => some 1) [.start 2 "x", .stop 2 "x", .start 3 "x", .deliver 1, .deliver 0]
    σ.running = [(3, "x")] ∧ σ.flying = [] ∧ σ.lookup 4 "x" = some 2 := by decide

/-! ### Deploying -/

/-- **C59.** An id that is found is refused. -/
theorem C59_refused (σ : Loc) (n m : Nat) (a : String) (h : σ.lookup n a = some m) :
    σ.create n a = (σ, false) := by
  simp [Loc.create, h]

/-- **C59.** The answer says truthfully what was done: acceptance means that the id was not found and now runs
on the node, refusal that nothing was done. -/
theorem C59_answer (σ : Loc) (n : Nat) (a : String) :
    ((σ.create n a).2 = true ↔ σ.lookup n a = none) ∧
    ((σ.create n a).2 = true → (σ.create n a).1.running = (n, a) :: σ.running) ∧
    ((σ.create n a).2 = false → (σ.create n a).1 = σ) := by
  unfold Loc.create
  cases h : σ.lookup n a with
  | none =>
    have hr : ((({ σ with running := (n, a) :: σ.running } : Loc)).register n a).running = (n, a) :: σ.running := by
      unfold Loc.register
      split <;> (try split) <;> rfl
    simp [Loc.start, hr]
  | some m => simp

/-- **C59.** An actor whose registration has arrived, and which was only started on `n`, is refused
everywhere. -/
theorem C59_refused_everywhere_partial (v : String → Option Nat) (ops : List LocOp)
    (hs : ∀ op ∈ ops, op.stable = true) (hl : ∀ op ∈ ops, op.lossless = true) (a : String) (n : Nat)
    (hv : v a ≠ none) (honly : ∀ op ∈ ops, ∀ n', op.startsOn a = some n' → n' = n)
    (hstart : ∃ op ∈ ops, op.startsOn a = some n)
    (harr : ∀ o n', (o, a, n') ∉ (Loc.run v ops).flying) (m : Nat) :
    (Loc.run v ops).create m a = (Loc.run v ops, false) :=
  C59_refused _ m n a (C31_found_partial v ops hs hl a n hv honly hstart harr m)

/-- **C59 refuted (race).** Deployments of one id on two nodes both succeed while the registration is
under way: the id runs twice. -/
theorem C59_race_refuted :
    let σ := Loc.run (fun _ => some 1) [.create 2 "x", .create 3 "x", .deliver 0, .deliver 0]
    σ.running = [(3, "x"), (2, "x")] := by decide

/-- **C59 refuted (unanswered).** A lookup that is not answered in time counts as not found. -/
theorem C59_unanswered_refuted :
    let σ := Loc.run (fun _ => some 1) [.create 2 "x", .deliver 0]
    σ.lookup 3 "x" = some 2 ∧ σ.lookupUnanswered 3 "x" = none := by decide

/-- **C59 refuted (redeploying).** An actor that has stopped cannot be deployed again, on any node: its
id stays refused as long as nobody registers it some other way. -/
theorem C59_redeploy_refuted (v : String → Option Nat) (ops : List LocOp) (n m : Nat) (a : String)
    (h : (Loc.run v ops).lookup m a = some n) :
    ((Loc.run v (ops ++ [.stop n a])).create m a).2 = false := by
  have := C31_stale_refuted v ops n m a a
  rw [h] at this
  rw [C59_refused _ m n a this]

/-! Concrete cases. -/
example : let ops := [LocOp.start 2 "x", .start 5 "y", .deliver 1, .deliver 0]
    (∀ op ∈ ops, op.stable = true) ∧ (∀ op ∈ ops, op.lossless = true) ∧
    (Loc.run (fun _ => some 1) ops).flying = [] ∧
    (Loc.run (fun _ => some 1) ops).lookup 7 "x" = some 2 := by decide

end Verif.Remote
