import Verif.Chat.SocketModel
import Verif.Proto.ChatLemmas

/-!
# C88: a stream attached to an actor is heard in order, and ends the actor when it ends
-/

namespace Verif.Chat
open Verif.Proto

section
variable {R M : Type}

/-! ## Specification -/

/-- the message an item is converted to, if any. -/
def Conv.value : Conv M → Option M
  | .msg m => some m
  | _ => none

/-- the operation ends the reading of the stream. -/
def AttOp.last (conv : R → Conv M) : AttOp R → Prop
  | .next r => conv r = .panic
  | .err => True
  | .end_ => True
  | _ => False

/-- the messages of the items the stream yields until it ends, fails or has an item whose conversion panics. -/
def heard (conv : R → Conv M) : List (AttOp R) → List M
  | [] => []
  | .next r :: ops =>
    match conv r with
    | .panic => []
    | .skip => heard conv ops
    | .msg m => m :: heard conv ops
  | .err :: _ => []
  | .end_ :: _ => []
  | _ :: ops => heard conv ops

/-- the items of a mailbox. -/
def Mail.value : Mail M → Option M
  | .item m => some m
  | .stop => none

/-! ## Lemmas -/

theorem att_snoc (conv : R → Conv M) (cl : M → Bool) (b : Bool) (σ : Att M) (ops : List (AttOp R)) (op : AttOp R) :
    σ.run conv cl b (ops ++ [op]) = (σ.run conv cl b ops).step conv cl b op := by simp [Att.run]

theorem att_append (conv : R → Conv M) (cl : M → Bool) (b : Bool) (σ : Att M) (x y : List (AttOp R)) :
    σ.run conv cl b (x ++ y) = (σ.run conv cl b x).run conv cl b y := by simp [Att.run]

/-- the reading goes on exactly as long as nothing has ended it. -/
theorem running_iff (conv : R → Conv M) (cl : M → Bool) (b : Bool) (ops : List (AttOp R)) :
    (Att.run conv cl b {} ops).task = .running ↔ ∀ op ∈ ops, ¬ op.last conv := by
  induction ops using snoc_induction with
  | nil => simp [Att.run]
  | snoc l x ih =>
    rw [att_snoc]
    generalize Att.run conv cl b {} l = σ at *
    have key : (σ.step conv cl b x).task = .running ↔ σ.task = .running ∧ ¬ x.last conv := by
      cases x with
      | next r =>
        simp only [Att.step, AttOp.last]
        cases ht : σ.task <;> simp [ht]
        cases hc : conv r <;> simp [Att.next, Att.post, ht]
        split <;> simp [ht]
      | err =>
        simp only [Att.step, AttOp.last]
        cases ht : σ.task <;> simp [ht]
        simp only [Att.finish, Att.post]
        split
        · split <;> simp
        · simp
      | end_ =>
        simp only [Att.step, AttOp.last]
        cases ht : σ.task <;> simp [ht]
        simp only [Att.finish, Att.post]
        split
        · split <;> simp
        · simp
      | handle =>
        simp only [Att.step, Att.handle, AttOp.last]
        split
        · split <;> simp
        · simp
      | crash => simp [Att.step, AttOp.last]
    rw [key, ih]
    simp only [List.mem_append, List.mem_singleton]
    constructor
    · rintro ⟨h1, h2⟩ op (h | rfl)
      · exact h1 op h
      · exact h2
    · intro h
      exact ⟨fun op ho => h op (Or.inl ho), h x (Or.inr rfl)⟩

theorem heard_snoc (conv : R → Conv M) (ops : List (AttOp R)) (op : AttOp R) :
    ((∃ o ∈ ops, o.last conv) → heard conv (ops ++ [op]) = heard conv ops) ∧
    ((∀ o ∈ ops, ¬ o.last conv) → heard conv (ops ++ [op]) = heard conv ops ++
      match op with
      | .next r => (conv r).value.toList
      | _ => []) := by
  induction ops with
  | nil =>
    refine ⟨fun ⟨o, ho, _⟩ => absurd ho (by simp), fun _ => ?_⟩
    cases op with
    | next r => simp only [List.nil_append, heard]; cases conv r <;> rfl
    | _ => rfl
  | cons x xs ih =>
    have hrec : (¬ x.last conv) → ((∃ o ∈ x :: xs, o.last conv) → ∃ o ∈ xs, o.last conv) := by
      rintro hx ⟨o, ho, hl⟩
      rcases List.mem_cons.1 ho with rfl | ho
      · exact absurd hl hx
      · exact ⟨o, ho, hl⟩
    cases x with
    | next r =>
      simp only [List.cons_append, heard]
      cases hc : conv r with
      | panic =>
        refine ⟨fun _ => rfl, fun h => absurd hc (h (.next r) (by simp))⟩
      | skip =>
        refine ⟨fun h => ih.1 (hrec (by simp [AttOp.last, hc]) h), fun h => ih.2 fun o ho => h o (by simp [ho])⟩
      | msg m =>
        simp only [List.cons_append, List.cons.injEq, true_and]
        refine ⟨fun h => ih.1 (hrec (by simp [AttOp.last, hc]) h), fun h => ih.2 fun o ho => h o (by simp [ho])⟩
    | err => exact ⟨fun _ => rfl, fun h => absurd trivial (h .err (by simp))⟩
    | end_ => exact ⟨fun _ => rfl, fun h => absurd trivial (h .end_ (by simp))⟩
    | handle =>
      simp only [List.cons_append, heard]
      exact ⟨fun h => ih.1 (hrec (by simp [AttOp.last]) h), fun h => ih.2 fun o ho => h o (by simp [ho])⟩
    | crash =>
      simp only [List.cons_append, heard]
      exact ⟨fun h => ih.1 (hrec (by simp [AttOp.last]) h), fun h => ih.2 fun o ho => h o (by simp [ho])⟩

theorem heard_quiet (conv : R → Conv M) (ops : List (AttOp R)) (op : AttOp R)
    (h : ∀ r, op ≠ .next r) : heard conv (ops ++ [op]) = heard conv ops := by
  by_cases hl : ∃ o ∈ ops, o.last conv
  · exact (heard_snoc conv ops op).1 hl
  · have hl' : ∀ o ∈ ops, ¬ o.last conv := fun o ho hlo => hl ⟨o, ho, hlo⟩
    rw [(heard_snoc conv ops op).2 hl']
    cases op with
    | next r => exact absurd rfl (h r)
    | _ => simp

/-- a living actor has the messages heard in its mailbox or has handled them; and nothing is dropped but at its end. -/
theorem heard_inv (conv : R → Conv M) (cl : M → Bool) (b : Bool) (ops : List (AttOp R)) :
    ∃ rest, heard conv ops = (Att.run conv cl b {} ops).handled ++ rest ∧
      ((Att.run conv cl b {} ops).alive = true → rest = (Att.run conv cl b {} ops).mailbox.filterMap Mail.value) ∧
      ((Att.run conv cl b {} ops).alive = false → (Att.run conv cl b {} ops).mailbox = []) := by
  induction ops using snoc_induction with
  | nil => exact ⟨[], rfl, fun _ => rfl, fun _ => rfl⟩
  | snoc l x ih =>
    obtain ⟨rest, h1, h2, h3⟩ := ih
    have hrun := running_iff conv cl b l
    rw [att_snoc]
    generalize Att.run conv cl b {} l = σ at *
    cases x with
    | next r =>
      by_cases ht : σ.task = .running
      · simp only [Att.step]
        rw [ht]
        rw [(heard_snoc conv l (.next r)).2 (hrun.1 ht)]
        simp only []
        cases hc : conv r with
        | skip => exact ⟨rest, by simp [h1, Conv.value, Att.next], h2, h3⟩
        | panic => exact ⟨rest, by simp [h1, Conv.value, Att.next], h2, h3⟩
        | msg m =>
          simp only [Att.next, Att.post, Conv.value, Option.toList]
          cases ha : σ.alive with
          | true =>
            rw [if_pos rfl]
            refine ⟨rest ++ [m], by simp [h1], fun _ => by simp [h2 ha, Mail.value], fun h => ?_⟩
            cases h
          | false =>
            rw [if_neg (by simp)]
            refine ⟨rest ++ [m], by simp [h1], fun h => ?_, h3⟩
            rw [ha] at h; cases h
      · have hl : ∃ o ∈ l, o.last conv := by
          apply Classical.byContradiction
          intro hn
          exact ht (hrun.2 fun o ho hlo => hn ⟨o, ho, hlo⟩)
        rw [(heard_snoc conv l (.next r)).1 hl]
        have : σ.step conv cl b (.next r) = σ := by
          cases h : σ.task <;> simp_all [Att.step]
        rw [this]
        exact ⟨rest, h1, h2, h3⟩
    | err =>
      rw [heard_quiet conv l .err (by intro r h; cases h)]
      refine ⟨rest, ?_, ?_, ?_⟩ <;> simp only [Att.step, Att.finish, Att.post]
      · rw [h1]; cases σ.task <;> cases b <;> cases σ.alive <;> rfl
      · cases ht : σ.task <;> cases b <;> cases ha : σ.alive <;> simp_all [Mail.value]
      · cases ht : σ.task <;> cases b <;> cases ha : σ.alive <;> simp_all
    | end_ =>
      rw [heard_quiet conv l .end_ (by intro r h; cases h)]
      refine ⟨rest, ?_, ?_, ?_⟩ <;> simp only [Att.step, Att.finish, Att.post]
      · rw [h1]; cases σ.task <;> cases b <;> cases σ.alive <;> rfl
      · cases ht : σ.task <;> cases b <;> cases ha : σ.alive <;> simp_all [Mail.value]
      · cases ht : σ.task <;> cases b <;> cases ha : σ.alive <;> simp_all
    | handle =>
      rw [heard_quiet conv l .handle (by intro r h; cases h)]
      simp only [Att.step, Att.handle]
      cases ha : σ.alive with
      | false => rw [if_neg (by simp)]; exact ⟨rest, h1, by simp [ha], h3⟩
      | true =>
        rw [if_pos rfl]
        cases hq : σ.mailbox with
        | nil => simp only []; exact ⟨rest, h1, h2, h3⟩
        | cons y q =>
          cases y with
          | stop => exact ⟨rest, h1, by simp, by simp⟩
          | item m =>
            have hr := h2 ha
            rw [hq] at hr
            simp only [List.filterMap_cons, Mail.value] at hr
            refine ⟨q.filterMap Mail.value, by simp [h1, hr], fun _ => ?_, fun h => ?_⟩
            · simp only []
              split
              · simp [Mail.value]
              · rfl
            · cases h
    | crash =>
      rw [heard_quiet conv l .crash (by intro r h; cases h)]
      exact ⟨rest, h1, by simp [Att.step], by simp [Att.step]⟩

/-! ## Properties -/

/-- **C88.** What the actor has handled are the first of the messages the stream has yielded, in order and each once; and
as long as it lives the others are waiting in its mailbox, in order. -/
theorem C88_in_order (conv : R → Conv M) (cl : M → Bool) (b : Bool) (ops : List (AttOp R)) :
    (Att.run conv cl b {} ops).handled <+: heard conv ops ∧
    ((Att.run conv cl b {} ops).alive = true →
      (Att.run conv cl b {} ops).handled ++ (Att.run conv cl b {} ops).mailbox.filterMap Mail.value = heard conv ops) := by
  obtain ⟨rest, h1, h2, -⟩ := heard_inv conv cl b ops
  exact ⟨⟨rest, h1.symm⟩, fun ha => by rw [h1, h2 ha]⟩

/-- a stop that is in the mailbox is never lost while the actor lives. -/
theorem stop_stays (conv : R → Conv M) (cl : M → Bool) (b : Bool) (σ : Att M) (op : AttOp R) (h : .stop ∈ σ.mailbox)
    (ha : (σ.step conv cl b op).alive = true) : .stop ∈ (σ.step conv cl b op).mailbox := by
  cases op with
  | next r =>
    simp only [Att.step]
    cases ht : σ.task <;> simp only []
    · cases conv r <;> simp only [Att.next, Att.post]
      · exact h
      · split
        · simp [h]
        · exact h
      · exact h
    · exact h
    · exact h
  | err =>
    simp only [Att.step]
    cases ht : σ.task <;> simp only []
    · simp only [Att.finish, Att.post]
      split
      · split
        · simp
        · exact h
      · exact h
    · exact h
    · exact h
  | end_ =>
    simp only [Att.step]
    cases ht : σ.task <;> simp only []
    · simp only [Att.finish, Att.post]
      split
      · split
        · simp
        · exact h
      · exact h
    · exact h
    · exact h
  | handle =>
    revert ha
    simp only [Att.step, Att.handle]
    cases hal : σ.alive with
    | false => intro ha; rw [if_neg (by simp)] at ha; rw [hal] at ha; cases ha
    | true =>
      rw [if_pos rfl]
      cases hq : σ.mailbox with
      | nil => rw [hq] at h; cases h
      | cons y q =>
        cases y with
        | stop => intro ha; cases ha
        | item m =>
          intro _
          rw [hq] at h
          have : Mail.stop ∈ q := by simpa using h
          simp only []
          split
          · simp
          · exact this
  | crash => cases ha

/-- **C88.** An actor whose stream has ended, or failed, and that has handled all its messages has ended, if it was
attached to end with its stream. -/
theorem C88_ends (conv : R → Conv M) (cl : M → Bool) (ops : List (AttOp R))
    (ht : (Att.run conv cl true {} ops).task = .ended) :
    ((Att.run conv cl true {} ops).alive = true → .stop ∈ (Att.run conv cl true {} ops).mailbox) ∧
    ((Att.run conv cl true {} ops).mailbox = [] → (Att.run conv cl true {} ops).alive = false) := by
  have key : (Att.run conv cl true {} ops).task = .ended → (Att.run conv cl true {} ops).alive = true →
      .stop ∈ (Att.run conv cl true {} ops).mailbox := by
    clear ht
    induction ops using snoc_induction with
    | nil => intro h; cases h
    | snoc l x ih =>
      rw [att_snoc]
      generalize Att.run conv cl true {} l = σ at *
      intro ht ha
      by_cases hte : σ.task = .ended
      · have hal : σ.alive = true := by
          cases x with
          | next r => simp only [Att.step, hte] at ha; exact ha
          | err => simp only [Att.step, hte] at ha; exact ha
          | end_ => simp only [Att.step, hte] at ha; exact ha
          | handle =>
            simp only [Att.step, Att.handle] at ha
            cases hal : σ.alive with
            | true => rfl
            | false => rw [hal, if_neg (by simp)] at ha; rw [hal] at ha; cases ha
          | crash => cases ha
        exact stop_stays conv cl true σ x (ih hte hal) ha
      · have hidle : σ.task ≠ .running → ∀ y : AttOp R, (∃ r, y = .next r) ∨ y = .err ∨ y = .end_ → σ.step conv cl true y = σ := by
          intro hn y hy
          rcases hy with ⟨r, rfl⟩ | rfl | rfl <;> simp only [Att.step] <;> cases h : σ.task <;> simp_all
        have hfin : (x = .err ∨ x = .end_) ∧ σ.task = .running := by
          cases x with
          | next r =>
            by_cases h : σ.task = .running
            · simp only [Att.step, h] at ht
              cases hc : conv r <;> simp only [hc, Att.next, Att.post] at ht
              · rw [h] at ht; cases ht
              · split at ht <;> rw [h] at ht <;> cases ht
              · cases ht
            · rw [hidle h _ (Or.inl ⟨r, rfl⟩)] at ht; exact absurd ht hte
          | err =>
            refine ⟨Or.inl rfl, ?_⟩
            apply Classical.byContradiction
            intro h
            rw [hidle h _ (Or.inr (Or.inl rfl))] at ht; exact absurd ht hte
          | end_ =>
            refine ⟨Or.inr rfl, ?_⟩
            apply Classical.byContradiction
            intro h
            rw [hidle h _ (Or.inr (Or.inr rfl))] at ht; exact absurd ht hte
          | handle =>
            simp only [Att.step, Att.handle] at ht
            split at ht
            · split at ht <;> exact absurd ht hte
            · exact absurd ht hte
          | crash => exact absurd ht hte
        obtain ⟨hx, hr⟩ := hfin
        have hs : σ.step conv cl true x = σ.finish true := by
          rcases hx with rfl | rfl <;> simp [Att.step, hr]
        rw [hs] at ha ⊢
        simp only [Att.finish, Att.post, if_true] at ha ⊢
        cases hal : σ.alive with
        | true => simp
        | false => rw [hal] at ha; simp at ha
  refine ⟨key ht, fun hm => ?_⟩
  cases ha : (Att.run conv cl true {} ops).alive with
  | false => rfl
  | true => have := key ht ha; rw [hm] at this; cases this

/-- **C88.** With a stop in its mailbox the actor ends after at most as many messages as are in front of it. -/
theorem C88_ends_soon (conv : R → Conv M) (cl : M → Bool) (b : Bool) (σ : Att M) (h : .stop ∈ σ.mailbox) :
    (σ.run conv cl b (List.replicate σ.mailbox.length .handle)).alive = false := by
  have hdead : ∀ (n : Nat) (τ : Att M), τ.alive = false → (τ.run conv cl b (List.replicate n .handle)).alive = false := by
    intro n
    induction n with
    | zero => intro τ h; exact h
    | succ n ih =>
      intro τ hτ
      have : τ.run conv cl b (List.replicate (n + 1) .handle) = τ.run conv cl b (List.replicate n .handle) := by
        simp [Att.run, List.replicate_succ, Att.step, Att.handle, hτ]
      rw [this]; exact ih τ hτ
  suffices ∀ (n : Nat) (pre post : List (Mail M)) (τ : Att M), τ.mailbox = pre ++ .stop :: post → pre.length < n →
      (τ.run conv cl b (List.replicate n .handle)).alive = false by
    obtain ⟨pre, post, hp⟩ := List.append_of_mem h
    exact this _ pre post σ hp (by rw [hp]; simp)
  intro n
  induction n with
  | zero => intro pre post τ _ h; omega
  | succ n ih =>
    intro pre post τ hτ hn
    have hr : τ.run conv cl b (List.replicate (n + 1) .handle) = (τ.handle cl).run conv cl b (List.replicate n .handle) := by
      simp [Att.run, List.replicate_succ, Att.step]
    rw [hr]
    cases ha : τ.alive with
    | false =>
      have : τ.handle cl = τ := by simp [Att.handle, ha]
      rw [this]; exact hdead n τ ha
    | true =>
      cases pre with
      | nil =>
        apply hdead
        simp [Att.handle, ha, hτ]
      | cons y pre =>
        cases y with
        | stop =>
          apply hdead
          simp [Att.handle, ha, hτ]
        | item m =>
          have hh : τ.handle cl = { τ with handled := τ.handled ++ [m]
                                           mailbox := if cl m then pre ++ .stop :: post ++ [.stop] else pre ++ .stop :: post } := by
            simp [Att.handle, ha, hτ]
          rw [hh]
          by_cases hc : cl m = true
          · refine ih pre (post ++ [.stop]) _ ?_ (by simp at hn; omega)
            simp [hc]
          · refine ih pre post _ ?_ (by simp at hn; omega)
            simp [hc]

/-- **C88.** Nothing else ends the actor: as long as its stream has neither ended nor failed, no message of it asks to
close, and the actor does not end for reasons of its own, it lives. -/
theorem C88_only_then (conv : R → Conv M) (cl : M → Bool) (b : Bool) (ops : List (AttOp R)) (hc : .crash ∉ ops)
    (hcl : ∀ m ∈ heard conv ops, cl m = false) (ht : b = false ∨ (Att.run conv cl b {} ops).task ≠ .ended) :
    (Att.run conv cl b {} ops).alive = true := by
  have key : ∀ ops : List (AttOp R), .crash ∉ ops → (∀ m ∈ heard conv ops, cl m = false) →
      (b = false ∨ (Att.run conv cl b {} ops).task ≠ .ended) →
      (Att.run conv cl b {} ops).alive = true ∧ .stop ∉ (Att.run conv cl b {} ops).mailbox := by
    intro ops
    induction ops using snoc_induction with
    | nil => intro _ _ _; exact ⟨rfl, by simp [Att.run]⟩
    | snoc l x ih =>
      intro hc hcl ht
      have hpre : ∀ m ∈ heard conv l, cl m = false := by
        intro m hm
        by_cases hl : ∃ o ∈ l, o.last conv
        · exact hcl m (by rw [(heard_snoc conv l x).1 hl]; exact hm)
        · exact hcl m (by rw [(heard_snoc conv l x).2 fun o ho hlo => hl ⟨o, ho, hlo⟩]; simp [hm])
      have hheard := (C88_in_order conv cl b l)
      rw [att_snoc] at ht ⊢
      have ih' := ih (fun h => hc (by simp [h])) hpre
      generalize Att.run conv cl b {} l = σ at *
      have ht' : b = false ∨ σ.task ≠ .ended := by
        rcases ht with h | h
        · exact Or.inl h
        · right
          intro hte
          apply h
          cases x with
          | next r => simp [Att.step, hte]
          | err => simp [Att.step, hte]
          | end_ => simp [Att.step, hte]
          | handle =>
            simp only [Att.step, Att.handle]
            split
            · split <;> exact hte
            · exact hte
          | crash => exact hte
      obtain ⟨ha, hs⟩ := ih' ht'
      cases x with
      | next r =>
        simp only [Att.step]
        cases htk : σ.task <;> simp only []
        · cases conv r <;> simp only [Att.next, Att.post, ha, if_true]
          · exact ⟨trivial, hs⟩
          · exact ⟨trivial, by simp [hs]⟩
          · exact ⟨trivial, hs⟩
        · exact ⟨ha, hs⟩
        · exact ⟨ha, hs⟩
      | err =>
        simp only [Att.step] at ht ⊢
        cases htk : σ.task <;> simp only [htk] at ht ⊢
        · rcases ht with h | h
          · subst h; simp [Att.finish, ha, hs]
          · exfalso; apply h; cases b <;> simp [Att.finish, Att.post, ha]
        · exact ⟨ha, hs⟩
        · exact ⟨ha, hs⟩
      | end_ =>
        simp only [Att.step] at ht ⊢
        cases htk : σ.task <;> simp only [htk] at ht ⊢
        · rcases ht with h | h
          · subst h; simp [Att.finish, ha, hs]
          · exfalso; apply h; cases b <;> simp [Att.finish, Att.post, ha]
        · exact ⟨ha, hs⟩
        · exact ⟨ha, hs⟩
      | handle =>
        simp only [Att.step, Att.handle, ha, if_true]
        cases hq : σ.mailbox with
        | nil => exact ⟨ha, by simp [hq]⟩
        | cons y q =>
          cases y with
          | stop => rw [hq] at hs; exact absurd (by simp) hs
          | item m =>
            have hm : cl m = false := by
              apply hpre
              rw [← hheard.2 ha, hq]
              simp [Mail.value]
            rw [hq] at hs
            simp only [hm]
            exact ⟨trivial, by simpa using hs⟩
      | crash => exact absurd (by simp) hc
  exact (key ops hc hcl ht).1

/-- Refuted: an actor ends with its stream. If the conversion of an item panics, the actor hears nothing more and lives on
for ever, whatever becomes of the stream. -/
theorem C88_panic_refuted (conv : R → Conv M) (cl : M → Bool) (b : Bool) (pre post : List (AttOp R)) (r : R)
    (hpre : ∀ op ∈ pre, ¬ op.last conv) (hr : conv r = .panic) (hc : .crash ∉ pre ++ .next r :: post)
    (hcl : ∀ m ∈ heard conv pre, cl m = false) :
    (Att.run conv cl b {} (pre ++ .next r :: post)).alive = true ∧
    heard conv (pre ++ .next r :: post) = heard conv pre := by
  have hheard : heard conv (pre ++ .next r :: post) = heard conv pre := by
    clear hc hcl
    induction pre with
    | nil => simp [heard, hr]
    | cons x xs ih =>
      have ih := ih fun op h => hpre op (by simp [h])
      have hx := hpre x (by simp)
      cases x with
      | next q =>
        simp only [List.cons_append, heard]
        cases hq : conv q with
        | panic => exact absurd hq hx
        | skip => exact ih
        | msg m => simp only [ih]
      | err => exact absurd trivial hx
      | end_ => exact absurd trivial hx
      | handle => exact ih
      | crash => exact ih
  refine ⟨?_, hheard⟩
  apply C88_only_then conv cl b _ hc (by rw [hheard]; exact hcl)
  right
  -- the task has panicked and stays so
  have hstay : ∀ (ops : List (AttOp R)) (σ : Att M), σ.task = .panicked → (σ.run conv cl b ops).task = .panicked := by
    intro ops
    induction ops using snoc_induction with
    | nil => intro σ h; exact h
    | snoc l x ih =>
      intro σ h
      rw [att_snoc]
      have := ih σ h
      generalize σ.run conv cl b l = τ at *
      cases x with
      | next r => simp [Att.step, this]
      | err => simp [Att.step, this]
      | end_ => simp [Att.step, this]
      | handle =>
        simp only [Att.step, Att.handle]
        split
        · split <;> exact this
        · exact this
      | crash => exact this
  rw [att_append]
  have h1 := (running_iff conv cl b pre).2 hpre
  generalize Att.run conv cl b {} pre = σ at *
  have h2 : (σ.run conv cl b (.next r :: post)) = ({ σ with task := .panicked } : Att M).run conv cl b post := by
    simp [Att.run, Att.step, h1, hr, Att.next]
  rw [h2, hstay _ _ rfl]
  intro h; cases h

/-- Refuted: the stream is let go when its actor has ended. The task goes on reading, for no one. -/
theorem C88_left_open_refuted (conv : R → Conv M) (cl : M → Bool) (b : Bool) (ops : List (AttOp R))
    (h : ∀ op ∈ ops, ¬ op.last conv) : (Att.run conv cl b {} (.crash :: ops)).task = .running ∧
      (Att.run conv cl b {} (.crash :: ops)).alive = false := by
  refine ⟨(running_iff conv cl b _).2 ?_, ?_⟩
  · intro op ho
    rcases List.mem_cons.1 ho with rfl | ho
    · exact fun h => h
    · exact h op ho
  · clear h
    induction ops using snoc_induction with
    | nil => rfl
    | snoc l x ih =>
      rw [← List.cons_append, att_snoc]
      generalize Att.run conv cl b {} (.crash :: l) = σ at *
      cases x with
      | next r =>
        simp only [Att.step]
        cases σ.task <;> simp only []
        · cases conv r <;> simp [Att.next, Att.post, ih]
        · exact ih
        · exact ih
      | err =>
        simp only [Att.step]
        cases σ.task <;> simp only []
        · cases b <;> simp [Att.finish, Att.post, ih]
        · exact ih
        · exact ih
      | end_ =>
        simp only [Att.step]
        cases σ.task <;> simp only []
        · cases b <;> simp [Att.finish, Att.post, ih]
        · exact ih
        · exact ih
      | handle => simp [Att.step, Att.handle, ih]
      | crash => rfl

end

/-! ## The peer of the chat example -/

/-- the bytes of a frame, if it has any. -/
def Frame.bytes : Frame → Option Bytes
  | .text b => some b
  | .binary b => some b
  | _ => none

/-- **C88.** What a client sends is what its peer hears. -/
theorem C88_client_frames (e : PeerEvent) (hs : ∀ b, (clientFrame e).bytes = some b → b.length < 2 ^ 32) :
    ofFrame (clientFrame e) = .msg e := by
  cases e with
  | join s t =>
    have h := hs _ rfl
    simp only [List.length_cons] at h
    simp only [clientFrame, ofFrame, parseInbound, if_true, readJoin]
    have hr := Chat.JoinChat.read_write { chatStreamId := s, joinToken := t.map fun t => { value := t } } (by unfold joinBytes at h; omega)
    unfold joinBytes
    rw [hr]
    cases t <;> rfl
  | chat m =>
    have h := hs _ rfl
    simp only [List.length_cons] at h
    have h10 : ¬ ((1 : UInt8) = 0) := by decide
    simp only [clientFrame, ofFrame, parseInbound, if_neg h10, if_true, readChat]
    have hr := Chat.SendChatMessage.read_write { message := some m.proto } (by unfold chatBytes at h; omega)
    unfold chatBytes
    rw [hr]
    obtain ⟨s, i, n, x⟩ := m
    cases i <;> cases n <;> rfl
  | leave s =>
    have h := hs _ rfl
    simp only [List.length_cons] at h
    have h20 : ¬ ((2 : UInt8) = 0) := by decide
    have h21 : ¬ ((2 : UInt8) = 1) := by decide
    simp only [clientFrame, ofFrame, parseInbound, if_neg h20, if_neg h21, if_true, readLeave]
    have hr := Chat.LeaveChat.read_write { chatStreamId := s } (by unfold leaveBytes at h; omega)
    unfold leaveBytes
    rw [hr]
    rfl
  | close => rfl

/-- **C88.** What a client sends, from first to last, is what its peer handles or has waiting. -/
theorem C88_conversation (es : List PeerEvent) (hs : ∀ e ∈ es, ∀ b, (clientFrame e).bytes = some b → b.length < 2 ^ 32)
    (ops : List (AttOp Frame))
    (hops : ops.filterMap (fun op => match op with | .next f => some f | _ => none) = es.map clientFrame)
    (hend : ∀ op ∈ ops, op ≠ .err ∧ op ≠ .end_) (ha : (Peer.run ops).alive = true) :
    (Peer.run ops).handled ++ (Peer.run ops).mailbox.filterMap Mail.value = es := by
  unfold Peer.run at ha ⊢
  rw [(C88_in_order ofFrame PeerEvent.closes true ops).2 ha]
  clear ha
  induction ops generalizing es with
  | nil =>
    simp only [List.filterMap_nil] at hops
    cases es with
    | nil => rfl
    | cons e es => cases hops
  | cons x xs ih =>
    have hend' : ∀ op ∈ xs, op ≠ .err ∧ op ≠ .end_ := fun op h => hend op (by simp [h])
    cases x with
    | next f =>
      simp only [List.filterMap_cons] at hops
      cases es with
      | nil => cases hops
      | cons e es =>
        rw [List.map_cons, List.cons.injEq] at hops
        obtain ⟨rfl, hops⟩ := hops
        simp only [heard, C88_client_frames e (hs e (by simp))]
        rw [ih es (fun e h => hs e (by simp [h])) hops hend']
    | err => exact absurd rfl (hend .err (by simp)).1
    | end_ => exact absurd rfl (hend .end_ (by simp)).2
    | handle => exact ih es hs hops hend'
    | crash => exact ih es hs hops hend'

/-- Which frames make the reading task panic: those of the three known kinds whose body is not of that kind. -/
theorem C88_panic_iff (f : Frame) : ofFrame f = .panic ↔ ∃ t b, f.bytes = some (t :: b) ∧
    ((t = 0 ∧ Chat.JoinChat.read b = none) ∨
     (t = 1 ∧ (Chat.SendChatMessage.read b = none ∨ Chat.SendChatMessage.read b = some { message := none })) ∨
     (t = 2 ∧ Chat.LeaveChat.read b = none)) := by
  have hu : ∀ o : Option PeerEvent, unwrapped o = .panic ↔ o = none := by intro o; cases o <;> simp [unwrapped]
  have hp : ∀ bs, parseInbound bs = .panic ↔ ∃ t b, bs = t :: b ∧
    ((t = 0 ∧ Chat.JoinChat.read b = none) ∨
     (t = 1 ∧ (Chat.SendChatMessage.read b = none ∨ Chat.SendChatMessage.read b = some { message := none })) ∨
     (t = 2 ∧ Chat.LeaveChat.read b = none)) := by
    intro bs
    cases bs with
    | nil => simp [parseInbound]
    | cons t b =>
      have e : (∃ t' b', t :: b = t' :: b' ∧
        ((t' = 0 ∧ Chat.JoinChat.read b' = none) ∨
         (t' = 1 ∧ (Chat.SendChatMessage.read b' = none ∨ Chat.SendChatMessage.read b' = some { message := none })) ∨
         (t' = 2 ∧ Chat.LeaveChat.read b' = none))) ↔
        ((t = 0 ∧ Chat.JoinChat.read b = none) ∨
         (t = 1 ∧ (Chat.SendChatMessage.read b = none ∨ Chat.SendChatMessage.read b = some { message := none })) ∨
         (t = 2 ∧ Chat.LeaveChat.read b = none)) := by
        constructor
        · rintro ⟨t', b', h, hh⟩; rw [List.cons.injEq] at h; obtain ⟨rfl, rfl⟩ := h; exact hh
        · intro h; exact ⟨t, b, rfl, h⟩
      rw [e]
      simp only [parseInbound]
      by_cases h0 : t = 0
      · subst h0
        simp [hu, readJoin]
      · rw [if_neg h0]
        by_cases h1 : t = 1
        · subst h1
          simp only [if_true, hu, readChat]
          cases hr : Chat.SendChatMessage.read b with
          | none => simp
          | some s =>
            obtain ⟨o⟩ := s
            cases o <;> simp
        · rw [if_neg h1]
          by_cases h2 : t = 2
          · subst h2; simp [hu, readLeave]
          · simp [h0, h1, h2]
  cases f with
  | text b => simp only [ofFrame, hp, Frame.bytes, Option.some.injEq]
  | binary b => simp only [ofFrame, hp, Frame.bytes, Option.some.injEq]
  | ping => simp [ofFrame, Frame.bytes]
  | pong => simp [ofFrame, Frame.bytes]
  | close => simp [ofFrame, Frame.bytes]
  | raw => simp [ofFrame, Frame.bytes]

/-- Refuted: a client that misbehaves is disconnected. One frame of a known kind with a broken body, and its peer stays
for ever, deaf, also after the client has gone. -/
theorem C88_deaf_peer_refuted (post : List (AttOp Frame)) (hc : .crash ∉ post) :
    (Peer.run (.next (.binary [0, 10]) :: post)).alive = true ∧
    (Peer.run (.next (.binary [0, 10]) :: post)).handled = [] := by
  have hp : ofFrame (.binary [0, 10]) = .panic := by decide +kernel
  obtain ⟨h1, h2⟩ := C88_panic_refuted ofFrame PeerEvent.closes true [] post (.binary [0, 10]) (by simp) hp
    (by simpa using hc) (by simp [heard])
  refine ⟨h1, ?_⟩
  have h3 := (C88_in_order ofFrame PeerEvent.closes true (.next (.binary [0, 10]) :: post)).1
  have h4 : heard ofFrame (.next (.binary [0, 10]) :: post) = [] := h2
  rw [h4] at h3
  exact List.prefix_nil.1 h3

/-- an actor that has handled a message that closes it has a `Stop` waiting as long as it lives. -/
theorem closed_stop (conv : R → Conv M) (cl : M → Bool) (b : Bool) (ops : List (AttOp R)) (m : M) (hm : cl m = true) :
    m ∈ (Att.run conv cl b {} ops).handled → (Att.run conv cl b {} ops).alive = true →
      .stop ∈ (Att.run conv cl b {} ops).mailbox := by
  induction ops using snoc_induction with
  | nil => intro h; simp [Att.run] at h
  | snoc l x ih =>
    rw [att_snoc]
    generalize Att.run conv cl b {} l = σ at *
    intro h ha
    by_cases hh : m ∈ σ.handled
    · refine stop_stays conv cl b σ x (ih hh ?_) ha
      cases hal : σ.alive with
      | true => rfl
      | false =>
        exfalso
        cases x <;> simp only [Att.step, Att.handle, Att.next, Att.finish, Att.post, hal] at ha <;>
          (repeat' split at ha) <;> simp_all
    · cases x with
      | handle =>
        simp only [Att.step, Att.handle] at h ⊢ ha
        cases hal : σ.alive with
        | false => rw [hal] at h; exact absurd h hh
        | true =>
          simp only [hal, if_true] at h ha ⊢
          cases hq : σ.mailbox with
          | nil => rw [hq] at h; exact absurd h hh
          | cons y q =>
            cases y with
            | stop => simp [hq] at ha
            | item k =>
              simp only [hq, List.mem_append, List.mem_singleton] at h ⊢
              rcases h with h | rfl
              · exact absurd h hh
              · simp [hm]
      | next r =>
        exfalso; apply hh
        simp only [Att.step, Att.next, Att.post] at h
        (repeat' split at h) <;> exact h
      | err =>
        exfalso; apply hh
        simp only [Att.step, Att.finish, Att.post] at h
        (repeat' split at h) <;> exact h
      | end_ =>
        exfalso; apply hh
        simp only [Att.step, Att.finish, Att.post] at h
        (repeat' split at h) <;> exact h
      | crash => exact absurd h hh

/-- **C88.** A peer stops when its client closes the socket, once it has gone through what is waiting; -/
theorem C88_close_stops (ops : List (AttOp Frame)) (h : .close ∈ (Peer.run ops).handled) :
    (Peer.run (ops ++ List.replicate (Peer.run ops).mailbox.length .handle)).alive = false := by
  have e : Peer.run (ops ++ List.replicate (Peer.run ops).mailbox.length .handle) =
      (Peer.run ops).run ofFrame PeerEvent.closes true (List.replicate (Peer.run ops).mailbox.length .handle) := by
    simp only [Peer.run, Att.run, List.foldl_append]
  rw [e]
  cases ha : (Peer.run ops).alive with
  | true => exact C88_ends_soon _ _ _ _ (closed_stop ofFrame PeerEvent.closes true ops .close rfl h ha)
  | false =>
    generalize (Peer.run ops).mailbox.length = n
    generalize Peer.run ops = σ at *
    induction n with
    | zero => exact ha
    | succ n ih =>
      have : σ.run ofFrame PeerEvent.closes true (List.replicate (n + 1) .handle) =
          σ.run ofFrame PeerEvent.closes true (List.replicate n .handle) := by
        simp [Att.run, List.replicate_succ, Att.step, Att.handle, ha]
      rw [this]; exact ih

/-- and a peer whose client has neither closed the socket nor gone, and which nothing else ends, stays, whatever the
client says. -/
theorem C88_stays (ops : List (AttOp Frame)) (hc : .crash ∉ ops) (hcl : .close ∉ heard ofFrame ops)
    (ht : (Peer.run ops).task ≠ .ended) : (Peer.run ops).alive = true := by
  refine C88_only_then ofFrame PeerEvent.closes true ops hc ?_ (.inr ht)
  intro m hm
  cases m with
  | close => exact absurd hm hcl
  | _ => rfl

/-! ## Cases -/

-- the hypotheses of `C88_close_stops` and `C88_stays` met
example : .close ∈ (Peer.run [.next (clientFrame (.leave "c")), .next .close, .handle, .handle]).handled := by decide +kernel
example : (.close : PeerEvent) ∉ heard ofFrame [.next (clientFrame (.leave "c")), .next .ping, .handle] := by decide +kernel

-- a client joins, says something and goes
example : Peer.run [.next (clientFrame (.join "c" none)), .handle, .next .ping, .next (clientFrame (.chat ⟨"c", none, none, "hi"⟩)),
    .end_, .handle] = { task := .ended, alive := true, mailbox := [.stop], handled := [.join "c" none, .chat ⟨"c", none, none, "hi"⟩] } := by
  decide +kernel
example : (Peer.run [.next (clientFrame (.leave "c")), .next .close, .handle, .handle, .handle]).alive = false := by decide +kernel
example : heard ofFrame [.next (.text []), .next .pong] = [.close] := by decide +kernel

end Verif.Chat
