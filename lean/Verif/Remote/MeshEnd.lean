import Verif.Remote.MeshLemmas

namespace Verif.Remote.Peering

/-! ### Who waits for what -/

def Cause.shake? : Cause → Option Nat
  | .caller _ => none
  | .shake h => some h

def Cause.caller? : Cause → Option Nat
  | .caller c => some c
  | .shake _ => none

def St.waits (σ : St) : List Nat := σ.batches.flatMap (·.waits)

def St.owed (σ : St) : List Nat := σ.told.map (·.id) ++ σ.batches.filterMap (·.cause.shake?) ++ σ.acks

def St.callers (σ : St) : List Nat := σ.done ++ σ.batches.filterMap (·.cause.caller?)

structure Tokens (σ : St) : Prop where
  perm : σ.waits.Perm σ.owed
  nodup : σ.waits.Nodup
  lt : ∀ w ∈ σ.waits, w < σ.next
  up : ∀ b ∈ σ.batches, ∀ h, b.cause = .shake h → ∀ w ∈ b.waits, h < w

theorem eraseIdx_split {α : Type} {l : List α} {i : Nat} {a : α} (h : l[i]? = some a) : l.Perm (a :: l.eraseIdx i) := by
  induction l generalizing i with
  | nil => simp at h
  | cons b l ih =>
    cases i with
    | zero => simp at h; subst h; simp
    | succ i =>
      rw [List.getElem?_cons_succ] at h
      rw [List.eraseIdx_cons_succ]
      exact ((ih h).cons b).trans (List.Perm.swap ..)

theorem regAll_frame (ok : Nat → Bool) (x : Nat) (ns : List Nat) (σ : St) :
    let s := St.regAll ok x ns (σ, [])
    s.1.batches = σ.batches ∧ s.1.acks = σ.acks ∧ s.1.done = σ.done ∧ σ.next ≤ s.1.next ∧
    (∃ new : List Shake, s.1.told = σ.told ++ new ∧ new.map (·.id) = s.2) ∧
    (∀ i ∈ s.2, σ.next ≤ i ∧ i < s.1.next) ∧ s.2.Nodup := by
  refine regAll_induct (P := fun τ ids => τ.batches = σ.batches ∧ τ.acks = σ.acks ∧ τ.done = σ.done ∧ σ.next ≤ τ.next ∧
    (∃ new : List Shake, τ.told = σ.told ++ new ∧ new.map (·.id) = ids) ∧
    (∀ i ∈ ids, σ.next ≤ i ∧ i < τ.next) ∧ ids.Nodup) ns ?_ (σ, []) ?_
  · rintro τ ids n _ ⟨h1, h2, h3, h4, ⟨new, h5, h6⟩, h7, h8⟩ _ _ _
    refine ⟨h1, h2, h3, Nat.le_succ_of_le h4, ⟨new ++ [⟨τ.next, x, n, τ.known x ++ [n]⟩], ?_, ?_⟩, ?_, ?_⟩
    · simp [St.reg, h5]
    · simp [h6]
    · intro i hi
      simp only [List.mem_append, List.mem_singleton] at hi
      show σ.next ≤ i ∧ i < τ.next + 1
      rcases hi with hi | rfl
      · have := h7 i hi; omega
      · omega
    · rw [List.nodup_append]
      refine ⟨h8, by simp, ?_⟩
      intro a ha b hb e
      simp only [List.mem_singleton] at hb
      subst hb; subst e
      have := h7 _ ha; omega
  · exact ⟨rfl, rfl, rfl, Nat.le_refl _, ⟨[], by simp, rfl⟩, by simp, List.nodup_nil⟩

/-- a `Discover`, the handshake that causes it (`pend`) having been taken out. -/
theorem Tokens.discover {σ : St} (pend : List Nat) (hp : σ.waits.Perm (pend ++ σ.owed)) (hn : σ.waits.Nodup)
    (hlt : ∀ w ∈ σ.waits, w < σ.next) (hup : ∀ b ∈ σ.batches, ∀ h, b.cause = .shake h → ∀ w ∈ b.waits, h < w)
    (ok : Nat → Bool) (x : Nat) (c : Cause) (ns : List Nat) (hc : c.shake?.toList = pend) : Tokens (σ.discover ok x c ns) := by
  obtain ⟨h1, h2, h3, h4, ⟨new, h5, h6⟩, h7, h8⟩ := regAll_frame ok x ns σ
  generalize he : St.regAll ok x ns (σ, []) = s at h1 h2 h3 h4 h5 h6 h7 h8
  obtain ⟨τ, ids⟩ := s
  have hd : σ.discover ok x c ns = { τ with batches := τ.batches ++ [⟨c, ids⟩] } := by simp only [St.discover, he]
  simp only at h1 h2 h3 h4 h5 h6 h7 h8
  have hw : (σ.discover ok x c ns).waits = σ.waits ++ ids := by
    rw [hd]; simp [St.waits, h1]
  have hcl : [(⟨c, ids⟩ : Batch)].filterMap (·.cause.shake?) = pend := by
    rw [← hc]; cases c <;> rfl
  refine ⟨?_, ?_, ?_, ?_⟩
  · rw [hw]
    have ho : (σ.discover ok x c ns).owed
        = σ.told.map (·.id) ++ ids ++ (σ.batches.filterMap (·.cause.shake?) ++ pend) ++ σ.acks := by
      rw [hd]; simp only [St.owed, h1, h2, h5, List.map_append, h6, List.filterMap_append, hcl]
    rw [ho]
    have := hp.append_right ids
    refine this.trans ?_
    rw [List.perm_iff_count]
    intro a
    simp only [St.owed, List.count_append]
    omega
  · rw [hw, List.nodup_append]
    refine ⟨hn, h8, ?_⟩
    intro a ha b hb e
    subst e
    have := hlt a ha; have := h7 a hb; omega
  · rw [hw]
    intro w hw
    rw [hd]
    show w < τ.next
    rcases List.mem_append.1 hw with hw | hw
    · have := hlt w hw; omega
    · exact (h7 w hw).2
  · intro b hb h hbc w hwb
    rw [hd] at hb
    simp only [h1, List.mem_append, List.mem_singleton] at hb
    rcases hb with hb | rfl
    · exact hup b hb h hbc w hwb
    · simp only at hbc hwb
      subst hbc
      have hm : h ∈ σ.waits := hp.mem_iff.2 (by rw [← hc]; simp [Cause.shake?])
      have := hlt h hm; have := h7 w hwb; omega

theorem nodup_waits {σ : St} (h : σ.waits.Nodup) {b : Batch} (hb : b ∈ σ.batches) : b.waits.Nodup := by
  have : b.waits.Sublist σ.waits := by
    unfold St.waits
    rw [List.flatMap_def]
    exact List.sublist_flatten_of_mem (List.mem_map_of_mem (f := Batch.waits) hb)
  exact h.sublist this

theorem waits_erase {bs : List Batch} {h : Nat} (hn : (bs.flatMap (·.waits)).Nodup) :
    (bs.map fun b => ({ b with waits := b.waits.erase h } : Batch)).flatMap (·.waits) = (bs.flatMap (·.waits)).erase h := by
  rw [hn.erase_eq_filter]
  induction bs with
  | nil => rfl
  | cons b bs ih =>
    simp only [List.flatMap_cons] at hn
    rw [List.nodup_append] at hn
    simp only [List.map_cons, List.flatMap_cons, List.filter_append]
    rw [ih hn.2.1, hn.1.erase_eq_filter]

theorem Tokens.step {σ : St} (h : Tokens σ) (o : Op) : Tokens (σ.step o) := by
  cases o with
  | start x =>
    simp only [St.step]
    split
    · exact h
    · exact ⟨h.perm, h.nodup, h.lt, h.up⟩
  | join x ns c ok =>
    simp only [St.step]
    split
    · exact Tokens.discover [] h.perm h.nodup h.lt h.up ok x _ ns rfl
    · exact h
  | handle i ok =>
    simp only [St.step, St.handle]
    split
    · exact h
    · rename_i s hs
      refine Tokens.discover (σ := { σ with told := σ.told.eraseIdx i }) [s.id] ?_ h.nodup h.lt h.up ok _ _ _ rfl
      refine h.perm.trans ?_
      have := ((eraseIdx_split hs).map (·.id)).append_right (σ.batches.filterMap (·.cause.shake?) ++ σ.acks)
      simpa [St.owed] using this
  | lose i =>
    simp only [St.step, St.lose]
    split
    · exact h
    · rename_i s hs
      refine ⟨?_, h.nodup, h.lt, h.up⟩
      refine h.perm.trans ?_
      have := (eraseIdx_split hs).map (·.id)
      rw [List.perm_iff_count] at this ⊢
      intro a
      have := this a
      simp only [St.owed, List.count_append, List.map_cons, List.count_cons, List.count_nil] at this ⊢
      omega
  | finish j =>
    simp only [St.step, St.finish]
    split
    · rename_i c hb
      have hs := eraseIdx_split hb
      have hw : σ.waits.Perm ({ σ with batches := σ.batches.eraseIdx j, done := σ.done ++ [c] } : St).waits := by
        have := hs.flatMap_right (·.waits)
        simpa [St.waits] using this
      refine ⟨?_, hw.nodup_iff.1 h.nodup, fun w hw' => h.lt w (hw.mem_iff.2 hw'), fun b hb' => h.up b (List.mem_of_mem_eraseIdx hb')⟩
      refine (hw.symm.trans h.perm).trans ?_
      have := hs.filterMap (·.cause.shake?)
      simp only [Cause.shake?, List.filterMap_cons] at this
      exact (this.append_left _).append_right _
    · rename_i g hb
      have hs := eraseIdx_split hb
      have hw : σ.waits.Perm ({ σ with batches := σ.batches.eraseIdx j, acks := σ.acks ++ [g] } : St).waits := by
        have := hs.flatMap_right (·.waits)
        simpa [St.waits] using this
      refine ⟨?_, hw.nodup_iff.1 h.nodup, fun w hw' => h.lt w (hw.mem_iff.2 hw'), fun b hb' => h.up b (List.mem_of_mem_eraseIdx hb')⟩
      refine (hw.symm.trans h.perm).trans ?_
      have := hs.filterMap (·.cause.shake?)
      simp only [Cause.shake?, List.filterMap_cons] at this
      rw [List.perm_iff_count] at this ⊢
      intro a
      have := this a
      simp only [St.owed, List.count_append, List.count_cons, List.count_nil, Cause.shake?] at this ⊢
      omega
    · exact h
  | ack k =>
    simp only [St.step, St.ack]
    split
    · exact h
    · rename_i g hg
      have hs := eraseIdx_split hg
      have hw : ({ σ with acks := σ.acks.eraseIdx k, batches := σ.batches.map fun b => { b with waits := b.waits.erase g } } : St).waits
          = σ.waits.erase g := waits_erase h.nodup
      have hcs : (σ.batches.map fun b => ({ b with waits := b.waits.erase g } : Batch)).filterMap (·.cause.shake?)
          = σ.batches.filterMap (·.cause.shake?) := by
        rw [List.filterMap_map]; rfl
      refine ⟨?_, ?_, ?_, ?_⟩
      · rw [hw]
        have h1 := h.perm.erase g
        refine h1.trans ?_
        have h2 : σ.owed.Perm (g :: (σ.told.map (·.id) ++ σ.batches.filterMap (·.cause.shake?) ++ σ.acks.eraseIdx k)) := by
          rw [List.perm_iff_count] at hs ⊢
          intro a
          have := hs a
          simp only [St.owed, List.count_append, List.count_cons] at this ⊢
          omega
        have h3 := h2.erase g
        rw [List.erase_cons_head] at h3
        refine h3.trans (.of_eq ?_)
        simp only [St.owed, hcs]
      · rw [hw]; exact h.nodup.erase g
      · rw [hw]; exact fun w hw => h.lt w (List.mem_of_mem_erase hw)
      · intro b hb g' hc w hwb
        simp only [List.mem_map] at hb
        obtain ⟨b0, hb0, rfl⟩ := hb
        exact h.up b0 hb0 g' hc w (List.mem_of_mem_erase hwb)

theorem tokens_run (ops : List Op) : Tokens (run ops) := by
  induction ops using snoc_induction with
  | nil => exact ⟨by simp [run, St.waits, St.owed], by simp [run, St.waits], by simp [run, St.waits], by simp [run]⟩
  | snoc ops o ih => rw [run_snoc]; exact ih.step o

/-- nobody waits in a ring: in a quiet state nobody waits at all. -/
theorem quiet_batches {σ : St} (h : Tokens σ) (hq : Quiet σ) : σ.batches = [] := by
  obtain ⟨h1, h2, h3⟩ := hq
  have no : ∀ k w, w ∈ σ.waits → σ.next - w ≤ k → False := by
    intro k
    induction k with
    | zero => intro w hw hk; have := h.lt w hw; omega
    | succ k ih =>
      intro w hw hk
      have ho : w ∈ σ.owed := h.perm.mem_iff.1 hw
      simp only [St.owed, h1, h2, List.map_nil, List.nil_append, List.append_nil, List.mem_filterMap] at ho
      obtain ⟨b, hb, hc⟩ := ho
      have hc : b.cause = .shake w := by
        cases hcc : b.cause <;> simp [hcc, Cause.shake?] at hc
        rw [hc]
      obtain ⟨v, hv⟩ := List.exists_mem_of_ne_nil _ (h3 b hb)
      have hlt := h.up b hb w hc v hv
      have hvw : v ∈ σ.waits := List.mem_flatMap.2 ⟨b, hb, hv⟩
      have := h.lt v hvw
      exact ih v hvw (by omega)
  cases hb : σ.batches with
  | nil => rfl
  | cons b bs =>
    have hm : b ∈ σ.batches := by rw [hb]; simp
    obtain ⟨v, hv⟩ := List.exists_mem_of_ne_nil _ (h3 b hm)
    exact (no _ v (List.mem_flatMap.2 ⟨b, hm, hv⟩) (Nat.le_refl _)).elim

/-- what is under way is under way for a caller. -/
theorem idle_quiet {σ : St} (h : Tokens σ) (h0 : σ.batches.filterMap (·.cause.caller?) = []) : Quiet σ := by
  have hsh : ∀ b ∈ σ.batches, ∃ g, b.cause = .shake g := by
    intro b hb
    cases hc : b.cause with
    | shake g => exact ⟨g, rfl⟩
    | caller c =>
      have : c ∈ σ.batches.filterMap (·.cause.caller?) := List.mem_filterMap.2 ⟨b, hb, by rw [hc]; rfl⟩
      rw [h0] at this; cases this
  have no : ∀ w, w ∈ σ.owed → False := by
    intro w
    induction w using Nat.strongRecOn with
    | ind w ih =>
      intro hw
      have hw := h.perm.mem_iff.2 hw
      obtain ⟨b, hb, hwb⟩ := List.mem_flatMap.1 hw
      obtain ⟨g, hg⟩ := hsh b hb
      refine ih g (h.up b hb g hg w hwb) ?_
      simp only [St.owed, List.mem_append, List.mem_filterMap]
      exact .inl (.inr ⟨b, hb, by rw [hg]; rfl⟩)
  refine ⟨?_, ?_, ?_⟩
  · cases ht : σ.told with
    | nil => rfl
    | cons s l => exact (no s.id (by simp [St.owed, ht])).elim
  · cases ht : σ.acks with
    | nil => rfl
    | cons s l => exact (no s (by simp [St.owed, ht])).elim
  · intro b hb
    obtain ⟨g, hg⟩ := hsh b hb
    refine (no g ?_).elim
    simp only [St.owed, List.mem_append, List.mem_filterMap]
    exact .inl (.inr ⟨b, hb, by rw [hg]; rfl⟩)

/-! ### Callers -/

open Classical in
theorem asked_snoc (up : List Nat) (ops : List Op) (o : Op) :
    asked up (ops ++ [o]) = asked up ops ++ (match o with
      | .join x _ c _ => if x ∈ up ∨ .start x ∈ ops then [c] else []
      | _ => []) := by
  induction ops generalizing up with
  | nil => cases o <;> simp [asked]
  | cons p ops ih =>
    cases p with
    | start y =>
      simp only [List.cons_append, asked, ih]
      cases o with
      | join x ns c ok =>
        simp only [List.mem_cons, Op.start.injEq]
        congr 1
        by_cases e : x = y
        · simp [e]
        · simp [e]
      | _ => rfl
    | join y ns c ok =>
      simp only [List.cons_append, asked]
      split
      · rw [ih, List.cons_append]
        congr 2
        cases o <;> simp
      · rw [ih]
        congr 1
        cases o <;> simp
    | handle i ok => simp only [List.cons_append, asked, ih]; cases o <;> simp
    | lose i => simp only [List.cons_append, asked, ih]; cases o <;> simp
    | finish j => simp only [List.cons_append, asked, ih]; cases o <;> simp
    | ack k => simp only [List.cons_append, asked, ih]; cases o <;> simp

theorem discover_callers (σ : St) (ok : Nat → Bool) (x : Nat) (c : Cause) (ns : List Nat) :
    (σ.discover ok x c ns).callers = σ.callers ++ c.caller?.toList := by
  obtain ⟨h1, h2, h3, h4, ⟨new, h5, h6⟩, h7, h8⟩ := regAll_frame ok x ns σ
  simp only [St.callers, St.discover, h1, h3, List.filterMap_append]
  cases c <;> simp [Cause.caller?]

open Classical in
theorem callers_run (ops : List Op) : (run ops).callers.Perm (asked [] ops) := by
  induction ops using snoc_induction with
  | nil => simp [run, St.callers, asked]
  | snoc ops o ih =>
    have hup := (sound_run ops).2
    rw [run_snoc, asked_snoc]
    cases o with
    | start x =>
      simp only [St.step, List.append_nil]
      split <;> exact ih
    | join x ns c ok =>
      simp only [St.step]
      split
      · rename_i hr
        have : x ∈ [] ∨ .start x ∈ ops := .inr ((hup x).1 hr)
        rw [if_pos this, discover_callers]
        exact ih.append_right _
      · rename_i hr
        have : ¬ (x ∈ [] ∨ .start x ∈ ops) := by
          rintro (h | h)
          · cases h
          · exact hr ((hup x).2 h)
        rw [if_neg this, List.append_nil]
        exact ih
    | handle i ok =>
      simp only [St.step, St.handle, List.append_nil]
      split
      · exact ih
      · rw [discover_callers]
        simp only [Cause.caller?, Option.toList, List.append_nil]
        exact ih
    | lose i =>
      simp only [St.step, St.lose, List.append_nil]
      split <;> exact ih
    | finish j =>
      simp only [St.step, St.finish, List.append_nil]
      split
      · rename_i c hb
        have := (eraseIdx_split hb).filterMap (·.cause.caller?)
        refine .trans ?_ ih
        rw [List.perm_iff_count] at this ⊢
        intro a
        have := this a
        simp only [Cause.caller?, List.filterMap_cons] at this
        simp only [St.callers, List.count_append, List.count_cons, List.count_nil, Cause.caller?] at this ⊢
        omega
      · rename_i c hb
        have := (eraseIdx_split hb).filterMap (·.cause.caller?)
        refine .trans ?_ ih
        simp only [Cause.caller?, List.filterMap_cons] at this
        exact this.symm.append_left _
      · exact ih
    | ack k =>
      simp only [St.step, St.ack, List.append_nil]
      split
      · exact ih
      · simp only [St.callers, List.filterMap_map]
        exact ih

/-! ### It ends -/

theorem sum_map_lt {l : List Nat} {f g : Nat → Nat} (hle : ∀ a ∈ l, f a ≤ g a) {x : Nat} (hx : x ∈ l) (hlt : f x < g x) :
    (l.map f).sum < (l.map g).sum := by
  have le : ∀ l : List Nat, (∀ a ∈ l, f a ≤ g a) → (l.map f).sum ≤ (l.map g).sum := by
    intro l
    induction l with
    | nil => intro _; exact Nat.le_refl _
    | cons a l ih =>
      intro h
      have := h a (by simp)
      have := ih fun b hb => h b (List.mem_cons_of_mem _ hb)
      simp only [List.map_cons, List.sum_cons]; omega
  induction l with
  | nil => cases hx
  | cons a l ih =>
    have ha := hle a (by simp)
    have hl := fun b hb => hle b (List.mem_cons_of_mem _ hb)
    simp only [List.map_cons, List.sum_cons]
    rcases List.mem_cons.1 hx with rfl | hx
    · have := le l hl; omega
    · have := ih hl hx; omega

theorem countP_lt_of {l : List Nat} {p q : Nat → Bool} (hpq : ∀ a, p a = true → q a = true) {n : Nat} (hn : n ∈ l) (hp : p n = false)
    (hq : q n = true) : l.countP p < l.countP q := by
  induction l with
  | nil => cases hn
  | cons a l ih =>
    rcases List.mem_cons.1 hn with rfl | hn
    · have := List.countP_mono_left (l := l) (p := p) (q := q) fun a _ h => hpq a h
      rw [List.countP_cons, List.countP_cons, hp, hq]
      simp only [Bool.false_eq_true, if_false, if_true]; omega
    · have := ih hn
      rw [List.countP_cons, List.countP_cons]
      have := hpq a
      cases hpa : p a <;> cases hqa : q a <;> simp_all <;> omega

/-- the pairs of nodes of `U` of which the one does not know the other. -/
def St.missing (σ : St) (U : List Nat) : Nat := (U.map fun x => U.countP fun n => decide (n ∉ σ.known x)).sum

def St.weight (σ : St) (U : List Nat) : Nat := 4 * σ.missing U + 3 * σ.told.length + 2 * σ.batches.length + σ.acks.length

theorem missing_reg {σ : St} {U : List Nat} {x n : Nat} (hx : x ∈ U) (hn : n ∈ U) (hk : n ∉ σ.known x) :
    (σ.reg x n).missing U < σ.missing U := by
  refine sum_map_lt (x := x) (fun a _ => ?_) hx ?_
  · refine List.countP_mono_left fun b _ hb => ?_
    simp only [decide_eq_true_eq] at hb ⊢
    exact fun h => hb ((reg_known σ x n a b).2 (.inl h))
  · refine countP_lt_of (fun b hb => ?_) hn ?_ ?_
    · simp only [decide_eq_true_eq] at hb ⊢
      exact fun h => hb ((reg_known σ x n x b).2 (.inl h))
    · simp only [decide_eq_false_iff_not, Classical.not_not]
      exact (reg_known σ x n x n).2 (.inr ⟨rfl, rfl⟩)
    · simpa using hk

theorem weight_discover {σ : St} {U : List Nat} (hU : ∀ y, σ.runs y → y ∈ U) (ok : Nat → Bool) (x : Nat) (c : Cause) (ns : List Nat)
    (hx : σ.runs x) : (σ.discover ok x c ns).weight U ≤ σ.weight U + 2 := by
  have := regAll_induct (ok := ok) (x := x)
    (P := fun τ _ => (∀ y, τ.runs y → y ∈ U) ∧ τ.weight U ≤ σ.weight U ∧ τ.runs x) ns
    (fun τ ids n _ hτ h1 h2 _ => by
      refine ⟨fun y hy => ?_, ?_, reg_runs hτ.2.2⟩
      · apply hτ.1 y
        unfold St.runs at hy
        simp only [St.reg] at hy
        split at hy
        · rename_i e; subst e; exact hτ.2.2
        · exact hy
      · have := missing_reg (hτ.1 x hτ.2.2) (hτ.1 n h2) h1
        have := hτ.2.1
        simp only [St.weight] at this ⊢
        simp only [St.reg, List.length_append, List.length_singleton] at this ⊢
        simp only [St.reg] at *
        omega)
    (σ, []) ⟨hU, Nat.le_refl _, hx⟩
  have := this.2.1
  unfold St.discover
  simp only [St.weight, List.length_append, List.length_singleton] at this ⊢
  unfold St.missing at this ⊢
  simp only at this ⊢
  omega

theorem weight_step {σ : St} {U : List Nat} (hU : ∀ y, σ.runs y → y ∈ U) (hd : ∀ s ∈ σ.told, σ.runs s.dst) {o : Op}
    (he : Enabled σ o) : (σ.step o).weight U < σ.weight U := by
  cases o with
  | start x => exact he.elim
  | join x ns c ok => exact he.elim
  | handle i ok =>
    have he : i < σ.told.length := he
    simp only [St.step, St.handle, List.getElem?_eq_getElem he]
    have := weight_discover (σ := { σ with told := σ.told.eraseIdx i }) (U := U) hU ok σ.told[i].dst (.shake σ.told[i].id)
      (σ.told[i].nodes.filter fun n => decide (n ≠ σ.told[i].dst)) (hd _ (List.getElem_mem he))
    refine Nat.lt_of_le_of_lt this ?_
    simp only [St.weight, St.missing, List.length_eraseIdx, he, if_true]
    omega
  | lose i =>
    have he : i < σ.told.length := he
    simp only [St.step, St.lose, List.getElem?_eq_getElem he]
    simp only [St.weight, St.missing, List.length_eraseIdx, he, if_true, List.length_append, List.length_singleton]
    omega
  | finish j =>
    obtain ⟨c, hc⟩ := he
    have hj : j < σ.batches.length := (List.getElem?_eq_some_iff.1 hc).1
    simp only [St.step, St.finish, hc]
    cases c <;> simp only [St.weight, St.missing, List.length_eraseIdx, hj, if_true, List.length_append, List.length_singleton] <;> omega
  | ack k =>
    have he : k < σ.acks.length := he
    simp only [St.step, St.ack, List.getElem?_eq_getElem he]
    simp only [St.weight, St.missing, List.length_eraseIdx, he, if_true, List.length_map]
    omega

def startsOf (ops : List Op) : List Nat := ops.filterMap fun | .start x => some x | _ => none

theorem mem_startsOf {ops : List Op} {x : Nat} (h : .start x ∈ ops) : x ∈ startsOf ops :=
  List.mem_filterMap.2 ⟨_, h, rfl⟩

theorem enabled_start {σ : St} {o : Op} (he : Enabled σ o) (x : Nat) : o ≠ .start x := by
  rintro rfl; exact he

theorem run_append_cons (ops : List Op) (o : Op) (os : List Op) : run (ops ++ o :: os) = run ((ops ++ [o]) ++ os) := by simp

theorem goes_weight (ops more : List Op) (U : List Nat) (hU : ∀ x, .start x ∈ ops → x ∈ U) (h : Goes (run ops) more) :
    more.length ≤ (run ops).weight U := by
  induction more generalizing ops with
  | nil => exact Nat.zero_le _
  | cons o os ih =>
    obtain ⟨h1, h2⟩ := h
    rw [← run_snoc] at h2
    have hs := sound_run ops
    have hlt := weight_step (U := U) (fun y hy => hU y ((hs.2 y).1 hy)) (fun s hm => (hs.1.toldRuns s hm).1) h1
    rw [← run_snoc] at hlt
    have := ih (ops ++ [o]) (fun x hx => by
      rcases List.mem_append.1 hx with hx | hx
      · exact hU x hx
      · simp only [List.mem_singleton] at hx
        exact absurd hx.symm (enabled_start h1 x)) h2
    simp only [List.length_cons]; omega

theorem not_quiet {σ : St} (h : ¬ Quiet σ) : ∃ o, o.Own ∧ Enabled σ o := by
  apply Classical.byContradiction
  intro hno
  apply h
  have key : ∀ o : Op, o.Own → ¬ Enabled σ o := fun o h1 h2 => hno ⟨o, h1, h2⟩
  refine ⟨?_, ?_, ?_⟩
  · cases ht : σ.told with
    | nil => rfl
    | cons s l => exact absurd (show 0 < σ.told.length by rw [ht]; simp) (key (.handle 0 fun _ => true) (fun _ => rfl))
  · cases ht : σ.acks with
    | nil => rfl
    | cons s l => exact absurd (show 0 < σ.acks.length by rw [ht]; simp) (key (.ack 0) trivial)
  · intro b hb e
    obtain ⟨j, hj⟩ := List.mem_iff_getElem?.1 hb
    exact key (.finish j) trivial ⟨b.cause, by rw [hj, ← e]⟩

theorem quiet_stuck {σ : St} (h : Quiet σ) (o : Op) : ¬ Enabled σ o := by
  obtain ⟨h1, h2, h3⟩ := h
  cases o with
  | start x => exact id
  | join x ns c ok => exact id
  | handle i ok => intro he; have he : i < σ.told.length := he; rw [h1] at he; simp at he
  | lose i => intro he; have he : i < σ.told.length := he; rw [h1] at he; simp at he
  | finish j => rintro ⟨c, hc⟩; exact h3 _ (List.mem_of_getElem? hc) rfl
  | ack k => intro he; have he : k < σ.acks.length := he; rw [h2] at he; simp at he

theorem reaches (ops : List Op) : ∃ more : List Op, (∀ o ∈ more, o.Own) ∧ Quiet (run (ops ++ more)) := by
  suffices H : ∀ k (ops : List Op), (run ops).weight (startsOf ops) ≤ k → ∃ more : List Op, (∀ o ∈ more, o.Own) ∧ Quiet (run (ops ++ more)) from
    H _ ops (Nat.le_refl _)
  intro k
  induction k with
  | zero =>
    intro ops hk
    refine ⟨[], by simp, ?_⟩
    rw [List.append_nil]
    apply Classical.byContradiction
    intro hq
    obtain ⟨o, _, ho⟩ := not_quiet hq
    have hs := sound_run ops
    have := weight_step (U := startsOf ops) (fun y hy => mem_startsOf ((hs.2 y).1 hy)) (fun s hm => (hs.1.toldRuns s hm).1) ho
    omega
  | succ k ih =>
    intro ops hk
    by_cases hq : Quiet (run ops)
    · exact ⟨[], by simp, by rw [List.append_nil]; exact hq⟩
    · obtain ⟨o, ho1, ho⟩ := not_quiet hq
      have hs := sound_run ops
      have hlt := weight_step (U := startsOf ops) (fun y hy => mem_startsOf ((hs.2 y).1 hy)) (fun s hm => (hs.1.toldRuns s hm).1) ho
      rw [← run_snoc] at hlt
      have hst : startsOf (ops ++ [o]) = startsOf ops := by
        cases o <;> simp [startsOf]
        exact ho
      obtain ⟨more, h1, h2⟩ := ih (ops ++ [o]) (by rw [hst]; omega)
      refine ⟨o :: more, ?_, by rw [run_append_cons]; exact h2⟩
      intro p hp
      rcases List.mem_cons.1 hp with rfl | hp
      · exact ho1
      · exact h1 p hp

end Verif.Remote.Peering
