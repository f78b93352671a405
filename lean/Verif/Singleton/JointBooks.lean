import Verif.Singleton.JointLemmas
import Verif.Singleton.ManagerLemmas

namespace Verif.Singleton.Joint

/-- the manager `i` handles `op`, with `net0` the messages left. -/
def act (w : Cl) (net0 : List (Nat × MMsg)) (i : Nat) (op : MOp) : Cl :=
  ({ w with net := net0 } : Cl).at i ((w.mgr i).step (fun _ => true) op)

theorem act_self (w : Cl) (net0 : List (Nat × MMsg)) (i : Nat) (op : MOp) :
    (act w net0 i op).mgr i = ((w.mgr i).step (fun _ => true) op).1 := by
  simp [act, Cl.at, Cl.setMgr]

theorem act_other (w : Cl) (net0 : List (Nat × MMsg)) {i k : Nat} (op : MOp) (h : k ≠ i) :
    (act w net0 i op).mgr k = w.mgr k := by
  simp [act, Cl.at, Cl.setMgr, h]

theorem act_net (w : Cl) (net0 : List (Nat × MMsg)) (i : Nat) (op : MOp) (d : Nat) (m : MMsg) :
    (d, m) ∈ (act w net0 i op).net ↔ (d, m) ∈ net0 ∨ .send d m ∈ ((w.mgr i).step (fun _ => true) op).2 := by
  simp only [act, Cl.at, List.mem_append, List.mem_filterMap]
  constructor
  · rintro (h | ⟨o, ho, e⟩)
    · exact .inl h
    · cases o <;> simp [MOut.msg?] at e
      obtain ⟨rfl, rfl⟩ := e
      exact .inr ho
  · rintro (h | h)
    · exact .inl h
    · exact .inr ⟨_, h, rfl⟩

/-- What happens to the managers in a step: nothing, a message is dropped, or a manager handles something. -/
inductive Moves (w : Cl) : Cl → Prop where
  | same : Moves w w
  | drop (i : Nat) (m : MMsg) : Moves w { w with net := w.net.erase (i, m) }
  | act (net0 : List (Nat × MMsg)) (i : Nat) (op : MOp) (hsub : ∀ x ∈ net0, x ∈ w.net)
      (hrec : ∀ m, op = .recv m → (i, m) ∈ w.net ∧ net0 = w.net.erase (i, m))
      (hother : (∀ m, op ≠ .recv m) → net0 = w.net) : Moves w (act w net0 i op)

/-- what the managers know of each other and have in their books. -/
structure Books (w : Cl) : Prop where
  self : ∀ i, (w.mgr i).self = i
  nodup : ∀ i, (w.mgr i).managers.Nodup
  notself : ∀ i, i ∉ (w.mgr i).managers
  ack : ∀ X Y, (Y, MMsg.ack X) ∈ w.net → X ∈ (w.mgr Y).managers
  req : ∀ X Y, (X, MMsg.request Y) ∈ w.net → X ∈ (w.mgr Y).managers
  pend : ∀ X Y, (w.mgr X).st = .joining (some Y) → X ∈ (w.mgr Y).managers
  acked : ∀ Y l, (w.mgr Y).st = .starting l → l.Nodup ∧ ∀ X ∈ l, X ∈ (w.mgr Y).managers
  quiet : ∀ X p, (w.mgr X).st = .joining p → (∀ Y, (Y, MMsg.ack X) ∉ w.net ∧ (Y, MMsg.request X) ∉ w.net) ∧
    ∀ Y l, (w.mgr Y).st = .starting l → X ∉ l

theorem Books.init : Books Cl.init :=
  ⟨fun _ => rfl, fun _ => List.nodup_nil, fun _ => List.not_mem_nil, by simp [Cl.init], by simp [Cl.init],
    by simp [Cl.init, Mgr.init], by simp [Cl.init, Mgr.init], by simp [Cl.init, Mgr.init]⟩

theorem nodup_setInsert {l : List Nat} {n : Nat} (h : l.Nodup) : (setInsert l n).Nodup := by
  unfold setInsert
  split
  · exact h
  · rename_i hn
    refine List.nodup_append.2 ⟨h, by simp, ?_⟩
    intro x hx y hy e
    simp only [List.mem_cons, List.not_mem_nil, or_false] at hy
    subst hy; subst e
    exact hn hx

theorem Books.sub {w : Cl} (h : Books w) {net0 : List (Nat × MMsg)} (hs : ∀ x ∈ net0, x ∈ w.net) :
    Books { w with net := net0 } :=
  ⟨h.self, h.nodup, h.notself, fun X Y hm => h.ack X Y (hs _ hm), fun X Y hm => h.req X Y (hs _ hm), h.pend, h.acked,
    fun X p hX => ⟨fun Y => ⟨fun hm => ((h.quiet X p hX).1 Y).1 (hs _ hm), fun hm => ((h.quiet X p hX).1 Y).2 (hs _ hm)⟩,
      (h.quiet X p hX).2⟩⟩

theorem Books.act {w : Cl} (h : Books w) {net0 : List (Nat × MMsg)} {i : Nat} {op : MOp} (hop : plain op = true)
    (hsub : ∀ x ∈ net0, x ∈ w.net) (hrec : ∀ m, op = .recv m → (i, m) ∈ w.net) : Books (act w net0 i op) := by
  have f := facts (h.nodup i) hop
  have hself := h.self i
  have hmono : ∀ X Y, X ∈ (w.mgr Y).managers → X ∈ ((Joint.act w net0 i op).mgr Y).managers := by
    intro X Y hX
    by_cases e : Y = i
    · subst e; rw [act_self]; exact f.mono X hX
    · rw [act_other _ _ _ e]; exact hX
  refine ⟨?_, ?_, ?_, ?_, ?_, ?_, ?_, ?_⟩
  · intro k
    by_cases e : k = i
    · subst e; rw [act_self, f.self]; exact hself
    · rw [act_other _ _ _ e]; exact h.self k
  · intro k
    by_cases e : k = i
    · subst e; rw [act_self]; exact f.nodup (h.nodup k)
    · rw [act_other _ _ _ e]; exact h.nodup k
  · intro k
    by_cases e : k = i
    · subst e; rw [act_self]
      have := f.notself
      rw [hself] at this
      exact this (h.notself k)
    · rw [act_other _ _ _ e]; exact h.notself k
  · intro X Y hm
    apply hmono
    rcases (act_net ..).1 hm with hm | hm
    · exact h.ack X Y (hsub _ hm)
    · obtain ⟨h1, _, h3⟩ := f.acks _ _ hm
      rw [hself] at h1
      subst h1
      rcases h3 with ⟨h3, _⟩ | ⟨h3, _⟩
      · exact h.req _ _ (hrec _ h3)
      · exact h.pend _ _ h3
  · intro X Y hm
    rcases (act_net ..).1 hm with hm | hm
    · exact hmono _ _ (h.req X Y (hsub _ hm))
    · obtain ⟨h1, h2, _⟩ := f.reqs _ _ hm
      rw [hself] at h1
      subst h1
      rw [act_self]; exact h2
  · intro X Y hX
    apply hmono
    by_cases e : X = i
    · subst e
      rw [act_self] at hX
      obtain ⟨⟨q0, h1, h2⟩, _⟩ := f.joining _ hX
      rcases h2 with rfl | ⟨n, h2, h3⟩
      · exact h.pend _ _ h1
      · cases h3
        exact h.req _ _ (hrec _ h2)
    · rw [act_other _ _ _ e] at hX; exact h.pend _ _ hX
  · intro Y l hY
    by_cases e : Y = i
    · subst e
      rw [act_self] at hY
      rcases f.starting _ hY with rfl | ⟨l0, h1, h2⟩
      · exact ⟨List.nodup_nil, by simp⟩
      · obtain ⟨a1, a2⟩ := h.acked _ _ h1
        rcases h2 with rfl | ⟨n, h2, rfl⟩
        · exact ⟨a1, fun X hX => hmono _ _ (a2 X hX)⟩
        · refine ⟨nodup_setInsert a1, ?_⟩
          intro X hX
          rcases mem_setInsert.1 hX with hX | rfl
          · exact hmono _ _ (a2 X hX)
          · exact hmono _ _ (h.ack _ _ (hrec _ h2))
    · rw [act_other _ _ _ e] at hY ⊢
      exact h.acked Y l hY
  · intro X p hX
    by_cases e : X = i
    · subst e
      rw [act_self] at hX
      obtain ⟨⟨q0, h1, _⟩, h2, _⟩ := f.joining _ hX
      obtain ⟨b1, b2⟩ := h.quiet _ _ h1
      refine ⟨?_, ?_⟩
      · intro Y
        constructor
        · intro hm
          rcases (act_net ..).1 hm with hm | hm
          · exact (b1 Y).1 (hsub _ hm)
          · exact h2 _ _ hm
        · intro hm
          rcases (act_net ..).1 hm with hm | hm
          · exact (b1 Y).2 (hsub _ hm)
          · exact h2 _ _ hm
      · intro Y l hY
        by_cases e' : Y = X
        · subst e'
          rw [act_self, hX] at hY
          cases hY
        · rw [act_other _ _ _ e'] at hY
          exact b2 Y l hY
    · rw [act_other _ _ _ e] at hX
      obtain ⟨b1, b2⟩ := h.quiet _ _ hX
      refine ⟨?_, ?_⟩
      · intro Y
        constructor
        · intro hm
          rcases (act_net ..).1 hm with hm | hm
          · exact (b1 Y).1 (hsub _ hm)
          · have := (f.acks _ _ hm).1
            rw [hself] at this
            exact e this
        · intro hm
          rcases (act_net ..).1 hm with hm | hm
          · exact (b1 Y).2 (hsub _ hm)
          · have := (f.reqs _ _ hm).1
            rw [hself] at this
            exact e this
      · intro Y l hY
        by_cases e' : Y = i
        · subst e'
          rw [act_self] at hY
          rcases f.starting _ hY with rfl | ⟨l0, h1, h2⟩
          · simp
          · rcases h2 with rfl | ⟨n, h2, rfl⟩
            · exact b2 _ _ h1
            · intro hX'
              rcases mem_setInsert.1 hX' with hX' | rfl
              · exact b2 _ _ h1 hX'
              · exact (b1 _).1 (hrec _ h2)
        · rw [act_other _ _ _ e'] at hY
          exact b2 Y l hY

/-! ### A manager that waits for an answer that does not come -/

/-- `X` wants to start and waits for `Y`, which will never answer: there is neither a request nor an
acknowledgement under way between them, and `Y` does not keep a request of `X` for later. -/
structure Hangs (w : Cl) (X Y : Nat) : Prop where
  start : ∃ l, (w.mgr X).st = .starting l ∧ Y ∉ l
  knows : Y ∈ (w.mgr X).managers
  starts : (w.mgr X).starts = 0
  results : (w.mgr X).results = []
  ack : (X, MMsg.ack Y) ∉ w.net
  req : (Y, MMsg.request X) ∉ w.net
  pend : (w.mgr Y).st ≠ .joining (some X)

/-- `Z` knows `X`, has no acknowledgement of it, and starts nothing. -/
structure Waits (w : Cl) (X Z : Nat) : Prop where
  start : ∀ l, (w.mgr Z).st = .starting l → X ∉ l
  knows : X ∈ (w.mgr Z).managers
  starts : (w.mgr Z).starts = 0
  ack : (Z, MMsg.ack X) ∉ w.net

/-- lists without repetition, one within the other, are of the same length only if they have the same members. -/
theorem full_list {l ms : List Nat} (h1 : l.Nodup) (h2 : ∀ x ∈ l, x ∈ ms) {y : Nat} (hy : y ∈ ms)
    (hlen : l.length = ms.length) : y ∈ l := by
  refine Decidable.byContradiction fun hn => ?_
  have hnd : (y :: l).Nodup := List.nodup_cons.2 ⟨hn, h1⟩
  have hsub : (y :: l).Subset ms := by
    intro x hx
    rcases List.mem_cons.1 hx with rfl | hx
    · exact hy
    · exact h2 x hx
  have := List.Nodup.length_le_of_subset hnd hsub
  simp only [List.length_cons] at this
  omega

theorem Waits.act {w : Cl} (hb : Books w) {X Z : Nat} (h : Waits w X Z) {net0 : List (Nat × MMsg)} {i : Nat} {op : MOp}
    (hop : plain op = true) (hsub : ∀ x ∈ net0, x ∈ w.net) (hrec : ∀ m, op = .recv m → (i, m) ∈ w.net)
    (hmute : ∀ n, i = X → .send n (.ack X) ∉ ((w.mgr i).step (fun _ => true) op).2) :
    Waits (Joint.act w net0 i op) X Z ∧ ((Joint.act w net0 i op).mgr Z).fresh = (w.mgr Z).fresh := by
  have hb' := hb.act (net0 := net0) hop hsub hrec
  have f := facts (hb.nodup i) hop
  have hack : (Z, MMsg.ack X) ∉ (Joint.act w net0 i op).net := by
    intro hm
    rcases (act_net ..).1 hm with hm | hm
    · exact h.ack (hsub _ hm)
    · have := (f.acks _ _ hm).1
      rw [hb.self i] at this
      exact hmute _ this.symm hm
  by_cases e : Z = i
  · subst e
    have hst : ∀ l, ((Joint.act w net0 Z op).mgr Z).st = .starting l → X ∉ l := by
      intro l hl
      rw [act_self] at hl
      rcases f.starting _ hl with rfl | ⟨l0, h1, h2⟩
      · simp
      · rcases h2 with rfl | ⟨n, h2, rfl⟩
        · exact h.start _ h1
        · intro hX
          rcases mem_setInsert.1 hX with hX | rfl
          · exact h.start _ h1 hX
          · exact h.ack (hrec _ h2)
    have hk : X ∈ ((Joint.act w net0 Z op).mgr Z).managers := by rw [act_self]; exact f.mono _ h.knows
    refine ⟨⟨hst, hk, ?_, hack⟩, ?_⟩
    · rcases f.starts with h1 | ⟨l, h1, h2⟩
      · rw [act_self]
        have := h.starts
        omega
      · rw [act_self] at hst
        have hb2 := hb'.acked Z l (by rw [act_self]; exact h1)
        rw [act_self] at hb2 hk
        exact absurd (full_list hb2.1 hb2.2 hk h2) (hst l h1)
    · rw [act_self]
      rcases f.fresh with h1 | ⟨_, h1⟩
      · exact h1
      · rw [h.starts] at h1; omega
  · rw [act_other _ _ _ e]
    exact ⟨⟨by rw [act_other _ _ _ e]; exact h.start, by rw [act_other _ _ _ e]; exact h.knows,
      by rw [act_other _ _ _ e]; exact h.starts, hack⟩, rfl⟩

/-- a manager that hangs sends no acknowledgement. -/
theorem Hangs.mute {w : Cl} (hb : Books w) {X Y : Nat} (h : Hangs w X Y) {op : MOp} (hop : plain op = true) (n s : Nat) :
    .send n (.ack s) ∉ ((w.mgr X).step (fun _ => true) op).2 := by
  intro hm
  obtain ⟨l, hl, _⟩ := h.start
  obtain ⟨_, _, h3⟩ := (facts (hb.nodup X) hop).acks _ _ hm
  rw [hl] at h3
  rcases h3 with ⟨_, h3, _⟩ | ⟨h3, _⟩
  · simp [MState.isRunning] at h3
  · cases h3

theorem Hangs.act {w : Cl} (hb : Books w) {X Y : Nat} (h : Hangs w X Y) {net0 : List (Nat × MMsg)} {i : Nat} {op : MOp}
    (hop : plain op = true) (hsub : ∀ x ∈ net0, x ∈ w.net) (hrec : ∀ m, op = .recv m → (i, m) ∈ w.net)
    (hup : i = X → ∀ l ms, op ≠ .memberUp l ms) :
    Hangs (Joint.act w net0 i op) X Y ∧ ((Joint.act w net0 i op).mgr X).fresh = (w.mgr X).fresh := by
  have hb' := hb.act (net0 := net0) hop hsub hrec
  have f := facts (hb.nodup i) hop
  obtain ⟨l0, hl0, hY0⟩ := h.start
  have hXY : X ≠ Y := by
    intro e; subst e; exact hb.notself _ h.knows
  have hack : (X, MMsg.ack Y) ∉ (Joint.act w net0 i op).net := by
    intro hm
    rcases (act_net ..).1 hm with hm | hm
    · exact h.ack (hsub _ hm)
    · obtain ⟨h1, _, h3⟩ := f.acks _ _ hm
      rw [hb.self i] at h1
      subst h1
      rcases h3 with ⟨h3, _⟩ | ⟨h3, _⟩
      · exact h.req (hrec _ h3)
      · exact h.pend h3
  have hreq : (Y, MMsg.request X) ∉ (Joint.act w net0 i op).net := by
    intro hm
    rcases (act_net ..).1 hm with hm | hm
    · exact h.req (hsub _ hm)
    · obtain ⟨h1, _, _, h4⟩ := f.reqs _ _ hm
      rw [hb.self i] at h1
      subst h1
      exact h4 ⟨l0, hl0⟩ (hup rfl) h.knows
  have hpend : ((Joint.act w net0 i op).mgr Y).st ≠ .joining (some X) := by
    intro hj
    by_cases e : Y = i
    · subst e
      rw [act_self] at hj
      obtain ⟨⟨q0, h1, h2⟩, _⟩ := f.joining _ hj
      rcases h2 with rfl | ⟨n, h2, h3⟩
      · exact h.pend h1
      · cases h3
        exact h.req (hrec _ h2)
    · rw [act_other _ _ _ e] at hj; exact h.pend hj
  by_cases e : X = i
  · subst e
    have hne : ∀ a, op = .started a → (Joint.act w net0 X op).mgr X = w.mgr X := by
      intro a ha
      subst ha
      rw [act_self]
      simp only [Mgr.step, h.results]
      simp
    by_cases ha : ∃ a, op = .started a
    · obtain ⟨a, ha⟩ := ha
      have := hne a ha
      refine ⟨⟨?_, ?_, ?_, ?_, hack, hreq, hpend⟩, ?_⟩ <;> rw [this]
      · exact ⟨l0, hl0, hY0⟩
      · exact h.knows
      · exact h.starts
      · exact h.results
    · obtain ⟨l, hl, hor⟩ := f.stays l0 hl0 (fun a e => ha ⟨a, e⟩) (hup rfl)
      have hYl : Y ∉ l := by
        rcases hor with rfl | ⟨n, hn, rfl⟩
        · exact hY0
        · intro hy
          rcases mem_setInsert.1 hy with hy | rfl
          · exact hY0 hy
          · exact h.ack (hrec _ hn)
      have hk : Y ∈ ((Joint.act w net0 X op).mgr X).managers := by rw [act_self]; exact f.mono _ h.knows
      refine ⟨⟨⟨l, by rw [act_self]; exact hl, hYl⟩, hk, ?_, ?_, hack, hreq, hpend⟩, ?_⟩
      · rcases f.starts with h1 | ⟨l', h1, h2⟩
        · rw [act_self]
          have := h.starts
          omega
        · rw [hl] at h1
          cases h1
          have hb2 := hb'.acked X l (by rw [act_self]; exact hl)
          rw [act_self] at hb2 hk
          exact absurd (full_list hb2.1 hb2.2 hk h2) hYl
      · rw [act_self]
        rw [List.eq_nil_iff_forall_not_mem]
        intro a ha
        rcases f.results a ha with h1 | h1
        · rw [h.results] at h1; simp at h1
        · rw [h.starts] at h1; omega
      · rw [act_self]
        rcases f.fresh with h1 | ⟨_, h1⟩
        · exact h1
        · rw [h.starts] at h1; omega
  · rw [act_other _ _ _ e]
    exact ⟨⟨by rw [act_other _ _ _ e]; exact h.start, by rw [act_other _ _ _ e]; exact h.knows,
      by rw [act_other _ _ _ e]; exact h.starts, by rw [act_other _ _ _ e]; exact h.results, hack, hreq, hpend⟩, rfl⟩

end Verif.Singleton.Joint
