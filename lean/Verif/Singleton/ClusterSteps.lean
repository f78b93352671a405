import Verif.Singleton.ClusterLemmas

/-! # Leases in a cluster: the steps keep the invariant -/

namespace Verif.Singleton

variable {nodes : List Nat} {w : Cl}

theorem starting_of {s : MState} (h : s.isStarting = true) : ∃ l, s = .starting l := by
  cases s <;> simp_all [MState.isStarting]

/-- only the instances of a manager change. -/
theorem Inv.inst (h : Inv nodes w) {d : Nat} {σ : Mgr} (hd : d ∈ nodes) (hs : σ.self = (w.mgr d).self) (hst : σ.st = (w.mgr d).st)
    (hm : σ.managers = (w.mgr d).managers) (k1 : σ.live.length + σ.ended.length ≤ 1) (k2 : σ.starts + σ.results.length ≤ 1)
    (k2' : 0 < σ.starts + σ.results.length → (w.mgr d).complete) (k3 : 0 < σ.starts → ¬ σ.busy)
    (hb : σ.busy → (w.mgr d).busy ∨ (w.mgr d).complete)
    (hb' : σ.busy → σ.results = [] → (w.mgr d).busy ∧ (w.mgr d).results = []) : Inv nodes (w.upd d σ) := by
  have f := h.fits d
  have hcomp : σ.complete ↔ (w.mgr d).complete := by unfold Mgr.complete; rw [hst, hm]
  refine h.upd ⟨hs.trans f.self, hm ▸ f.nodup, hm ▸ f.known, ?_, by rw [hst]; exact f.held, by rw [hst]; exact f.ackd,
    by rw [hst]; exact f.tokOut, by rw [hst]; exact f.tokIn, fun _ => hd, k1, k2, fun e => hcomp.2 (k2' e), k3, ?_, ?_,
    by rw [hst]; exact f.stays, ?_, by rw [hst]; exact f.k6', by rw [hst]; exact f.k7⟩
  · rw [hst, hm]; exact f.all
  · rw [hst]; intro e hbu
    rcases hb hbu with hbu | hc
    · exact f.k4 e hbu
    · have := hc.1
      cases hx : (w.mgr d).st <;> simp_all [MState.isStarting, MState.isJoining]
  · rw [hst]; intro h1 h2 h3
    obtain ⟨h4, h5⟩ := hb' h1 h3
    exact f.k5 h4 h2 h5
  · intro e
    refine f.k6 ?_
    rcases e with e | e
    · exact hb e
    · exact .inr (hcomp.1 e)

/-- a manager completing its acknowledgements has no instance left. -/
theorem Inv.notBusy (h : Inv nodes w) {d : Nat}
    (hr : (w.mgr d).results = []) (hnr : ∀ a, (w.mgr d).st ≠ .running a)
    (hl : ∀ n ∈ nodes, n ≠ d → (w.mgr n).st.isStarting = true → w.Granted n d) : ¬ (w.mgr d).busy := by
  intro hb
  obtain ⟨B, hB, hne, hs, hg⟩ := h.k5 d hb hnr hr
  exact hg (hl B hB hne hs)

/-- an announcement of a member. -/
theorem Inv.addManager (h : Inv nodes w) {d n : Nat} (hn : n ∈ nodes) (hd : d ∈ nodes) (hne : n ≠ d)
    (hnew : n ∉ (w.mgr d).managers) : Inv nodes (w.upd d { w.mgr d with managers := (w.mgr d).managers ++ [n] }) ∧
      (w.mgr d).st.isJoining = true := by
  have hj : (w.mgr d).st.isJoining = true := by
    rcases hx : (w.mgr d).st.isJoining with _ | _
    · exact absurd (h.all d hd hx n hn hne) hnew
    · rfl
  have hns : (w.mgr d).st.isStarting = false := by cases hx : (w.mgr d).st <;> simp_all [MState.isStarting, MState.isJoining]
  have hz : (w.mgr d).starts + (w.mgr d).results.length = 0 := by
    rcases Nat.eq_zero_or_pos ((w.mgr d).starts + (w.mgr d).results.length) with e | e
    · exact e
    · have := (h.k2' d e).1; simp [hns] at this
  have f := h.fits d
  refine ⟨h.upd ⟨f.self, ?_, ?_, ?_, f.held, f.ackd, f.tokOut, f.tokIn, f.mem, f.k1, f.k2, ?_, f.k3, f.k4, f.k5, f.stays, ?_,
    f.k6', f.k7⟩, hj⟩
  · rw [List.nodup_append]
    refine ⟨f.nodup, by simp, ?_⟩
    intro a ha b hb
    simp only [List.mem_singleton] at hb
    subst hb
    rintro rfl
    exact hnew ha
  · intro a ha
    rcases List.mem_append.1 ha with ha | ha
    · exact f.known a ha
    · simp only [List.mem_singleton] at ha
      subst ha; exact ⟨hn, hne⟩
  · intro _ hj'; simp only [hj] at hj'; simp at hj'
  · intro e; dsimp only at e; omega
  · rintro (e | e)
    · exact f.k6 (.inl e)
    · have := e.1; simp [hns] at this

/-- a manager that is not starting remembers a request. -/
theorem Inv.hold' (h : Inv nodes w) {d X : Nat} {st : MState} (hd : d ∈ nodes) (hX : X ∈ nodes) (hne : X ≠ d)
    (hs : (w.mgr X).st.isStarting = true) (ht : w.tok X d = 0)
    (hst : (∃ p, (w.mgr d).st = .joining p ∧ st = .joining (some X)) ∨
      ∃ a, (w.mgr d).st = .running a ∧ st = .stopping a X) : Inv nodes (w.upd d { w.mgr d with st := st }) := by
  have hns : (w.mgr d).st.isStarting = false := by rcases hst with ⟨p, e, _⟩ | ⟨a, e, _⟩ <;> simp [e, MState.isStarting]
  have hns' : st.isStarting = false := by rcases hst with ⟨p, _, rfl⟩ | ⟨a, _, rfl⟩ <;> simp [MState.isStarting]
  have hak : st.acked = [] := by rcases hst with ⟨p, _, rfl⟩ | ⟨a, _, rfl⟩ <;> simp [MState.acked]
  have hho : ∀ s, st.holds s = if s = X then 1 else 0 := by
    intro s
    rcases hst with ⟨p, _, rfl⟩ | ⟨a, _, rfl⟩ <;> simp [MState.holds, eq_comm]
  have hz : (w.mgr d).starts + (w.mgr d).results.length = 0 := by
    rcases Nat.eq_zero_or_pos ((w.mgr d).starts + (w.mgr d).results.length) with e | e
    · exact e
    · have := (h.k2' d e).1; simp [hns] at this
  have f := h.fits d
  refine h.upd ⟨f.self, f.nodup, f.known, ?_, ?_, ?_, ?_, ?_, f.mem, f.k1, f.k2, ?_, f.k3, ?_, ?_, ?_, ?_, ?_, ?_⟩
  · intro _ hj
    refine f.all hd ?_
    rcases hst with ⟨p, e, rfl⟩ | ⟨a, e, rfl⟩
    · simp [MState.isJoining] at hj
    · simp [e, MState.isJoining]
  · intro s hs'
    dsimp only at hs'
    rw [hho] at hs'
    by_cases e : s = X
    · subst e; exact ⟨hd, hX, hne⟩
    · simp [e] at hs'
  · dsimp only; rw [hak]; simp
  · intro Y hY
    dsimp only
    rw [hak]
    have := h.tokZero hns Y
    unfold Cl.tok at this
    simp only [List.count_nil]
    omega
  · intro A hA
    dsimp only
    rw [hho]
    by_cases e : A = X
    · subst e
      have h1 : (w.mgr A).st.one = 1 := by simp [MState.one, hs]
      unfold Cl.tok at ht
      simp only [if_true]
      omega
    · rw [if_neg e]
      have := h.tok A d
      unfold Cl.tok at this
      omega
  · intro e; dsimp only at e; omega
  · intro e
    rcases hst with ⟨p, e', rfl⟩ | ⟨a, e', rfl⟩
    · exact f.k4 (.inl (by simp [e', MState.isJoining]))
    · simp [MState.isJoining] at e
  · intro h1 h2 h3
    refine ⟨X, hX, hne, hs, ?_, by dsimp only; rw [hak]; simp⟩
    intro e
    have := (h.ack e).1
    simp [hns] at this
  · intro _ _ _ e; simp [hns] at e
  · rintro (e | e) Y _
    · exact h.k6 d (.inl e) Y
    · have := e.1; simp [hns'] at this
  · dsimp only; rw [hak]; simp
  · dsimp only; rw [hak]; simp

/-- a manager becomes idle. -/
theorem Inv.idle (h : Inv nodes w) {d : Nat} {ms : List Nat} (hns : (w.mgr d).st.isStarting = false)
    (hb : ¬ (w.mgr d).busy) (hn : ms.Nodup) (hk : ∀ n ∈ ms, n ∈ nodes ∧ n ≠ d)
    (hall : d ∈ nodes → ∀ n ∈ nodes, n ≠ d → n ∈ ms) :
    Inv nodes (w.upd d { w.mgr d with st := .idle, managers := ms }) ∧
      ∀ X, Cl.tok (w.upd d { w.mgr d with st := .idle, managers := ms }) X d + (w.mgr d).st.holds X = w.tok X d := by
  have hz : (w.mgr d).starts + (w.mgr d).results.length = 0 := by
    rcases Nat.eq_zero_or_pos ((w.mgr d).starts + (w.mgr d).results.length) with e | e
    · exact e
    · have := (h.k2' d e).1; simp [hns] at this
  have f := h.fits d
  refine ⟨h.upd ⟨f.self, hn, hk, ?_, ?_, ?_, ?_, ?_, f.mem, f.k1, f.k2, ?_, f.k3, ?_, ?_, ?_, ?_, ?_, ?_⟩, ?_⟩
  · exact fun hd _ => hall hd
  · intro s e; simp [MState.holds] at e
  · simp [MState.acked]
  · intro Y hY
    have := h.tokZero hns Y
    unfold Cl.tok at this
    simp only [MState.acked, List.count_nil]
    omega
  · intro X hX
    have := h.tok X d
    unfold Cl.tok at this
    simp only [MState.holds]
    omega
  · intro e; dsimp only at e; omega
  · exact fun _ => hb
  · exact fun e => absurd e hb
  · intro _ _ _ e; simp [hns] at e
  · rintro (e | e)
    · exact absurd e hb
    · have := e.1; simp [MState.isStarting] at this
  · simp [MState.acked]
  · simp [MState.acked]
  · intro X
    unfold Cl.tok
    rw [Cl.upd_net, Cl.upd_self]
    by_cases e : X = d
    · subst e
      have h0 : (w.mgr X).st.acked = [] := by
        cases hx : (w.mgr X).st <;> simp_all [MState.isStarting, MState.acked]
      rw [Cl.upd_self, h0]
      simp only [MState.holds, MState.acked, List.count_nil]
      omega
    · rw [Cl.upd_other _ _ e]
      simp only [MState.holds]
      omega

/-- the requests a manager sends when it begins to take over. -/
def requests (d : Nat) (ms : List Nat) : List (Nat × MMsg) := ms.map fun n => (n, .request d)

theorem count_requests {d : Nat} {ms : List Nat} (hn : ms.Nodup) (X Y : Nat) :
    (requests d ms).count (Y, .request X) = if X = d ∧ Y ∈ ms then 1 else 0 := by
  induction ms with
  | nil => simp [requests]
  | cons m ms ih =>
    rw [List.nodup_cons] at hn
    have hc : requests d (m :: ms) = (m, MMsg.request d) :: requests d ms := rfl
    rw [hc, List.count_cons, ih hn.2]
    by_cases h1 : X = d
    · subst h1
      by_cases h2 : Y = m
      · subst h2
        simp [hn.1]
      · have : ((m, MMsg.request X) == (Y, MMsg.request X)) = false := by
          simpa using fun e => h2 (e.symm)
        simp [this, h2]
    · have : ((m, MMsg.request d) == (Y, MMsg.request X)) = false := by
        simp only [beq_eq_false_iff_ne, ne_eq, Prod.mk.injEq, MMsg.request.injEq, not_and]
        exact fun _ e => h1 e.symm
      simp [this, h1]

theorem count_requests_ack {d : Nat} (ms : List Nat) (x : Nat × Nat) : (requests d ms).count (x.1, .ack x.2) = 0 := by
  rw [List.count_eq_zero]
  intro e
  simp [requests] at e

/-- the manager at the beginning of a takeover. -/
def Mgr.begun (σ : Mgr) (k : Nat) : Mgr := { σ with st := .starting [], starts := σ.starts + k }

/-- messages are sent. -/
def Cl.tell (w : Cl) (l : List (Nat × MMsg)) : Cl := { w with net := w.net ++ l }

/-- A manager begins to take over. -/
theorem Inv.begin (h : Inv nodes w) {d k : Nat} (hd : d ∈ nodes) (hns : (w.mgr d).st.isStarting = false)
    (hnr : ∀ a, (w.mgr d).st ≠ .running a) (hj : (w.mgr d).st.isJoining = false)
    (hk : k = if (w.mgr d).managers.length = 0 then 1 else 0) :
    Inv nodes ((w.upd d ((w.mgr d).begun k)).tell (requests d (w.mgr d).managers)) := by
  have hz : (w.mgr d).starts + (w.mgr d).results.length = 0 := by
    rcases Nat.eq_zero_or_pos ((w.mgr d).starts + (w.mgr d).results.length) with e | e
    · exact e
    · have := (h.k2' d e).1; simp [hns] at this
  have hms : ∀ n, n ∈ nodes → n ≠ d → n ∈ (w.mgr d).managers := h.all d hd hj
  have hempty : (w.mgr d).managers.length = 0 → ∀ n ∈ nodes, n = d := by
    intro e n hn
    by_cases hne : n = d
    · exact hne
    · have := hms n hn hne
      rw [List.length_eq_zero_iff.1 e] at this; simp at this
  have hngd := h.notGranted hns
  have f := h.fits d
  -- first the state, then the requests
  have h1 : Inv nodes (w.upd d ((w.mgr d).begun k)) := by
    refine h.upd ⟨f.self, f.nodup, f.known, fun hd _ => f.all hd hj, ?_, ?_, ?_, ?_, f.mem, f.k1, ?_, ?_, ?_, ?_, ?_, ?_, ?_, ?_, ?_⟩
    · intro s e; simp [Mgr.begun, MState.holds] at e
    · simp [Mgr.begun, MState.acked]
    · intro Y hY
      have := h.tokZero hns Y
      unfold Cl.tok at this
      simp only [Mgr.begun, MState.acked, List.count_nil]
      omega
    · intro X hX
      have := h.tok X d
      unfold Cl.tok at this
      simp only [Mgr.begun, MState.holds]
      omega
    · dsimp only [Mgr.begun]; subst hk; split <;> omega
    · intro e
      dsimp only [Mgr.begun] at e
      refine ⟨rfl, ?_⟩
      dsimp only [Mgr.begun]
      subst hk
      split at e
      · rename_i h0
        rw [List.length_eq_zero_iff.1 h0]; simp
      · omega
    · intro e hb
      dsimp only [Mgr.begun] at e
      subst hk
      split at e
      · rename_i h0
        obtain ⟨B, hB, hne, _⟩ := h.k5 d hb hnr (by
          rw [← List.length_eq_zero_iff]; omega)
        exact hne (hempty h0 B hB)
      · omega
    · rintro (e | e) <;> simp [Mgr.begun, MState.isJoining] at e
    · intro h1 _ h3
      obtain ⟨B, hB, hne, hs, hg⟩ := h.k5 d h1 hnr h3
      exact ⟨B, hB, hne, hs, fun e => hg (.inl e), by simp [Mgr.begun, MState.acked]⟩
    · intro _ _ _ e; simp [hns] at e
    · rintro (e | e) Y hY hg
      · exact h.k6 d (.inl e) Y hg
      · have hc := e.2
        dsimp only [Mgr.begun, MState.acked] at hc
        have h0 : (w.mgr d).managers = [] := List.eq_nil_iff_forall_not_mem.2 fun x hx => by
          have := hc x hx; simp at this
        have hYn : Y ∈ nodes := by
          rcases hg with hg | hg
          · exact (h.src _ _ _ hg rfl).1
          · exact (h.ackd _ _ hg).1
        exact hY (hempty (by simp [h0]) Y hYn)
    · simp [Mgr.begun, MState.acked]
    · simp [Mgr.begun, MState.acked]
  have hgr : ∀ X Y, ((w.upd d ((w.mgr d).begun k)).tell (requests d (w.mgr d).managers)).Granted X Y →
      (w.upd d ((w.mgr d).begun k)).Granted X Y := by
    rintro X Y (e | e)
    · rcases List.mem_append.1 e with e | e
      · exact .inl e
      · simp [requests] at e
    · exact .inr e
  refine ⟨h1.self, h1.nodup, h1.known, h1.all, ?_, h1.held, h1.ackd, ?_, h1.mem, h1.k1, h1.k2, h1.k2', h1.k3, h1.k4, ?_, ?_, ?_⟩
  · intro e m s hm hs
    rcases List.mem_append.1 hm with hm | hm
    · exact h.src e m s hm hs
    · simp only [requests, List.mem_map, Prod.mk.injEq] at hm
      obtain ⟨n, hn, rfl, rfl⟩ := hm
      simp only [MMsg.src?, Option.some.injEq] at hs
      subst hs
      exact ⟨(f.known n hn).1, hd, (f.known n hn).2.symm⟩
  · intro X Y
    have ht := h1.tok X Y
    have hnet : ((w.upd d ((w.mgr d).begun k)).tell (requests d (w.mgr d).managers)).net =
      w.net ++ requests d (w.mgr d).managers := rfl
    have hmgr : ((w.upd d ((w.mgr d).begun k)).tell (requests d (w.mgr d).managers)).mgr =
      (w.upd d ((w.mgr d).begun k)).mgr := rfl
    unfold Cl.tok at ht ⊢
    rw [hnet, hmgr]
    rw [List.count_append, List.count_append, count_requests f.nodup, count_requests_ack _ (X, Y)]
    rw [Cl.upd_net] at ht
    by_cases hX : X = d ∧ Y ∈ (w.mgr d).managers
    · obtain ⟨rfl, hY⟩ := hX
      rw [if_pos ⟨rfl, hY⟩]
      have hz' := h.tokZero hns Y
      unfold Cl.tok at hz'
      have hYd : Y ≠ X := (f.known Y hY).2
      rw [Cl.upd_self, Cl.upd_other _ _ hYd]
      simp only [Mgr.begun, MState.acked, List.count_nil, MState.one, MState.isStarting, if_true]
      omega
    · rw [if_neg hX]
      simp only [Nat.add_zero]
      exact ht
  · intro e h1' h2' h3'
    obtain ⟨B, hB, hne', hs', hng'⟩ := h1.k5 e h1' h2' h3'
    exact ⟨B, hB, hne', hs', fun hx => hng' (hgr _ _ hx)⟩
  · exact fun A hA B hx => h1.k6 A hA B (hgr _ _ hx)
  · exact fun A B e => h1.k7 A B ⟨hgr _ _ e.1, hgr _ _ e.2⟩

theorem subset_of_length {l m : List Nat} (hl : l.Nodup) (hs : ∀ x ∈ l, x ∈ m) (hlen : m.length ≤ l.length) :
    ∀ x ∈ m, x ∈ l := by
  induction l generalizing m with
  | nil =>
    intro x hx
    have h0 : m = [] := List.length_eq_zero_iff.1 (by simpa using hlen)
    rw [h0] at hx; exact hx
  | cons a l ih =>
    rw [List.nodup_cons] at hl
    have ha : a ∈ m := hs a (by simp)
    intro x hx
    by_cases hxa : x = a
    · simp [hxa]
    · have : x ∈ m.erase a := (List.mem_erase_of_ne hxa).2 hx
      refine List.mem_cons_of_mem _ (ih (m := m.erase a) hl.2 ?_ ?_ x this)
      · intro y hy
        have hne : y ≠ a := by rintro rfl; exact hl.1 hy
        exact (List.mem_erase_of_ne hne).2 (hs y (List.mem_cons_of_mem _ hy))
      · rw [List.length_erase_of_mem ha]
        simp only [List.length_cons] at hlen
        omega

theorem Cl.upd_upd (w : Cl) (d : Nat) (σ τ : Mgr) : (w.upd d σ).upd d τ = w.upd d τ := by
  simp only [Cl.upd, Cl.mk.injEq, and_true]
  funext n
  simp only [Cl.setMgr]
  split <;> rfl

/-- a node knows every other node that gave it its lease. -/
theorem Inv.granted_mem (h : Inv nodes w) {X Y : Nat} (hg : w.Granted X Y) : X ∈ nodes ∧ Y ∈ nodes ∧ X ≠ Y := by
  rcases hg with hg | hg
  · exact ⟨(h.src _ _ _ hg rfl).2.1, (h.src _ _ _ hg rfl).1, (h.src _ _ _ hg rfl).2.2⟩
  · exact ⟨(h.ackd _ _ hg).2.1, (h.ackd _ _ hg).1, (h.ackd _ _ hg).2.2⟩

/-- An acknowledgement is handled. -/
theorem Inv.acked (h : Inv nodes w) {d Y : Nat} (hm : (d, MMsg.ack Y) ∈ w.net) :
    Inv nodes (Cl.upd { w with net := w.net.erase (d, .ack Y) } d ((w.mgr d).onAck Y)) := by
  obtain ⟨hs, hr0, hh0, ha1, hc0⟩ := h.ack hm
  have hG : w.Granted Y d := .inl hm
  obtain ⟨hYn, hdn, hYd⟩ := h.granted_mem hG
  obtain ⟨l, hl⟩ := starting_of hs
  have hacked : (w.mgr d).st.acked = l := by rw [hl]; rfl
  rw [hacked] at hc0
  have hYl : Y ∉ l := List.count_eq_zero.1 hc0
  have hjoin : (w.mgr d).st.isJoining = false := by rw [hl]; rfl
  have hms := h.all d hdn hjoin
  have f := h.fits d
  have hz : (w.mgr d).starts + (w.mgr d).results.length = 0 := by
    rcases Nat.eq_zero_or_pos ((w.mgr d).starts + (w.mgr d).results.length) with e | e
    · exact e
    · have := (h.k2' d e).2 Y (hms Y hYn hYd)
      rw [hacked] at this
      exact absurd this hYl
  have hres : (w.mgr d).results = [] := by rw [← List.length_eq_zero_iff]; omega
  have hnr : ∀ a, (w.mgr d).st ≠ .running a := by rw [hl]; simp
  have hl' : ∀ s ∈ l, s ∈ nodes ∧ s ≠ d := by
    intro s hs'
    have := h.ackd d s (by rw [hacked]; exact hs')
    exact this.2
  have hnodup : (l ++ [Y]).Nodup := by
    rw [List.nodup_append]
    refine ⟨?_, by simp, ?_⟩
    · rw [List.nodup_iff_count]
      intro a
      have := h.tok d a
      unfold Cl.tok at this
      rw [hacked] at this
      have h2 := (w.mgr d).st.one_le
      omega
    · intro a ha b hb
      simp only [List.mem_singleton] at hb
      subst hb
      rintro rfl
      exact hYl ha
  have hGl : ∀ s ∈ l ++ [Y], w.Granted s d := by
    intro s hs'
    rcases List.mem_append.1 hs' with hs' | hs'
    · exact .inr (by rw [hacked]; exact hs')
    · simp only [List.mem_singleton] at hs'
      subst hs'; exact hG
  have hfull : (l ++ [Y]).length = (w.mgr d).managers.length → ∀ n ∈ (w.mgr d).managers, n ∈ l ++ [Y] := by
    intro e
    refine subset_of_length hnodup ?_ (Nat.le_of_eq e.symm)
    intro x hx
    rcases List.mem_append.1 hx with hx | hx
    · exact hms x (hl' x hx).1 (hl' x hx).2
    · simp only [List.mem_singleton] at hx
      subst hx; exact hms x hYn hYd
  -- nothing is left of an earlier instance when all have acknowledged
  have hfree : (∀ n ∈ (w.mgr d).managers, n ∈ l ++ [Y]) → ¬ (w.mgr d).busy := by
    intro e
    refine h.notBusy hres hnr ?_
    intro n hn hne _
    exact hGl n (e n (hms n hn hne))
  have h0 : Inv nodes { w with net := w.net.erase (d, .ack Y) } := h.shrink List.erase_sublist
  have hg0 : ∀ A B, Cl.Granted { w with net := w.net.erase (d, .ack Y) } A B → w.Granted A B := by
    rintro A B (e | e)
    · exact .inl (List.mem_of_mem_erase e)
    · exact .inr e
  have hcnt : (w.net.erase (d, MMsg.ack Y)).count (d, .ack Y) = 0 := by
    rw [List.count_erase_self]; omega
  obtain ⟨σ, hσ, e1, e2, e3, e4, e5, e6, e7⟩ : ∃ σ, σ = (w.mgr d).onAck Y ∧ σ.self = d ∧ σ.managers = (w.mgr d).managers ∧
      σ.st = .starting (l ++ [Y]) ∧ σ.results = [] ∧ σ.live = (w.mgr d).live ∧ σ.ended = (w.mgr d).ended ∧
      σ.starts = if (l ++ [Y]).length = (w.mgr d).managers.length then 1 else 0 := by
    refine ⟨_, rfl, ?_⟩
    unfold Mgr.onAck
    rw [hl]
    simp only [setInsert, if_neg hYl, Mgr.checkAcks]
    split
    · exact ⟨h.self d, rfl, rfl, hres, rfl, rfl, by simp only [Mgr.startActor]; omega⟩
    · exact ⟨h.self d, rfl, rfl, hres, rfl, rfl, by dsimp only; omega⟩
  rw [← hσ]
  clear hσ
  have hbusy : σ.busy ↔ (w.mgr d).busy := by unfold Mgr.busy; rw [e5, e6]
  have hcompl : σ.complete → ∀ n ∈ (w.mgr d).managers, n ∈ l ++ [Y] := by
    intro hc n hn
    have := hc.2 n (by rw [e2]; exact hn)
    rw [e3] at this
    exact this
  refine h0.upd ⟨e1, e2 ▸ f.nodup, e2 ▸ f.known, ?_, ?_, ?_, ?_, ?_, fun _ => hdn, ?_, ?_, ?_, ?_, ?_, ?_, ?_, ?_, ?_, ?_⟩
  · intro _ _; rw [e2]; exact hms
  · intro s hs'; rw [e3] at hs'; simp [MState.holds] at hs'
  · rw [e3]
    intro s hs'
    exact ⟨hdn, (h.granted_mem (hGl s hs')).1, (h.granted_mem (hGl s hs')).2.2⟩
  · intro Z hZ
    dsimp only
    rw [e3]
    simp only [MState.acked, MState.one, MState.isStarting, if_true, List.count_append]
    by_cases hZY : Z = Y
    · subst hZY
      have hle : (w.net.erase (d, MMsg.ack Z)).count (Z, .request d) ≤ w.net.count (Z, .request d) :=
        List.erase_sublist.count_le _
      rw [hcnt, hh0, hc0]
      simp only [List.count_singleton_self]
      omega
    · have h1 : List.count Z [Y] = 0 := List.count_eq_zero.2 (by simpa using hZY)
      have h2 := h.tok d Z
      unfold Cl.tok at h2
      rw [hacked] at h2
      have h3 : (w.net.erase (d, MMsg.ack Y)).count (Z, .request d) ≤ w.net.count (Z, .request d) :=
        List.erase_sublist.count_le _
      have h4 : (w.net.erase (d, MMsg.ack Y)).count (d, .ack Z) ≤ w.net.count (d, .ack Z) :=
        List.erase_sublist.count_le _
      have h5 := (w.mgr d).st.one_le
      omega
  · intro X hX
    dsimp only
    rw [e3]
    have h2 := h0.tok X d
    unfold Cl.tok at h2
    simp only [MState.holds]
    dsimp only at h2
    omega
  · rw [e5, e6]; exact h.k1 d
  · rw [e4, e7]; split <;> simp
  · rw [e4, e7]
    intro e
    split at e
    · rename_i hlen
      exact ⟨by rw [e3]; rfl, by rw [e2, e3]; exact hfull hlen⟩
    · simp at e
  · rw [e7, hbusy]
    intro e
    split at e
    · rename_i hlen; exact hfree (hfull hlen)
    · simp at e
  · rw [e3]; intro e; simp [MState.isJoining] at e
  · rw [hbusy]; intro hb _ _
    obtain ⟨B, hB, hne, hsB, hg⟩ := h.k5 d hb hnr hres
    refine ⟨B, hB, hne, hsB, fun e => hg (.inl (List.mem_of_mem_erase e)), ?_⟩
    rw [e3]
    exact fun e => hg (hGl B e)
  · intro _ _ _ _ _; rw [e3]; rfl
  · intro e Z hZ hgZ
    have hgZ := hg0 _ _ hgZ
    rcases e with e | e
    · exact h.k6 d (.inl (hbusy.1 e)) Z hgZ
    · exact h.k7 d Z ⟨hgZ, hGl Z (hcompl e Z (hms Z (h.granted_mem hgZ).2.1 hZ))⟩
  · rw [e3]
    intro X hX
    have hg := hGl X hX
    exact ⟨fun e => h.k6 X (.inl e) d hg, fun e => h.k6 X (.inr e) d hg⟩
  · rw [e3]
    intro X hX e
    exact h.k7 d X ⟨hg0 _ _ e, hGl X hX⟩

/-- The result of a start is handled. -/
theorem Inv.ran (h : Inv nodes w) {d a : Nat} (hd : d ∈ nodes) (ha : a ∈ (w.mgr d).results) :
    Inv nodes (w.upd d { w.mgr d with results := (w.mgr d).results.erase a, st := .running a }) := by
  have hpos : 0 < (w.mgr d).results.length := List.length_pos_of_mem ha
  have h2 := h.k2 d
  have hc := h.k2' d (by omega)
  have hlen : ((w.mgr d).results.erase a).length = 0 := by rw [List.length_erase_of_mem ha]; omega
  obtain ⟨l, hl⟩ := starting_of hc.1
  have hjoin : (w.mgr d).st.isJoining = false := by rw [hl]; rfl
  have hms := h.all d hd hjoin
  have f := h.fits d
  refine h.upd ⟨f.self, f.nodup, f.known, fun _ _ => hms, ?_, ?_, ?_, ?_, f.mem, f.k1, ?_, ?_, ?_, ?_, ?_, ?_, ?_, ?_, ?_⟩
  · intro s e; simp [MState.holds] at e
  · simp [MState.acked]
  · intro Y hY
    simp only [MState.acked, List.count_nil, MState.one, MState.isStarting]
    have ht := h.tok d Y
    have h1 := (w.mgr d).st.one_le
    unfold Cl.tok at ht
    by_cases hYn : Y ∈ nodes
    · have h3 : 0 < (w.mgr d).st.acked.count Y := List.count_pos_iff.2 (hc.2 Y (hms Y hYn hY))
      simp only [Bool.false_eq_true, if_false]
      omega
    · have a1 : w.net.count (Y, MMsg.request d) = 0 := List.count_eq_zero.2 fun e => hYn (h.src _ _ _ e rfl).1
      have a2 : w.net.count (d, MMsg.ack Y) = 0 := List.count_eq_zero.2 fun e => hYn (h.src _ _ _ e rfl).2.1
      have a3 : (w.mgr Y).st.holds d = 0 := by
        rcases Nat.eq_zero_or_pos ((w.mgr Y).st.holds d) with e | e
        · exact e
        · exact absurd (h.held _ _ e).1 hYn
      simp only [Bool.false_eq_true, if_false]
      omega
  · intro X hX
    have := h.tok X d
    unfold Cl.tok at this
    simp only [MState.holds]
    omega
  · dsimp only; omega
  · dsimp only; intro e; omega
  · dsimp only; intro e; omega
  · rintro (e | e) <;> simp [MState.isJoining] at e
  · intro _ e; exact absurd rfl (e a)
  · intro X hX hb _ hg
    exact absurd (.inr (hc.2 X (hms X (h.mem X hb) hX))) hg
  · intro e Y hY
    exact h.k6 d (.inr hc) Y
  · simp [MState.acked]
  · simp [MState.acked]

end Verif.Singleton
