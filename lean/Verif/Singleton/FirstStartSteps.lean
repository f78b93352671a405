import Verif.Singleton.FirstStartLemmas

/-! # The first start of a cluster singleton: the steps -/

namespace Verif.Singleton

variable {nodes : List Nat} {w : Cl} {L : Nat}

/-- `w` with another manager on `d`, other messages, and more of them. -/
def Cl.into (w : Cl) (n : List (Nat × MMsg)) (d : Nat) (σ : Mgr) (l : List (Nat × MMsg)) : Cl :=
  (({ w with net := n }).upd d σ).tell l

theorem into_self (n : List (Nat × MMsg)) (d : Nat) (σ : Mgr) (l : List (Nat × MMsg)) : (w.into n d σ l).mgr d = σ := by
  simp [Cl.into, Cl.upd, Cl.setMgr, Cl.tell]

theorem into_other (n : List (Nat × MMsg)) {d X : Nat} (σ : Mgr) (l : List (Nat × MMsg)) (h : X ≠ d) :
    (w.into n d σ l).mgr X = w.mgr X := by
  simp [Cl.into, Cl.upd, Cl.setMgr, Cl.tell, h]

theorem into_net (n : List (Nat × MMsg)) (d : Nat) (σ : Mgr) (l : List (Nat × MMsg)) : (w.into n d σ l).net = n ++ l := rfl

theorem left_into (hn : nodes.Nodup) (n : List (Nat × MMsg)) {d : Nat} (hd : d ∈ nodes) (hne : d ≠ L) (σ : Mgr) (l : List (Nat × MMsg)) :
    (w.into n d σ l).left nodes L + (w.net.map fun x => x.2.left).sum + (w.mgr d).st.left =
      w.left nodes L + (n.map fun x => x.2.left).sum + (l.map fun x => x.2.left).sum + σ.st.left := by
  have h := sum_map_change (l := followers nodes L) (hn.filter _) (f := fun X => ((w.into n d σ l).mgr X).st.left)
    (g := fun X => (w.mgr X).st.left) (d := d) (mem_followers.2 ⟨hd, hne⟩) fun x _ hx => by
      rw [into_other n σ l hx]
  rw [into_self] at h
  unfold Cl.left
  rw [into_other n σ l hne.symm, into_net, List.map_append, List.sum_append]
  omega

theorem left_lead (n : List (Nat × MMsg)) (σ : Mgr) (l : List (Nat × MMsg)) :
    (w.into n L σ l).left nodes L + (w.net.map fun x => x.2.left).sum + (w.mgr L).leadLeft nodes.length =
      w.left nodes L + (n.map fun x => x.2.left).sum + (l.map fun x => x.2.left).sum + σ.leadLeft nodes.length := by
  have h := sum_map_congr (l := followers nodes L) (f := fun X => ((w.into n L σ l).mgr X).st.left)
    (g := fun X => (w.mgr X).st.left) fun x hx => by
      rw [into_other n σ l (mem_followers.1 hx).2]

  unfold Cl.left
  rw [into_self, into_net, List.map_append, List.sum_append, h]
  omega

theorem Solo.notJoining (_h : Solo nodes L w) {l : List Nat} (hs : (w.mgr L).st = .starting l) : (w.mgr L).st.isJoining = false := by
  rw [hs]; rfl

/-- a manager changes in what does not matter here. -/
theorem Solo.quiet (h : Solo nodes L w) {d : Nat} {σ : Mgr} (hi : Inv nodes (w.into w.net d σ []))
    (hst : σ.st = (w.mgr d).st) (h1 : σ.starts = (w.mgr d).starts) (h2 : σ.results = (w.mgr d).results) (h3 : σ.fresh = (w.mgr d).fresh)
    (hm : (w.mgr d).st.isJoining = false → σ.managers = (w.mgr d).managers) :
    Solo nodes L (w.into w.net d σ []) ∧ (w.into w.net d σ []).left nodes L = w.left nodes L := by
  have hst' : ∀ X, ((w.into w.net d σ []).mgr X).st = (w.mgr X).st := by
    intro X
    by_cases e : X = d
    · subst e; rw [into_self, hst]
    · rw [into_other _ _ _ e]
  have hnet : (w.into w.net d σ []).net = w.net := by rw [into_net, List.append_nil]
  have htok : ∀ A B, (w.into w.net d σ []).tok A B = w.tok A B := by
    intro A B; unfold Cl.tok; rw [hnet, hst', hst']
  have hgr : ∀ A B, (w.into w.net d σ []).Granted A B ↔ w.Granted A B := by
    intro A B; unfold Cl.Granted; rw [hnet, hst']
  refine ⟨⟨hi, ?_, ?_, ?_, ?_, ?_, ?_, ?_⟩, ?_⟩
  · intro X hX
    by_cases e : X = d
    · subst e; rw [into_self]; have := h.oth X hX
      exact ⟨by rw [hst]; exact this.st, by rw [h1]; exact this.starts, by rw [h2]; exact this.results, by rw [h3]; exact this.fresh⟩
    · rw [into_other _ _ _ e]; exact h.oth X hX
  · rw [hnet]; exact h.net
  · by_cases e : L = d
    · subst e
      rw [into_self]
      rcases h.lead with ⟨a, b, c, e⟩ | ⟨l, a, al, b, c, e⟩ | ⟨l, a, al, b, c, e⟩ | ⟨l, a, al, b, c, e⟩ | ⟨a, b, c, e⟩
      · exact .joining (by rw [hst, a]) (by rw [h1, b]) (by rw [h2, c]) (by rw [h3, e])
      · exact .waiting l (by rw [hst, a]) (by rw [hm (h.notJoining a)]; exact al) (by rw [h1, b]) (by rw [h2, c]) (by rw [h3, e])
      · exact .starting l (by rw [hst, a]) (by rw [hm (h.notJoining a)]; exact al) (by rw [h1, b]) (by rw [h2, c]) (by rw [h3, e])
      · exact .booted l (by rw [hst, a]) (by rw [hm (h.notJoining a)]; exact al) (by rw [h1, b]) (by rw [h2, c]) (by rw [h3, e])
      · exact .running (by rw [hst, a]) (by rw [h1, b]) (by rw [h2, c]) (by rw [h3, e])
    · rw [into_other _ _ _ e]; exact h.lead
  · rw [hst', hnet]
    intro hj
    exact ⟨(h.jn hj).1, fun X hX => by rw [hst']; exact (h.jn hj).2 X hX⟩
  · rw [hst']
    intro hs X hX hne
    rw [htok]; exact h.tok hs X hX hne
  · rw [hst']
    intro hs X hX p
    rw [hst']; exact h.up hs X hX p
  · intro X p hX hp
    rw [hst'] at hp
    rw [hgr]
    exact h.nj X p hX hp
  · unfold Cl.left
    rw [hnet]
    have : (fun X => ((w.into w.net d σ []).mgr X).st.left) = fun X => (w.mgr X).st.left := by
      funext X; rw [hst']
    rw [this]
    congr 1
    by_cases e : L = d
    · subst e; rw [into_self]; unfold Mgr.leadLeft; rw [hst, h2]
    · rw [into_other _ _ _ e]

/-- the leader is told that it is up. -/
theorem Solo.leaderUp (h : Solo nodes L w) (hn : nodes.Nodup) (hL : L ∈ nodes) (hst : (w.mgr L).st = .joining none) {ms : List Nat} {k : Nat}
    (hms : ms.Nodup) (hmem : ∀ x, x ∈ ms ↔ x ∈ nodes ∧ x ≠ L) (hk : k = if ms.length = 0 then 1 else 0)
    {σ : Mgr} (hσ : σ = ({ w.mgr L with managers := ms, st := .idle }).begun k)
    (hi : Inv nodes (w.into w.net L σ (requests L ms))) :
    Solo nodes L (w.into w.net L σ (requests L ms)) ∧ (w.into w.net L σ (requests L ms)).left nodes L + 1 = w.left nodes L := by
  obtain ⟨hnet, hhold⟩ := h.jn hst
  have hσst : σ.st = .starting [] := by rw [hσ]; rfl
  have hnet' : (w.into w.net L σ (requests L ms)).net = requests L ms := by rw [into_net, hnet, List.nil_append]
  have hlead : σ.fresh = 0 ∧ σ.results = [] ∧ σ.starts = k ∧ σ.managers = ms := by
    rcases h.lead with ⟨a, b, c, e⟩ | ⟨l, a, al, b, c, e⟩ | ⟨l, a, al, b, c, e⟩ | ⟨l, a, al, b, c, e⟩ | ⟨a, b, c, e⟩
    · rw [hσ]; exact ⟨e, c, by simp [Mgr.begun, b], rfl⟩
    all_goals rw [hst] at a; cases a
  obtain ⟨l3, l2, l1, l0⟩ := hlead
  refine ⟨⟨hi, ?_, ?_, ?_, ?_, ?_, ?_, ?_⟩, ?_⟩
  · intro X hX; rw [into_other _ _ _ hX]; exact h.oth X hX
  · rw [hnet']
    intro x hx
    obtain ⟨n, hn', rfl⟩ := List.mem_map.1 hx
    exact ⟨n, ((hmem n).1 hn').1, ((hmem n).1 hn').2, .inl rfl⟩
  · rw [into_self]
    by_cases h0 : ms.length = 0
    · rw [if_pos h0] at hk
      exact .starting [] hσst (by rw [l0, h0]; rfl) (by rw [l1, hk]) l2 l3
    · rw [if_neg h0] at hk
      exact .waiting [] hσst (by rw [l0]; exact fun e => h0 e.symm) (by rw [l1, hk]) l2 l3
  · rw [into_self, hσst]; intro e; cases e
  · intro _ X hX hne
    unfold Cl.tok
    rw [hnet', into_self, into_other _ _ _ hne, hσst, count_requests hms, count_requests_ack ms (L, X)]
    have : (w.mgr X).st.holds L = 0 := by
      rcases (h.oth X hne).st with e | e | e
      · rw [e]; rfl
      · exact absurd e (hhold X hne)
      · rw [e]; rfl
    rw [this]
    simp [MState.acked, hmem, hX, hne]
  · rw [into_self, hσst]; intro e; cases e
  · intro X p hX hp hg
    rcases hg with hg | hg
    · rw [hnet'] at hg
      obtain ⟨n, _, e⟩ := List.mem_map.1 hg
      cases e
    · rw [into_self, hσst] at hg; cases hg
  · have h1 := left_lead (nodes := nodes) (L := L) (w := w) w.net σ (requests L ms)
    have h2 : ((requests L ms).map fun x => x.2.left).sum = 2 * (requests L ms).length := by
      refine sum_const _ _ 2 fun x hx => ?_
      obtain ⟨n, _, rfl⟩ := List.mem_map.1 hx
      rfl
    have h3 : (requests L ms).length + 1 = nodes.length := by
      have hp : ms.Perm (followers nodes L) :=
        (List.perm_ext_iff_of_nodup hms (hn.filter _)).2 fun x => by rw [hmem]; exact mem_followers.symm
      have := followers_length hn hL
      simp only [requests, List.length_map]
      rw [hp.length_eq]; exact this
    have h4 : (w.mgr L).leadLeft nodes.length = 3 * nodes.length := by unfold Mgr.leadLeft; rw [hst]
    have h5 : σ.leadLeft nodes.length = nodes.length + 1 := by unfold Mgr.leadLeft; rw [hσst, l2]; rfl
    rw [h2, h4, h5] at h1
    omega

/-- what is left of the net when one message is taken. -/
theorem Solo.netErase (h : Solo nodes L w) (y : Nat × MMsg) :
    ∀ x ∈ w.net.erase y, ∃ X ∈ nodes, X ≠ L ∧ (x = (X, .request L) ∨ x = (L, .ack X) ∨ x = (X, .started L)) :=
  fun x hx => h.net x (List.mem_of_mem_erase hx)

/-- a follower changes its state and perhaps sends an acknowledgement; `b` tells whether it does. -/
theorem Solo.follow (h : Solo nodes L w) (hn : nodes.Nodup) {d : Nat} (hd : d ∈ nodes) (hne : d ≠ L)
    {n : List (Nat × MMsg)} {σ : Mgr} {b : Bool} (hi : Inv nodes (w.into n d σ (if b then [(L, .ack d)] else [])))
    (hf : Follower L σ) (hsub : ∀ x ∈ n, x ∈ w.net)
    (htok : (w.mgr L).st.isStarting = true → ∀ X ∈ nodes, X ≠ L → X ≠ d → n.count (X, .request L) = w.net.count (X, .request L))
    (hack : ∀ X, n.count (L, .ack X) = w.net.count (L, .ack X))
    (hkeep : (w.mgr L).st.isStarting = true → n.count (d, .request L) + σ.st.holds L + (if b then 1 else 0) =
      w.net.count (d, .request L) + (w.mgr d).st.holds L)
    (hjL : (w.mgr L).st = .joining none → b = false ∧ σ.st ≠ .joining (some L))
    (hnj : σ.st.isJoining = true → b = false ∧ (w.mgr d).st.isJoining = true)
    (hleft : (n.map fun x => x.2.left).sum + (if b then 1 else 0) + σ.st.left + 1 =
      (w.net.map fun x => x.2.left).sum + (w.mgr d).st.left) :
    Solo nodes L (w.into n d σ (if b then [(L, .ack d)] else [])) ∧
      (w.into n d σ (if b then [(L, .ack d)] else [])).left nodes L + 1 = w.left nodes L := by
  have hLd : L ≠ d := hne.symm
  refine ⟨⟨hi, ?_, ?_, ?_, ?_, ?_, ?_, ?_⟩, ?_⟩
  · intro X hX
    by_cases e : X = d
    · subst e; rw [into_self]; exact hf
    · rw [into_other _ _ _ e]; exact h.oth X hX
  · intro x hx
    rw [into_net] at hx
    rcases List.mem_append.1 hx with hx | hx
    · exact h.net x (hsub x hx)
    · cases b with
      | false => simp at hx
      | true =>
        simp only [if_true, List.mem_singleton] at hx
        exact ⟨d, hd, hne, .inr (.inl hx)⟩
  · rw [into_other _ _ _ hLd]; exact h.lead
  · rw [into_other _ _ _ hLd]
    intro hj
    obtain ⟨j1, j2⟩ := h.jn hj
    obtain ⟨j3, j4⟩ := hjL hj
    refine ⟨?_, fun X hX => ?_⟩
    · rw [into_net, j3]
      simp only [Bool.false_eq_true, if_false, List.append_nil]
      refine List.eq_nil_iff_forall_not_mem.2 fun x hx => ?_
      have := hsub x hx
      rw [j1] at this; cases this
    · by_cases e : X = d
      · subst e; rw [into_self]; exact j4
      · rw [into_other _ _ _ e]; exact j2 X hX
  · rw [into_other _ _ _ hLd]
    intro hs X hX hXL
    have h1 := h.tok hs X hX hXL
    unfold Cl.tok at h1 ⊢
    rw [into_other _ _ _ hLd, into_net, List.count_append, List.count_append, hack]
    have h2 : (if b then [(L, MMsg.ack d)] else []).count (X, MMsg.request L) = 0 := by
      cases b <;> simp
    rw [h2]
    by_cases e : X = d
    · subst e
      rw [into_self]
      have h3 : (if b then [(L, MMsg.ack X)] else []).count (L, MMsg.ack X) = if b then 1 else 0 := by
        cases b <;> simp
      rw [h3]
      have := hkeep hs
      omega
    · rw [into_other _ _ _ e, htok hs X hX hXL e]
      have h3 : (if b then [(L, MMsg.ack d)] else []).count (L, MMsg.ack X) = 0 := by
        refine List.count_eq_zero.2 fun hx => ?_
        cases b with
        | false => simp at hx
        | true => simp at hx; exact e hx
      rw [h3]
      omega
  · rw [into_other _ _ _ hLd]
    intro hr X hX p hp
    by_cases e : X = d
    · subst e
      rw [into_self] at hp
      obtain ⟨_, b1⟩ := hnj (by rw [hp]; rfl)
      cases hq : (w.mgr X).st with
      | joining q => exact h.up hr X hX q hq
      | _ => rw [hq] at b1; cases b1
    · rw [into_other _ _ _ e] at hp
      exact h.up hr X hX p hp
  · intro X p hX hp hg
    unfold Cl.Granted at hg
    rw [into_net, into_other _ _ _ hLd] at hg
    have hmem : (L, MMsg.ack X) ∈ n → (L, MMsg.ack X) ∈ w.net := hsub _
    by_cases e : X = d
    · subst e
      rw [into_self] at hp
      obtain ⟨b0, b1⟩ := hnj (by rw [hp]; rfl)
      subst b0
      simp only [Bool.false_eq_true, if_false, List.append_nil] at hg
      cases hq : (w.mgr X).st with
      | joining q => exact h.nj X q hX hq (hg.imp hmem id)
      | _ => rw [hq] at b1; cases b1
    · rw [into_other _ _ _ e] at hp
      refine h.nj X p hX hp ?_
      rcases hg with hg | hg
      · rcases List.mem_append.1 hg with hg | hg
        · exact .inl (hmem hg)
        · cases b with
          | false => simp at hg
          | true => simp at hg; exact absurd hg e
      · exact .inr hg
  · have h1 := left_into (L := L) (w := w) hn n hd hne σ (if b then [(L, .ack d)] else [])
    have h2 : ((if b then [(L, MMsg.ack d)] else []).map fun x => x.2.left).sum = if b then 1 else 0 := by
      cases b <;> simp [MMsg.left]
    rw [h2] at h1
    omega

/-- the leader is given the lease by another node. -/
theorem Solo.ackCounted (h : Solo nodes L w) (hL : L ∈ nodes) {n : Nat} (hm : (L, MMsg.ack n) ∈ w.net)
    {l : List Nat} (hst : (w.mgr L).st = .starting l)
    (hi : Inv nodes (w.into (w.net.erase (L, .ack n)) L ((w.mgr L).checkAcks (setInsert l n)) [])) :
    Solo nodes L (w.into (w.net.erase (L, .ack n)) L ((w.mgr L).checkAcks (setInsert l n)) []) ∧
      (w.into (w.net.erase (L, .ack n)) L ((w.mgr L).checkAcks (setInsert l n)) []).left nodes L + 1 = w.left nodes L := by
  obtain ⟨a1, a2, a3, a4, a5⟩ := h.inv.ack hm
  have hnl : n ∉ l := by
    rw [hst] at a5
    exact fun e => by have := List.count_pos_iff.2 e; simp only [MState.acked] at a5; omega
  have hins : setInsert l n = l ++ [n] := by unfold setInsert; rw [if_neg hnl]
  rw [hins] at hi ⊢
  have hnn := (h.inv.src L (.ack n) n hm rfl)
  have hjn := h.notJoining hst
  -- not all have acknowledged
  have hinc : l.length ≠ (w.mgr L).managers.length := by
    intro e
    have hsub : ∀ x ∈ l, x ∈ (w.mgr L).managers := by
      intro x hx
      have := h.inv.ackd L x (by rw [hst]; exact hx)
      exact h.inv.all L hL hjn x this.2.1 this.2.2
    have hnd : l.Nodup := by
      rw [List.nodup_iff_count]
      intro x
      have h1 := h.inv.tok L x
      have h2 := (w.mgr L).st.one_le
      unfold Cl.tok at h1
      rw [hst] at h1 h2
      simp only [MState.acked] at h1
      omega
    exact hnl (subset_of_length hnd hsub (by omega) n (h.inv.all L hL hjn n hnn.2.1 hnn.2.2))
  obtain ⟨b1, b2, b3⟩ : (w.mgr L).starts = 0 ∧ (w.mgr L).results = [] ∧ (w.mgr L).fresh = 0 := by
    rcases h.lead with ⟨a, b, c, e⟩ | ⟨l', a, al, b, c, e⟩ | ⟨l', a, al, b, c, e⟩ | ⟨l', a, al, b, c, e⟩ | ⟨a, b, c, e⟩
    · exact ⟨b, c, e⟩
    · exact ⟨b, c, e⟩
    · rw [hst] at a; cases a; exact absurd al hinc
    · rw [hst] at a; cases a; exact absurd al hinc
    · rw [hst] at a; cases a
  have hcst : ((w.mgr L).checkAcks (l ++ [n])).st = .starting (l ++ [n]) := by
    unfold Mgr.checkAcks; split <;> rfl
  have hcr : ((w.mgr L).checkAcks (l ++ [n])).results = [] := by
    unfold Mgr.checkAcks; split <;> exact b2
  have hcf : ((w.mgr L).checkAcks (l ++ [n])).fresh = 0 := by
    unfold Mgr.checkAcks; split <;> exact b3
  have hcm : ((w.mgr L).checkAcks (l ++ [n])).managers = (w.mgr L).managers := by
    unfold Mgr.checkAcks; split <;> rfl
  have hcs : ((w.mgr L).checkAcks (l ++ [n])).starts = if (l ++ [n]).length = (w.mgr L).managers.length then 1 else 0 := by
    unfold Mgr.checkAcks
    split
    · simp [Mgr.startActor, b1]
    · exact b1
  generalize (w.mgr L).checkAcks (l ++ [n]) = σ at *
  have hcount : ∀ X, (w.net.erase (L, .ack n)).count (L, .ack X) = w.net.count (L, .ack X) - if X = n then 1 else 0 := by
    intro X
    rw [List.count_erase]
    by_cases e : X = n
    · subst e; simp
    · have : ¬ n = X := fun e' => e e'.symm
      simp [e, this]
  refine ⟨⟨hi, ?_, ?_, ?_, ?_, ?_, ?_, ?_⟩, ?_⟩
  · intro X hX; rw [into_other _ _ _ hX]; exact h.oth X hX
  · rw [into_net, List.append_nil]; exact h.netErase _
  · rw [into_self]
    by_cases e : (l ++ [n]).length = (w.mgr L).managers.length
    · rw [if_pos e] at hcs
      exact .starting _ hcst (by rw [hcm]; exact e) hcs hcr hcf
    · rw [if_neg e] at hcs
      exact .waiting _ hcst (by rw [hcm]; exact e) hcs hcr hcf
  · rw [into_self, hcst]; intro e; cases e
  · intro _ X hX hXL
    have h1 := h.tok a1 X hX hXL
    unfold Cl.tok at h1 ⊢
    rw [into_self, into_other _ _ _ hXL, into_net, List.append_nil, hcst, hcount,
      List.count_erase_of_ne (by intro e; cases e)]
    rw [hst] at h1
    simp only [MState.acked, List.count_append] at h1 ⊢
    by_cases e : X = n
    · subst e
      rw [if_pos rfl, List.count_singleton_self]
      omega
    · rw [if_neg e]
      have : [n].count X = 0 := List.count_eq_zero.2 (by simpa using e)
      omega
  · rw [into_self, hcst]; intro e; cases e
  · intro X p hX hp hg
    rw [into_other _ _ _ hX] at hp
    refine h.nj X p hX hp ?_
    unfold Cl.Granted at hg
    rw [into_net, List.append_nil, into_self, hcst] at hg
    rcases hg with hg | hg
    · exact .inl (List.mem_of_mem_erase hg)
    · simp only [MState.acked, List.mem_append, List.mem_singleton] at hg
      rcases hg with hg | rfl
      · exact .inr (by rw [hst]; exact hg)
      · exact .inl hm
  · have h1 := left_lead (nodes := nodes) (L := L) (w := w) (w.net.erase (L, .ack n)) σ []
    have h2 := sum_erase hm
    have h3 : (w.mgr L).leadLeft nodes.length = nodes.length + 1 := by unfold Mgr.leadLeft; rw [hst, b2]; rfl
    have h4 : σ.leadLeft nodes.length = nodes.length + 1 := by unfold Mgr.leadLeft; rw [hcst, hcr]; rfl
    simp only [MMsg.left] at h2
    rw [h3, h4] at h1
    simp only [MMsg.left, List.map_nil, List.sum_nil] at h1 h2 ⊢
    omega

/-- the start succeeds. -/
theorem Solo.booted (h : Solo nodes L w) {l : List Nat} (hst : (w.mgr L).st = .starting l) (hl : l.length = (w.mgr L).managers.length)
    (h1 : (w.mgr L).starts = 1) (h2 : (w.mgr L).results = []) (h3 : (w.mgr L).fresh = 0) (hi : Inv nodes (w.into w.net L (w.mgr L).boot [])) :
    Solo nodes L (w.into w.net L (w.mgr L).boot []) ∧ (w.into w.net L (w.mgr L).boot []).left nodes L + 1 = w.left nodes L := by
  have hnet : (w.into w.net L (w.mgr L).boot []).net = w.net := by rw [into_net, List.append_nil]
  have hbst : (w.mgr L).boot.st = .starting l := hst
  refine ⟨⟨hi, ?_, ?_, ?_, ?_, ?_, ?_, ?_⟩, ?_⟩
  · intro X hX; rw [into_other _ _ _ hX]; exact h.oth X hX
  · rw [hnet]; exact h.net
  · rw [into_self]
    exact .booted l hst hl (by simp [Mgr.boot, h1]) (by simp [Mgr.boot, h2, h3]) (by simp [Mgr.boot, h3])
  · rw [into_self, hbst]; intro e; cases e
  · intro _ X hX hXL
    have := h.tok (by rw [hst]; rfl) X hX hXL
    unfold Cl.tok at this ⊢
    rw [into_self, into_other _ _ _ hXL, hnet, hbst]
    rw [hst] at this
    exact this
  · rw [into_self, hbst]; intro e; cases e
  · intro X p hX hp hg
    rw [into_other _ _ _ hX] at hp
    refine h.nj X p hX hp ?_
    unfold Cl.Granted at hg ⊢
    rw [hnet, into_self, hbst] at hg
    rw [hst]; exact hg
  · have e1 := left_lead (nodes := nodes) (L := L) (w := w) w.net (w.mgr L).boot []
    have e2 : (w.mgr L).leadLeft nodes.length = nodes.length + 1 := by unfold Mgr.leadLeft; rw [hst, h2]; rfl
    have e3 : (w.mgr L).boot.leadLeft nodes.length = nodes.length := by
      unfold Mgr.leadLeft; rw [hbst]; simp [Mgr.boot, h2]
    rw [e2, e3] at e1
    simp only [List.map_nil, List.sum_nil] at e1
    omega

/-- when all have acknowledged, all are up. -/
theorem Solo.allUp (h : Solo nodes L w) (hL : L ∈ nodes) {l : List Nat} (hst : (w.mgr L).st = .starting l)
    (hl : l.length = (w.mgr L).managers.length) : ∀ X ∈ nodes, ∀ p, (w.mgr X).st ≠ .joining p := by
  intro X hX p hp
  by_cases eX : X = L
  · subst eX; rw [hst] at hp; cases hp
  · have hjn := h.notJoining hst
    have hsub : ∀ x ∈ l, x ∈ (w.mgr L).managers := by
      intro x hx
      have := h.inv.ackd L x (by rw [hst]; exact hx)
      exact h.inv.all L hL hjn x this.2.1 this.2.2
    have hnd : l.Nodup := by
      rw [List.nodup_iff_count]
      intro x
      have h1 := h.inv.tok L x
      have h2 := (w.mgr L).st.one_le
      unfold Cl.tok at h1
      rw [hst] at h1 h2
      simp only [MState.acked] at h1
      omega
    have := subset_of_length hnd hsub (by omega) X (h.inv.all L hL hjn X hX eX)
    exact h.nj X p eX hp (.inr (by rw [hst]; exact this))

/-- the leader learns that its instance runs. -/
theorem Solo.ran (h : Solo nodes L w) (hn : nodes.Nodup) (hL : L ∈ nodes) {l : List Nat} (hst : (w.mgr L).st = .starting l)
    (hl : l.length = (w.mgr L).managers.length)
    (h1 : (w.mgr L).starts = 0) (h2 : (w.mgr L).results = [0]) (h3 : (w.mgr L).fresh = 1) {σ : Mgr}
    (hσ : σ = { w.mgr L with results := [], st := .running 0 })
    (hi : Inv nodes (w.into w.net L σ ((w.mgr L).managers.map fun n => (n, .started L)))) :
    Solo nodes L (w.into w.net L σ ((w.mgr L).managers.map fun n => (n, .started L))) ∧
      (w.into w.net L σ ((w.mgr L).managers.map fun n => (n, .started L))).left nodes L + 1 = w.left nodes L := by
  have hjn := h.notJoining hst
  have hσst : σ.st = .running 0 := by rw [hσ]
  refine ⟨⟨hi, ?_, ?_, ?_, ?_, ?_, ?_, ?_⟩, ?_⟩
  · intro X hX; rw [into_other _ _ _ hX]; exact h.oth X hX
  · intro x hx
    rw [into_net] at hx
    rcases List.mem_append.1 hx with hx | hx
    · exact h.net x hx
    · obtain ⟨n, hn', rfl⟩ := List.mem_map.1 hx
      have := h.inv.known L n hn'
      exact ⟨n, this.1, this.2, .inr (.inr rfl)⟩
  · rw [into_self]
    exact .running hσst (by rw [hσ]; exact h1) (by rw [hσ]) (by rw [hσ]; exact h3)
  · rw [into_self, hσst]; intro e; cases e
  · rw [into_self, hσst]; intro e; cases e
  · intro _ X hX p hp
    by_cases e : X = L
    · subst e; rw [into_self, hσst] at hp; cases hp
    · rw [into_other _ _ _ e] at hp
      exact h.allUp hL hst hl X hX p hp
  · intro X p hX hp hg
    rw [into_other _ _ _ hX] at hp
    refine h.nj X p hX hp ?_
    unfold Cl.Granted at hg ⊢
    rw [into_net, into_self, hσst] at hg
    rcases hg with hg | hg
    · rcases List.mem_append.1 hg with hg | hg
      · exact .inl hg
      · obtain ⟨n, _, e⟩ := List.mem_map.1 hg
        cases e
    · cases hg
  · have e1 := left_lead (nodes := nodes) (L := L) (w := w) w.net σ ((w.mgr L).managers.map fun n => (n, .started L))
    have e2 : (w.mgr L).leadLeft nodes.length = nodes.length := by unfold Mgr.leadLeft; rw [hst, h2]; simp
    have e3 : σ.leadLeft nodes.length = 0 := by unfold Mgr.leadLeft; rw [hσst]
    have e4 : (((w.mgr L).managers.map fun n => (n, MMsg.started L)).map fun x => x.2.left).sum =
        1 * ((w.mgr L).managers.map fun n => (n, MMsg.started L)).length := by
      refine sum_const _ _ 1 fun x hx => ?_
      obtain ⟨n, _, rfl⟩ := List.mem_map.1 hx
      rfl
    have e5 := h.inv.managers_length hn hL hjn
    rw [List.length_map] at e4
    rw [e2, e3, e4] at e1
    omega

end Verif.Singleton
