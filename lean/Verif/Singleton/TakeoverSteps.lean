import Verif.Singleton.TakeoverLemmas

/-! # Cluster singletons when nodes fail: the steps -/

namespace Verif.Singleton

variable {A : List Nat} {K B : Nat} {w : Cl}

theorem filter_self {l : List Nat} {K : Nat} (h : K ∉ l) : l.filter (· ≠ K) = l := by
  rw [List.filter_eq_self]
  intro x hx
  have : x ≠ K := fun e => h (e ▸ hx)
  simpa using this

theorem onNodeRemoved_not {σ : Mgr} {K : Nat} (h : ∀ l, σ.st ≠ .starting l) :
    σ.onNodeRemoved K = { σ with managers := σ.managers.filter (· ≠ K) } := by
  unfold Mgr.onNodeRemoved
  split
  · rename_i l e; exact absurd e (h l)
  · rfl

theorem onNodeRemoved_starting {σ : Mgr} {K : Nat} {l : List Nat} (h : σ.st = .starting l) (hK : K ∉ l) :
    σ.onNodeRemoved K = Mgr.checkAcks { σ with managers := σ.managers.filter (· ≠ K) } l := by
  unfold Mgr.onNodeRemoved
  split
  · rename_i l' e
    rw [h] at e
    cases e
    rw [filter_self hK]
  · rename_i e; exact absurd h (e l)

/-- a node changes in what does not matter here. -/
theorem Heir.quiet (h : Heir A K B w) (hA : A.Nodup) {d : Nat} (hd : d ∈ A) {σ : Mgr} (h0 : σ.self = (w.mgr d).self)
    (hst : σ.st = (w.mgr d).st) (hm : σ.managers = (w.mgr d).managers) (h1 : σ.starts = (w.mgr d).starts)
    (h2 : σ.results = (w.mgr d).results) (h3 : σ.fresh = (w.mgr d).fresh) :
    Heir A K B (w.into w.net d σ []) ∧ (w.into w.net d σ []).due A K B = w.due A K B := by
  have hB : ((w.into w.net d σ []).mgr B).st = (w.mgr B).st ∧ ((w.into w.net d σ []).mgr B).results = (w.mgr B).results := by
    by_cases e : B = d
    · subst e; rw [into_self]; exact ⟨hst, h2⟩
    · rw [into_other _ _ _ e]; exact ⟨rfl, rfl⟩
  constructor
  · refine h.into (by rw [h0]; exact h.self d hd) (by rw [hm]; exact h.nodup d hd) (by rw [hm]; exact h.known d hd)
      (by rw [hm]; exact h.all d hd) (fun hne => ?_) (by rw [List.append_nil]; exact h.net) ?_
      (by rw [hB.1, List.append_nil]; exact h.idle) (by rw [hB.1, List.append_nil]; exact h.tok)
      (by rw [hB.1]; exact h.acked)
    · have := h.oth d hd hne
      exact ⟨hst ▸ this.st, h1 ▸ this.starts, h2 ▸ this.results, h3 ▸ this.fresh⟩
    · by_cases e : B = d
      · subst e
        rw [into_self]
        rcases h.lead with ⟨a, b, c, e⟩ | ⟨l, a, al, b, c, e⟩ | ⟨l, a, al, b, c, e⟩ | ⟨l, a, al, b, c, e⟩ | ⟨a, b, c, e⟩
        · exact .idle (by rw [hst, a]) (by rw [h1, b]) (by rw [h2, c]) (by rw [h3, e])
        · exact .waiting l (by rw [hst, a]) (by rw [hm]; exact al) (by rw [h1, b]) (by rw [h2, c]) (by rw [h3, e])
        · exact .starting l (by rw [hst, a]) (by rw [hm]; exact al) (by rw [h1, b]) (by rw [h2, c]) (by rw [h3, e])
        · exact .booted l (by rw [hst, a]) (by rw [hm]; exact al) (by rw [h1, b]) (by rw [h2, c]) (by rw [h3, e])
        · exact .running (by rw [hst, a]) (by rw [h1, b]) (by rw [h2, c]) (by rw [h3, e])
      · rw [into_other _ _ _ e]; exact h.lead
  · have hdue := due_into (w := w) (K := K) (B := B) hA hd w.net σ []
    have hu : σ.untold K = (w.mgr d).untold K := by unfold Mgr.untold; rw [hm]
    have hh : ((w.into w.net d σ []).mgr B).heirLeft A.length = (w.mgr B).heirLeft A.length := by
      unfold Mgr.heirLeft; rw [hB.1, hB.2]
    rw [hu, hh] at hdue
    simp only [load, List.map_nil, List.sum_nil] at hdue
    omega

/-- a node other than the leader handles something: the net changes from `w.net` to `n ++ l`, its managers become
`ms`. -/
theorem Heir.other (h : Heir A K B w) (hA : A.Nodup) {d : Nat} (hd : d ∈ A) (hne : d ≠ B) {n l : List (Nat × MMsg)} {ms : List Nat}
    (hnd : ms.Nodup) (hk : ∀ x ∈ ms, (x ∈ A ∨ x = K) ∧ x ≠ d) (ha : ∀ x ∈ A, x ≠ d → x ∈ ms)
    (hnet : ∀ x ∈ n ++ l, x.1 ∈ A → About A B x) (hidle : (w.mgr B).st = .idle → ∀ x ∈ n ++ l, x.1 ∉ A)
    (htok : ∀ X ∈ A, X ≠ B → (n ++ l).count (X, .request B) + (n ++ l).count (B, .ack X) =
      w.net.count (X, .request B) + w.net.count (B, .ack X))
    (hload : load A n + load A l + (if K ∈ ms then 1 else 0) + 1 = load A w.net + (w.mgr d).untold K) :
    Heir A K B (w.into n d { w.mgr d with managers := ms } l) ∧
      (w.into n d { w.mgr d with managers := ms } l).due A K B + 1 = w.due A K B := by
  have hB : (w.into n d { w.mgr d with managers := ms } l).mgr B = w.mgr B := into_other _ _ _ hne.symm
  have hc := h.oth d hd hne
  constructor
  · refine h.into (h.self d hd) hnd hk ha (fun _ => ⟨hc.st, hc.starts, hc.results, hc.fresh⟩) hnet (by rw [hB]; exact h.lead)
      (by rw [hB]; exact hidle) ?_ (by rw [hB]; exact h.acked)
    rw [hB]
    intro m hm X hX hXB
    have := h.tok m hm X hX hXB
    have := htok X hX hXB
    omega
  · have hdue := due_into (w := w) (K := K) (B := B) hA hd n { w.mgr d with managers := ms } l
    rw [hB] at hdue
    have hu : Mgr.untold K { w.mgr d with managers := ms } = if K ∈ ms then 1 else 0 := rfl
    rw [hu] at hdue
    omega

/-- the managers left when `K` is removed. -/
theorem Heir.removed (h : Heir A K B w) (hKA : K ∉ A) {d : Nat} (hd : d ∈ A) :
    ((w.mgr d).managers.filter (· ≠ K)).Nodup ∧
    (∀ x ∈ (w.mgr d).managers.filter (· ≠ K), (x ∈ A ∨ x = K) ∧ x ≠ d) ∧
    (∀ x ∈ A, x ≠ d → x ∈ (w.mgr d).managers.filter (· ≠ K)) ∧ K ∉ (w.mgr d).managers.filter (· ≠ K) := by
  refine ⟨(h.nodup d hd).filter _, fun x hx => h.known d hd x (List.mem_filter.1 hx).1, fun x hx hne => ?_, by simp⟩
  refine List.mem_filter.2 ⟨h.all d hd x hx hne, ?_⟩
  have : x ≠ K := fun e => hKA (e ▸ hx)
  simpa using this

theorem Heir.removedOther (h : Heir A K B w) (hA : A.Nodup) (hKA : K ∉ A) {d : Nat} (hd : d ∈ A) (hne : d ≠ B)
    (hK : K ∈ (w.mgr d).managers) :
    Heir A K B (w.into w.net d ((w.mgr d).onNodeRemoved K) []) ∧
      (w.into w.net d ((w.mgr d).onNodeRemoved K) []).due A K B + 1 = w.due A K B := by
  obtain ⟨r1, r2, r3, r4⟩ := h.removed hKA hd
  have hst : (w.mgr d).onNodeRemoved K = { w.mgr d with managers := (w.mgr d).managers.filter (· ≠ K) } := 
    onNodeRemoved_not (by rw [(h.oth d hd hne).st]; simp)
  rw [hst]
  refine h.other hA hd hne r1 r2 r3 (by rw [List.append_nil]; exact h.net) (by rw [List.append_nil]; exact h.idle)
    (fun _ _ _ => by rw [List.append_nil]) ?_
  rw [if_neg r4]
  unfold Mgr.untold
  rw [if_pos hK]
  rfl

theorem Heir.removedLeader (h : Heir A K B w) (hA : A.Nodup) (hKA : K ∉ A) (hB : B ∈ A) (hK : K ∈ (w.mgr B).managers) :
    Heir A K B (w.into w.net B ((w.mgr B).onNodeRemoved K) []) ∧
      (w.into w.net B ((w.mgr B).onNodeRemoved K) []).due A K B + 1 = w.due A K B := by
  obtain ⟨r1, r2, r3, r4⟩ := h.removed hKA hB
  have hone : (w.mgr B).untold K = 1 := by unfold Mgr.untold; rw [if_pos hK]
  have key : ∀ σ : Mgr, σ.self = (w.mgr B).self → σ.managers = (w.mgr B).managers.filter (· ≠ K) → σ.st = (w.mgr B).st →
      σ.results = (w.mgr B).results → Heading σ →
      Heir A K B (w.into w.net B σ []) ∧ (w.into w.net B σ []).due A K B + 1 = w.due A K B := by
    intro σ h0 hm hst h2 hl
    constructor
    · refine h.into (by rw [h0]; exact h.self B hB) (by rw [hm]; exact r1) (by rw [hm]; exact r2)
        (by rw [hm]; exact r3) (fun hne => absurd rfl hne) (by rw [List.append_nil]; exact h.net) (by rw [into_self]; exact hl)
        (by rw [into_self, hst, List.append_nil]; exact h.idle) (by rw [into_self, hst, List.append_nil]; exact h.tok)
        (by rw [into_self, hst]; exact h.acked)
    · have hdue := due_into (w := w) (K := K) (B := B) hA hB w.net σ []
      have hu : σ.untold K = 0 := by unfold Mgr.untold; rw [hm, if_neg r4]
      have hh : ((w.into w.net B σ []).mgr B).heirLeft A.length = (w.mgr B).heirLeft A.length := by
        rw [into_self]; unfold Mgr.heirLeft; rw [hst, h2]
      rw [hu, hh, hone] at hdue
      simp only [load, List.map_nil, List.sum_nil] at hdue
      omega
  rcases h.lead with ⟨a, b, c, e⟩ | ⟨l, a, al, b, c, e⟩ | ⟨l, a, al, b, c, e⟩ | ⟨l, a, al, b, c, e⟩ | ⟨a, b, c, e⟩
  · have hst : (w.mgr B).onNodeRemoved K = { w.mgr B with managers := (w.mgr B).managers.filter (· ≠ K) } := 
      onNodeRemoved_not (by rw [a]; simp)
    rw [hst]
    exact key _ rfl rfl rfl rfl (.idle a b c e)
  · have hKl : K ∉ l := fun hx => hKA (h.acked l a K hx).1
    have hst : (w.mgr B).onNodeRemoved K =
        Mgr.checkAcks { w.mgr B with managers := (w.mgr B).managers.filter (· ≠ K) } l := 
      onNodeRemoved_starting a hKl
    rw [hst]
    by_cases hlen : l.length = ((w.mgr B).managers.filter (· ≠ K)).length
    · have : Mgr.checkAcks { w.mgr B with managers := (w.mgr B).managers.filter (· ≠ K) } l =
          { w.mgr B with managers := (w.mgr B).managers.filter (· ≠ K), st := .starting l, starts := (w.mgr B).starts + 1 } := by
        unfold Mgr.checkAcks; rw [if_pos hlen]; rfl
      rw [this]
      exact key _ rfl rfl a.symm rfl (.starting l rfl hlen (by simp [b]) c e)
    · have : Mgr.checkAcks { w.mgr B with managers := (w.mgr B).managers.filter (· ≠ K) } l =
          { w.mgr B with managers := (w.mgr B).managers.filter (· ≠ K), st := .starting l } := by
        unfold Mgr.checkAcks; rw [if_neg hlen]
      rw [this]
      exact key _ rfl rfl a.symm rfl (.waiting l rfl hlen b c e)
  · exact absurd hK (h.full hB hKA a al).2
  · exact absurd hK (h.full hB hKA a al).2
  · have hst : (w.mgr B).onNodeRemoved K = { w.mgr B with managers := (w.mgr B).managers.filter (· ≠ K) } := 
      onNodeRemoved_not (by rw [a]; simp)
    rw [hst]
    exact key _ rfl rfl rfl rfl (.running a b c e)

/-- the leader is told that it leads. -/
theorem Heir.begins (h : Heir A K B w) (hA : A.Nodup) (hKA : K ∉ A) (hB : B ∈ A) (hst : (w.mgr B).st = .idle) {k : Nat}
    (hk : k = if (w.mgr B).managers.length = 0 then 1 else 0) :
    Heir A K B (w.into w.net B ((w.mgr B).begun k) (requests B (w.mgr B).managers)) ∧
      (w.into w.net B ((w.mgr B).begun k) (requests B (w.mgr B).managers)).due A K B + 1 = w.due A K B := by
  have hno := h.idle hst
  obtain ⟨c1, c2, c3⟩ : (w.mgr B).starts = 0 ∧ (w.mgr B).results = [] ∧ (w.mgr B).fresh = 0 := by
    rcases h.lead with ⟨a, b, c, e⟩ | ⟨l, a, al, b, c, e⟩ | ⟨l, a, al, b, c, e⟩ | ⟨l, a, al, b, c, e⟩ | ⟨a, b, c, e⟩
    · exact ⟨b, c, e⟩
    all_goals rw [hst] at a; cases a
  have hnd := h.nodup B hB
  constructor
  · refine h.into (h.self B hB) hnd (h.known B hB) (h.all B hB) (fun hne => absurd rfl hne) ?_ ?_ ?_ ?_ ?_
    · intro x hx hxA
      rcases List.mem_append.1 hx with hx | hx
      · exact absurd hxA (hno x hx)
      · obtain ⟨n, hn', rfl⟩ := List.mem_map.1 hx
        exact ⟨n, hxA, (h.known B hB n hn').2, .inl rfl⟩
    · rw [into_self]
      by_cases h0 : (w.mgr B).managers.length = 0
      · rw [if_pos h0] at hk
        exact .starting [] rfl (by show 0 = (w.mgr B).managers.length; omega) (by simp [Mgr.begun, c1, hk]) c2 c3
      · rw [if_neg h0] at hk
        exact .waiting [] rfl (by show 0 ≠ (w.mgr B).managers.length; omega) (by simp [Mgr.begun, c1, hk]) c2 c3
    · rw [into_self]; intro e; cases e
    · rw [into_self]
      intro m hm X hX hXB
      cases hm
      rw [List.count_append, List.count_append, count_requests hnd, count_requests_ack _ (B, X),
        List.count_eq_zero.2 fun e => hno _ e hX, List.count_eq_zero.2 fun e => hno _ e hB, if_pos ⟨rfl, h.all B hB X hX hXB⟩]
      rfl
    · rw [into_self]
      intro m hm
      cases hm
      simp
  · have hdue := due_into (w := w) (K := K) (B := B) hA hB w.net ((w.mgr B).begun k) (requests B (w.mgr B).managers)
    have h1 := load_told (K := K) hA hB hnd (h.known B hB) (h.all B hB) (.request B)
    have h2 : load A (requests B (w.mgr B).managers) + 2 = 2 * A.length := h1
    have h3 : (w.mgr B).heirLeft A.length = 3 * A.length := by unfold Mgr.heirLeft; rw [hst]
    have h4 : ((w.into w.net B ((w.mgr B).begun k) (requests B (w.mgr B).managers)).mgr B).heirLeft A.length = A.length + 1 := by
      rw [into_self]; unfold Mgr.heirLeft Mgr.begun; simp only; rw [c2]; rfl
    have h5 : ((w.mgr B).begun k).untold K = (w.mgr B).untold K := rfl
    rw [h3, h4, h5] at hdue
    omega

/-- the leader counts an acknowledgement. -/
theorem Heir.ack (h : Heir A K B w) (hA : A.Nodup) (hKA : K ∉ A) (hB : B ∈ A) {X : Nat} (hX : X ∈ A) (hXB : X ≠ B)
    (hm : (B, MMsg.ack X) ∈ w.net) :
    Heir A K B (w.into (w.net.erase (B, .ack X)) B ((w.mgr B).onAck X) []) ∧
      (w.into (w.net.erase (B, .ack X)) B ((w.mgr B).onAck X) []).due A K B + 1 = w.due A K B := by
  have hload := load_erase (A := A) hm
  have hw1 : weigh A (B, .ack X) = 1 := by unfold weigh; rw [if_pos hB]; rfl
  rw [hw1] at hload
  have hnet : ∀ x ∈ w.net.erase (B, .ack X) ++ [], x.1 ∈ A → About A B x := by
    intro x hx; rw [List.append_nil] at hx; exact h.net x (List.mem_of_mem_erase hx)
  have hpos : 0 < w.net.count (B, .ack X) := List.count_pos_iff.2 hm
  have hcount : ∀ Y, (w.net.erase (B, .ack X)).count (B, .ack Y) = w.net.count (B, .ack Y) - if Y = X then 1 else 0 := by
    intro Y
    rw [List.count_erase]
    by_cases e : Y = X
    · subst e; simp
    · have : ¬ X = Y := fun e' => e e'.symm
      simp [e, this]
  have hcount' : ∀ Y, (w.net.erase (B, .ack X)).count (Y, .request B) = w.net.count (Y, .request B) := by
    intro Y; exact List.count_erase_of_ne (by simp)
  have hst : ∀ σ : Mgr, σ.self = (w.mgr B).self → σ.managers = (w.mgr B).managers → σ.results = (w.mgr B).results →
      Heading σ → σ.st ≠ .idle → σ.heirLeft A.length = (w.mgr B).heirLeft A.length →
      (∀ m, σ.st = .starting m → ∃ l, (w.mgr B).st = .starting l ∧ m = l ++ [X]) →
      Heir A K B (w.into (w.net.erase (B, .ack X)) B σ []) ∧
      (w.into (w.net.erase (B, .ack X)) B σ []).due A K B + 1 = w.due A K B := by
    intro σ h0 hms h2 hl hni hleft hsm
    constructor
    · refine h.into (by rw [h0]; exact h.self B hB) (by rw [hms]; exact h.nodup B hB) (by rw [hms]; exact h.known B hB)
        (by rw [hms]; exact h.all B hB) (fun hne => absurd rfl hne) hnet (by rw [into_self]; exact hl)
        (by rw [into_self]; exact fun e => absurd e hni) ?_ ?_
      · rw [into_self]
        intro m hm' Y hY hYB
        obtain ⟨l, hl', rfl⟩ := hsm m hm'
        have := h.tok l hl' Y hY hYB
        have hx := h.tok l hl' X hX hXB
        rw [List.append_nil, hcount, hcount', List.count_append]
        by_cases e : Y = X
        · subst e; simp; omega
        · have e' : ¬ X = Y := fun e' => e e'.symm
          simp [e, e']; omega
      · rw [into_self]
        intro m hm' x hx
        obtain ⟨l, hl', rfl⟩ := hsm m hm'
        rcases List.mem_append.1 hx with hx | hx
        · exact h.acked l hl' x hx
        · rw [List.mem_singleton.1 hx]; exact ⟨hX, hXB⟩
    · have hdue := due_into (w := w) (K := K) (B := B) hA hB (w.net.erase (B, .ack X)) σ []
      have hu : σ.untold K = (w.mgr B).untold K := by unfold Mgr.untold; rw [hms]
      rw [into_self, hu, hleft] at hdue
      simp only [load, List.map_nil, List.sum_nil] at hdue hload
      omega
  rcases h.lead with ⟨a, b, c, e⟩ | ⟨l, a, al, b, c, e⟩ | ⟨l, a, al, b, c, e⟩ | ⟨l, a, al, b, c, e⟩ | ⟨a, b, c, e⟩
  · exact absurd hB (h.idle a _ hm)
  · have hnl : X ∉ l := fun hx => by
      have := h.tok l a X hX hXB
      have := List.count_pos_iff.2 hx
      omega
    have hstep : (w.mgr B).onAck X = (w.mgr B).checkAcks (l ++ [X]) := by
      unfold Mgr.onAck; rw [a]; simp only; unfold setInsert; rw [if_neg hnl]
    rw [hstep]
    by_cases hlen : (l ++ [X]).length = (w.mgr B).managers.length
    · have : (w.mgr B).checkAcks (l ++ [X]) =
          { w.mgr B with st := .starting (l ++ [X]), starts := (w.mgr B).starts + 1 } := by
        unfold Mgr.checkAcks; rw [if_pos hlen]; rfl
      rw [this]
      exact hst _ rfl rfl rfl (.starting _ rfl hlen (by simp [b]) c e) (by simp) (by simp [Mgr.heirLeft, a])
        (fun m hm' => ⟨l, a, by cases hm'; rfl⟩)
    · have : (w.mgr B).checkAcks (l ++ [X]) = { w.mgr B with st := .starting (l ++ [X]) } := by
        unfold Mgr.checkAcks; rw [if_neg hlen]
      rw [this]
      exact hst _ rfl rfl rfl (.waiting _ rfl hlen b c e) (by simp) (by simp [Mgr.heirLeft, a])
        (fun m hm' => ⟨l, a, by cases hm'; rfl⟩)
  · have h1 := (h.full hB hKA a al).1 X hX hXB
    have := h.tok l a X hX hXB
    have := List.count_pos_iff.2 h1
    omega
  · have h1 := (h.full hB hKA a al).1 X hX hXB
    have := h.tok l a X hX hXB
    have := List.count_pos_iff.2 h1
    omega
  · have hstep : (w.mgr B).onAck X = w.mgr B := by unfold Mgr.onAck; rw [a]
    rw [hstep]
    exact hst _ rfl rfl rfl (.running a b c e) (by rw [a]; simp) rfl (fun m hm' => by rw [a] at hm'; cases hm')

/-- the instance starts, and its manager learns so. -/
theorem Heir.boots (h : Heir A K B w) (hA : A.Nodup) (hB : B ∈ A) (hs : (w.mgr B).starts ≠ 0) :
    Heir A K B (w.into w.net B (w.mgr B).boot []) ∧ (w.into w.net B (w.mgr B).boot []).due A K B + 1 = w.due A K B := by
  rcases h.lead with ⟨a, b, c, e⟩ | ⟨l, a, al, b, c, e⟩ | ⟨l, a, al, b, c, e⟩ | ⟨l, a, al, b, c, e⟩ | ⟨a, b, c, e⟩
  · exact absurd b hs
  · exact absurd b hs
  · constructor
    · refine h.into (h.self B hB) (h.nodup B hB) (h.known B hB) (h.all B hB) (fun hne => absurd rfl hne)
        (by rw [List.append_nil]; exact h.net) ?_ (by rw [into_self, List.append_nil]; exact h.idle)
        (by rw [into_self, List.append_nil]; exact h.tok) (by rw [into_self]; exact h.acked)
      rw [into_self]
      exact .booted l a al (by simp [Mgr.boot, b]) (by simp [Mgr.boot, c, e]) (by simp [Mgr.boot, e])
    · have hdue := due_into (w := w) (K := K) (B := B) hA hB w.net (w.mgr B).boot []
      have hu : (w.mgr B).boot.untold K = (w.mgr B).untold K := rfl
      have h1 : (w.mgr B).heirLeft A.length = A.length + 1 := by unfold Mgr.heirLeft; rw [a]; simp only; rw [c]; rfl
      have h2 : (w.mgr B).boot.heirLeft A.length = A.length := by
        have h3 : (w.mgr B).boot.st = .starting l := a
        have h4 : (w.mgr B).boot.results = [0] := by simp [Mgr.boot, c, e]
        unfold Mgr.heirLeft; rw [h3, h4]; rfl
      rw [into_self, hu, h1, h2] at hdue
      simp only [load, List.map_nil, List.sum_nil] at hdue
      omega
  · exact absurd b hs
  · exact absurd b hs

theorem Heir.runs (h : Heir A K B w) (hA : A.Nodup) (hKA : K ∉ A) (hB : B ∈ A) {a : Nat} (ha : a ∈ (w.mgr B).results) :
    a = 0 ∧ Heir A K B (w.into w.net B { w.mgr B with results := [], st := .running 0 }
      ((w.mgr B).managers.map fun n => (n, .started B))) ∧
    (w.into w.net B { w.mgr B with results := [], st := .running 0 }
      ((w.mgr B).managers.map fun n => (n, .started B))).due A K B + 1 = w.due A K B := by
  rcases h.lead with ⟨a', b, c, e⟩ | ⟨l, a', al, b, c, e⟩ | ⟨l, a', al, b, c, e⟩ | ⟨l, a', al, b, c, e⟩ | ⟨a', b, c, e⟩
  · rw [c] at ha; cases ha
  · rw [c] at ha; cases ha
  · rw [c] at ha; cases ha
  · refine ⟨by rw [c] at ha; exact List.mem_singleton.1 ha, ?_, ?_⟩
    · refine h.into (h.self B hB) (h.nodup B hB) (h.known B hB) (h.all B hB) (fun hne => absurd rfl hne)
        ?_ ?_ ?_ ?_ ?_
      · intro x hx hxA
        rcases List.mem_append.1 hx with hx | hx
        · exact h.net x hx hxA
        · obtain ⟨n, hn', rfl⟩ := List.mem_map.1 hx
          exact ⟨n, hxA, (h.known B hB n hn').2, .inr (.inr rfl)⟩
      · rw [into_self]; exact .running rfl b rfl e
      · rw [into_self]; intro e; cases e
      · rw [into_self]; intro m hm; cases hm
      · rw [into_self]; intro m hm; cases hm
    · have hdue := due_into (w := w) (K := K) (B := B) hA hB w.net { w.mgr B with results := [], st := .running 0 }
        ((w.mgr B).managers.map fun n => (n, .started B))
      have hu : Mgr.untold K { w.mgr B with results := [], st := .running 0 } = (w.mgr B).untold K := rfl
      have h1 : (w.mgr B).heirLeft A.length = A.length := by unfold Mgr.heirLeft; rw [a']; simp only; rw [c]; rfl
      have h2 : Mgr.heirLeft A.length { w.mgr B with results := [], st := .running 0 } = 0 := rfl
      have h3 := load_told (K := K) hA hB (h.nodup B hB) (h.known B hB) (h.all B hB) (.started B)
      simp only [MMsg.left, Nat.one_mul] at h3
      rw [into_self, hu, h1, h2] at hdue
      omega
  · rw [c] at ha; cases ha

/-- a node is asked by the leader and acknowledges. -/
theorem Heir.asked (h : Heir A K B w) (hA : A.Nodup) (hB : B ∈ A) {X : Nat} (hX : X ∈ A) (hXB : X ≠ B)
    (hm : (X, MMsg.request B) ∈ w.net) :
    Heir A K B (w.into (w.net.erase (X, .request B)) X (w.mgr X) [(B, .ack X)]) ∧
      (w.into (w.net.erase (X, .request B)) X (w.mgr X) [(B, .ack X)]).due A K B + 1 = w.due A K B := by
  have hpos : 0 < w.net.count (X, .request B) := List.count_pos_iff.2 hm
  have hload := load_erase (A := A) hm
  have hw : weigh A (X, .request B) = 2 := by unfold weigh; rw [if_pos hX]; rfl
  rw [hw] at hload
  refine h.other hA hX hXB (ms := (w.mgr X).managers) (h.nodup X hX) (h.known X hX) (h.all X hX) ?_ ?_ ?_ ?_
  · intro x hx hxA
    rcases List.mem_append.1 hx with hx | hx
    · exact h.net x (List.mem_of_mem_erase hx) hxA
    · exact ⟨X, hX, hXB, .inr (.inl (List.mem_singleton.1 hx))⟩
  · intro hi; exact absurd hX (h.idle hi _ hm)
  · intro Y hY hYB
    rw [List.count_append, List.count_append, List.count_erase_of_ne (a := (B, MMsg.ack Y)) (by simp), List.count_erase]
    by_cases e : Y = X
    · subst e; simp; omega
    · have e' : ¬ X = Y := fun e' => e e'.symm
      simp [e']
  · have : load A [(B, MMsg.ack X)] = 1 := by simp [load, weigh, hB, MMsg.left]
    rw [this]
    unfold Mgr.untold
    omega

/-- a node learns that the leader runs the singleton. -/
theorem Heir.learns (h : Heir A K B w) (hA : A.Nodup) {X : Nat} (hX : X ∈ A) (hXB : X ≠ B)
    (hm : (X, MMsg.started B) ∈ w.net) :
    Heir A K B (w.into (w.net.erase (X, .started B)) X (w.mgr X) []) ∧
      (w.into (w.net.erase (X, .started B)) X (w.mgr X) []).due A K B + 1 = w.due A K B := by
  have hload := load_erase (A := A) hm
  have hw : weigh A (X, .started B) = 1 := by unfold weigh; rw [if_pos hX]; rfl
  rw [hw] at hload
  refine h.other hA hX hXB (ms := (w.mgr X).managers) (h.nodup X hX) (h.known X hX) (h.all X hX) ?_ ?_ ?_ ?_
  · intro x hx hxA
    rw [List.append_nil] at hx
    exact h.net x (List.mem_of_mem_erase hx) hxA
  · intro hi; exact absurd hX (h.idle hi _ hm)
  · intro Y hY hYB
    rw [List.append_nil, List.count_erase_of_ne (a := (B, MMsg.ack Y)) (by simp), List.count_erase_of_ne (by simp)]
  · unfold Mgr.untold
    simp only [load, List.map_nil, List.sum_nil] at hload ⊢
    omega

end Verif.Singleton
