import Verif.Remote.DiscoveryProps

/-!
# C60: how far one look at a seed reaches, exactly
-/

namespace Verif.Remote

/-- what asking at an address gives: what was answered there before, or what is answered now. -/
def Disc.sees (env : DEnv) (σ : Disc) (addr : String) : Option Identity :=
  match σ.byAddr.get addr with
  | some i => some i
  | none => env.identify addr

/-- the answers fit together: a node is at its own address, those who list a node list it under its id, and no two nodes have the
same id. -/
structure FitTogether (f : String → Option Identity) : Prop where
  home : ∀ a i, f a = some i → f i.node.addr = some i
  named : ∀ a i p j, f a = some i → p ∈ i.peers → f p.addr = some j → j.node.id = p.id
  one : ∀ a b i j, f a = some i → f b = some j → i.node.id = j.node.id → i = j

/-- `j` answers at an address that `i` lists for a node other than the one that looks. -/
def OneHop (f : String → Option Identity) (self : Nat) (i j : Identity) : Prop :=
  ∃ p ∈ i.peers, p.id ≠ self ∧ f p.addr = some j

theorem getIdentity_sees {env : DEnv} {f : String → Option Identity} (hf : FitTogether f) {σ : Disc} (hs : ∀ a, σ.sees env a = f a)
    (addr : String) : (σ.getIdentity env addr).2 = f addr ∧ (∀ a, (σ.getIdentity env addr).1.sees env a = f a) ∧
      (σ.getIdentity env addr).1.queue = σ.queue := by
  have h0 := hs addr
  unfold Disc.sees at h0
  unfold Disc.getIdentity
  cases hc : σ.byAddr.get addr with
  | some i =>
    rw [hc] at h0
    exact ⟨h0, hs, rfl⟩
  | none =>
    rw [hc] at h0
    cases hi : env.identify addr with
    | none => rw [hi] at h0; exact ⟨h0, hs, rfl⟩
    | some i =>
      rw [hi] at h0
      refine ⟨h0, fun a => ?_, rfl⟩
      simp only [Disc.sees, Assoc.get_insert]
      by_cases e1 : a = i.node.addr
      · subst e1
        simp [hf.home addr i h0.symm]
      · by_cases e2 : a = addr
        · subst e2
          simp [e1, ← h0]
        · simpa [e1, e2, Disc.sees] using hs a

/-- what has been found: every entry under the id of its node, and answered at some address. -/
def FoundOk (f : String → Option Identity) (found : Assoc Nat Identity) : Prop :=
  ∀ k x, (k, x) ∈ found → x.node.id = k ∧ ∃ a, f a = some x

theorem peers_exact {env : DEnv} {f : String → Option Identity} (hf : FitTogether f) (self : Nat) (i : Identity) (ai : String)
    (hi : f ai = some i) : ∀ (ps : List DNode), (∀ p ∈ ps, p ∈ i.peers) → ∀ (s : Disc × Assoc Nat Identity),
      (∀ a, s.1.sees env a = f a) → FoundOk f s.2 →
      (∀ a, (Disc.discoverPeers env self ps s).1.sees env a = f a) ∧ FoundOk f (Disc.discoverPeers env self ps s).2 ∧
      (Disc.discoverPeers env self ps s).1.queue = s.1.queue ∧
      ∀ j, j ∈ (Disc.discoverPeers env self ps s).2.vals ↔ j ∈ s.2.vals ∨ ∃ p ∈ ps, p.id ≠ self ∧ f p.addr = some j := by
  intro ps
  induction ps with
  | nil => intro _ s hs hk; exact ⟨hs, hk, rfl, by simp [Disc.discoverPeers]⟩
  | cons p ps ih =>
    rintro hsub ⟨σ, found⟩ hs hk
    have hsub' : ∀ q ∈ ps, q ∈ i.peers := fun q hq => hsub q (List.mem_cons_of_mem _ hq)
    have hp : p ∈ i.peers := hsub p (by simp)
    simp only [Disc.discoverPeers]
    by_cases e : p.id = self
    · rw [if_pos e]
      have := ih hsub' (σ, found) hs hk
      refine ⟨this.1, this.2.1, this.2.2.1, fun j => ?_⟩
      rw [this.2.2.2]
      simp [e]
    · rw [if_neg e]
      cases hg : found.get p.id with
      | some y =>
        have := ih hsub' (σ, found) hs hk
        refine ⟨this.1, this.2.1, this.2.2.1, fun j => ?_⟩
        simp only
        rw [this.2.2.2]
        constructor
        · rintro (h | ⟨q, hq, h⟩)
          · exact .inl h
          · exact .inr ⟨q, List.mem_cons_of_mem _ hq, h⟩
        · rintro (h | ⟨q, hq, h1, h2⟩)
          · exact .inl h
          · rcases List.mem_cons.1 hq with rfl | hq
            · have hy := Assoc.mem_of_get hg
              obtain ⟨hy1, a, hy2⟩ := hk _ _ hy
              have hj := hf.named ai i q j hi hp h2
              have : y = j := hf.one a q.addr y j hy2 h2 (by rw [hy1, hj])
              subst this
              exact .inl (List.mem_map.2 ⟨_, hy, rfl⟩)
            · exact .inr ⟨q, hq, h1, h2⟩
      | none =>
        simp only
        obtain ⟨g1, g2, g3⟩ := getIdentity_sees hf hs p.addr
        rcases hgi : σ.getIdentity env p.addr with ⟨τ, _ | j0⟩
        · rw [hgi] at g1 g2 g3
          have := ih hsub' (τ, found) g2 hk
          refine ⟨this.1, this.2.1, this.2.2.1.trans g3, fun j => ?_⟩
          simp only
          rw [this.2.2.2]
          constructor
          · rintro (h | ⟨q, hq, h⟩)
            · exact .inl h
            · exact .inr ⟨q, List.mem_cons_of_mem _ hq, h⟩
          · rintro (h | ⟨q, hq, h1, h2⟩)
            · exact .inl h
            · rcases List.mem_cons.1 hq with rfl | hq
              · rw [← g1] at h2; cases h2
              · exact .inr ⟨q, hq, h1, h2⟩
        · rw [hgi] at g1 g2 g3
          simp only at g1
          have hk' : FoundOk f (found.insert p.id j0) := by
            intro k x hx
            rw [Assoc.mem_insert] at hx
            rcases hx with hx | hx
            · cases hx
              exact ⟨hf.named ai i p j0 hi hp g1.symm, p.addr, g1.symm⟩
            · exact hk k x hx.1
          have := ih hsub' (τ, found.insert p.id j0) g2 hk'
          refine ⟨this.1, this.2.1, this.2.2.1.trans g3, fun j => ?_⟩
          simp only
          rw [this.2.2.2]
          have hins : j ∈ (found.insert p.id j0).vals ↔ j = j0 ∨ j ∈ found.vals := by
            simp only [Assoc.vals, List.mem_map]
            constructor
            · rintro ⟨⟨k, x⟩, hx, rfl⟩
              rw [Assoc.mem_insert] at hx
              rcases hx with hx | hx
              · cases hx; exact .inl rfl
              · exact .inr ⟨_, hx.1, rfl⟩
            · rintro (rfl | ⟨⟨k, x⟩, hx, rfl⟩)
              · exact ⟨(p.id, j), Assoc.mem_insert.2 (.inl rfl), rfl⟩
              · refine ⟨(k, x), Assoc.mem_insert.2 (.inr ⟨hx, ?_⟩), rfl⟩
                rintro e'
                simp only at e'
                exact Assoc.get_none_iff.1 hg x (e' ▸ hx)
          rw [hins]
          constructor
          · rintro ((rfl | h) | ⟨q, hq, h⟩)
            · exact .inr ⟨p, by simp, e, g1.symm⟩
            · exact .inl h
            · exact .inr ⟨q, List.mem_cons_of_mem _ hq, h⟩
          · rintro (h | ⟨q, hq, h1, h2⟩)
            · exact .inl (.inr h)
            · rcases List.mem_cons.1 hq with rfl | hq
              · rw [← g1] at h2; cases h2; exact .inl (.inl rfl)
              · exact .inr ⟨q, hq, h1, h2⟩

theorem all_exact {env : DEnv} {f : String → Option Identity} (hf : FitTogether f) (self : Nat) :
    ∀ (is : List Identity), (∀ i ∈ is, ∃ a, f a = some i) → ∀ (s : Disc × Assoc Nat Identity),
      (∀ a, s.1.sees env a = f a) → FoundOk f s.2 →
      (Disc.discoverAll env self is s).1.queue = s.1.queue ∧
      ∀ j, j ∈ (Disc.discoverAll env self is s).2.vals ↔ j ∈ s.2.vals ∨ ∃ i ∈ is, OneHop f self i j := by
  intro is
  induction is with
  | nil => intro _ s hs hk; exact ⟨rfl, by simp [Disc.discoverAll]⟩
  | cons i is ih =>
    intro hsub s hs hk
    obtain ⟨a, ha⟩ := hsub i (by simp)
    obtain ⟨p1, p2, p3, p4⟩ := peers_exact (env := env) hf self i a ha i.peers (fun p hp => hp) s hs hk
    obtain ⟨q1, q2⟩ := ih (fun j hj => hsub j (List.mem_cons_of_mem _ hj)) _ p1 p2
    refine ⟨q1.trans p3, fun j => ?_⟩
    simp only [Disc.discoverAll]
    rw [q2, p4]
    simp [OneHop, or_assoc]

/-- **C60 (exactly two hops)**: if the answers of the nodes fit together, one look at a seed asks for exactly these nodes: the seed,
the nodes it lists, and the nodes those list, as far as they answer; no others, and none of these is left out. -/
theorem C60_two_hops_partial (env : DEnv) (self : Nat) (σ : Disc) (addr : String) (seed : Identity)
    (hf : FitTogether (σ.sees env)) (h : σ.byAddr.get addr = none) (hi : env.identify addr = some seed) :
    ∃ ns, (σ.discoverAddr env self addr).queue = σ.queue ++ [ns] ∧
      ∀ n, n ∈ ns ↔ ∃ j, j.node = n ∧ (j = seed ∨ OneHop (σ.sees env) self seed j ∨
        ∃ i, OneHop (σ.sees env) self seed i ∧ OneHop (σ.sees env) self i j) := by
  obtain ⟨g1, g2, g3⟩ := getIdentity_sees hf (fun _ => rfl) addr
  have hseed : σ.sees env addr = some seed := by simp [Disc.sees, h, hi]
  unfold Disc.discoverAddr
  simp only [h]
  rcases hgi : σ.getIdentity env addr with ⟨τ, x⟩
  rw [hgi] at g1 g2 g3
  simp only at g1
  rw [hseed] at g1
  subst g1
  simp only
  have hk0 : FoundOk (σ.sees env) [(seed.node.id, seed)] := by
    intro k x hx
    simp only [List.mem_singleton, Prod.mk.injEq] at hx
    obtain ⟨rfl, rfl⟩ := hx
    exact ⟨rfl, addr, hseed⟩
  obtain ⟨p1, p2, p3, p4⟩ := peers_exact hf self seed addr hseed seed.peers (fun p hp => hp) (τ, [(seed.node.id, seed)]) g2 hk0
  have hv0 : ∀ j, j ∈ (Disc.discoverPeers env self seed.peers (τ, [(seed.node.id, seed)])).2.vals ↔
      j = seed ∨ OneHop (σ.sees env) self seed j := by
    intro j
    rw [p4]
    simp [Assoc.vals, OneHop]
  generalize Disc.discoverPeers env self seed.peers (τ, [(seed.node.id, seed)]) = s at p1 p2 p3 hv0
  split
  · obtain ⟨q1, q2⟩ := all_exact hf self s.2.vals (fun i hi => by
      obtain ⟨⟨k, x⟩, hx, rfl⟩ := List.mem_map.1 hi
      exact (p2 k x hx).2) s p1 p2
    refine ⟨_, by rw [q1, p3, g3], fun n => ?_⟩
    simp only [List.mem_map]
    constructor
    · rintro ⟨j, hj, rfl⟩
      refine ⟨j, rfl, ?_⟩
      rw [q2, hv0] at hj
      rcases hj with (h1 | h1) | ⟨i, h1, h2⟩
      · exact .inl h1
      · exact .inr (.inl h1)
      · rcases (hv0 i).1 h1 with rfl | h3
        · exact .inr (.inl h2)
        · exact .inr (.inr ⟨i, h3, h2⟩)
    · rintro ⟨j, rfl, hj⟩
      refine ⟨j, ?_, rfl⟩
      rw [q2, hv0]
      rcases hj with h1 | h1 | ⟨i, h1, h2⟩
      · exact .inl (.inl h1)
      · exact .inl (.inr h1)
      · exact .inr ⟨i, (hv0 i).2 (.inr h1), h2⟩
  · rename_i hlen
    refine ⟨_, by rw [p3, g3], fun n => ?_⟩
    have hone : ∀ j, OneHop (σ.sees env) self seed j → j = seed := by
      intro j hj
      have m1 := (hv0 j).2 (.inr hj)
      have m2 := (hv0 seed).2 (.inl rfl)
      match hs : s.2 with
      | [] => rw [hs] at m1; simp [Assoc.vals] at m1
      | [x] =>
        rw [hs] at m1 m2
        simp [Assoc.vals] at m1 m2
        rw [m1, m2]
      | x :: y :: l => rw [hs] at hlen; simp at hlen
    simp only [List.mem_map]
    constructor
    · rintro ⟨j, hj, rfl⟩
      rcases (hv0 j).1 hj with h1 | h1
      · exact ⟨j, rfl, .inl h1⟩
      · exact ⟨j, rfl, .inr (.inl h1)⟩
    · rintro ⟨j, rfl, hj⟩
      refine ⟨j, ?_, rfl⟩
      rw [hv0]
      rcases hj with h1 | h1 | ⟨i, h1, h2⟩
      · exact .inl h1
      · exact .inr h1
      · have := hone i h1
        subst this
        exact .inr h2

/-- the chain of four nodes of `C60_chain_refuted`: the hypotheses hold, and exactly three nodes are asked for. -/
example : ∃ ns, (({} : Disc).discoverAddr (demoEnv [("a", ⟨⟨1, "a"⟩, [⟨2, "b"⟩]⟩), ("b", ⟨⟨2, "b"⟩, [⟨3, "c"⟩]⟩),
    ("c", ⟨⟨3, "c"⟩, [⟨4, "d"⟩]⟩), ("d", ⟨⟨4, "d"⟩, []⟩)]) 9 "a").queue = [ns] ∧ ns.map (·.id) = [3, 2, 1] :=
  ⟨_, rfl, by decide⟩

example : FitTogether (({} : Disc).sees (demoEnv [("a", ⟨⟨1, "a"⟩, [⟨2, "b"⟩]⟩), ("b", ⟨⟨2, "b"⟩, [⟨3, "c"⟩]⟩)])) := by
  have hc : ∀ a i, ({} : Disc).sees (demoEnv [("a", ⟨⟨1, "a"⟩, [⟨2, "b"⟩]⟩), ("b", ⟨⟨2, "b"⟩, [⟨3, "c"⟩]⟩)]) a = some i →
      (a = "a" ∧ i = ⟨⟨1, "a"⟩, [⟨2, "b"⟩]⟩) ∨ (a = "b" ∧ i = ⟨⟨2, "b"⟩, [⟨3, "c"⟩]⟩) := by
    intro a i hi
    by_cases h1 : a = "a"
    · subst h1
      exact .inl ⟨rfl, (Option.some.inj (hi.symm.trans (by decide)))⟩
    · by_cases h2 : a = "b"
      · subst h2
        exact .inr ⟨rfl, (Option.some.inj (hi.symm.trans (by decide)))⟩
      · simp [Disc.sees, demoEnv, Assoc.get] at hi
        obtain ⟨_, h | h⟩ := hi
        · exact absurd h.1.symm h1
        · exact absurd h.2.1.symm h2
  refine ⟨fun a i hi => ?_, fun a i p j hi hp hj => ?_, fun a b i j hi hj e => ?_⟩
  · rcases hc a i hi with ⟨rfl, rfl⟩ | ⟨rfl, rfl⟩ <;> decide
  · rcases hc a i hi with ⟨rfl, rfl⟩ | ⟨rfl, rfl⟩ <;> simp at hp <;> subst hp <;>
      rcases hc _ j hj with ⟨h1, rfl⟩ | ⟨h1, rfl⟩ <;> simp_all
  · rcases hc a i hi with ⟨rfl, rfl⟩ | ⟨rfl, rfl⟩ <;> rcases hc b j hj with ⟨rfl, rfl⟩ | ⟨rfl, rfl⟩ <;> simp_all

end Verif.Remote
