import Verif.Singleton.ClusterModel

/-! # Leases in a cluster: the invariant -/

namespace Verif.Singleton

def MState.isStarting : MState → Bool
  | .starting _ => true
  | _ => false

def MState.acked : MState → List Nat
  | .starting l => l
  | _ => []

/-- 1 if the state remembers that `n` is to get the lease. -/
def MState.holds (n : Nat) : MState → Nat
  | .joining p => if p = some n then 1 else 0
  | .stopping _ m => if m = n then 1 else 0
  | _ => 0

/-- every other manager has acknowledged. -/
def Mgr.complete (σ : Mgr) : Prop := σ.st.isStarting = true ∧ ∀ n ∈ σ.managers, n ∈ σ.st.acked

/-- an instance is running, or the manager has still to be told of its end. -/
def Mgr.busy (σ : Mgr) : Prop := σ.live ≠ [] ∨ σ.ended ≠ []

def MState.one (s : MState) : Nat := if s.isStarting then 1 else 0

/-- `X` has given its lease to `Y`, as far as `Y` knows or will know. -/
def Cl.Granted (w : Cl) (X Y : Nat) : Prop := (Y, MMsg.ack X) ∈ w.net ∨ X ∈ (w.mgr Y).st.acked

/-- traces of the request of `X` to `Y`: the request, its being remembered, the answer, its being
counted. -/
def Cl.tok (w : Cl) (X Y : Nat) : Nat :=
  w.net.count (Y, .request X) + (w.mgr Y).st.holds X + w.net.count (X, .ack Y) + (w.mgr X).st.acked.count Y

def MMsg.src? : MMsg → Option Nat
  | .request s => some s
  | .ack s => some s
  | _ => none

structure Inv (nodes : List Nat) (w : Cl) : Prop where
  self : ∀ d, (w.mgr d).self = d
  nodup : ∀ d, (w.mgr d).managers.Nodup
  known : ∀ d, ∀ n ∈ (w.mgr d).managers, n ∈ nodes ∧ n ≠ d
  all : ∀ d ∈ nodes, (w.mgr d).st.isJoining = false → ∀ n ∈ nodes, n ≠ d → n ∈ (w.mgr d).managers
  src : ∀ d m s, (d, m) ∈ w.net → m.src? = some s → d ∈ nodes ∧ s ∈ nodes ∧ s ≠ d
  held : ∀ d s, 0 < (w.mgr d).st.holds s → d ∈ nodes ∧ s ∈ nodes ∧ s ≠ d
  ackd : ∀ d, ∀ s ∈ (w.mgr d).st.acked, d ∈ nodes ∧ s ∈ nodes ∧ s ≠ d
  tok : ∀ X Y, w.tok X Y ≤ (w.mgr X).st.one
  mem : ∀ d, (w.mgr d).busy → d ∈ nodes
  k1 : ∀ d, (w.mgr d).live.length + (w.mgr d).ended.length ≤ 1
  k2 : ∀ d, (w.mgr d).starts + (w.mgr d).results.length ≤ 1
  k2' : ∀ d, 0 < (w.mgr d).starts + (w.mgr d).results.length → (w.mgr d).complete
  k3 : ∀ d, 0 < (w.mgr d).starts → ¬ (w.mgr d).busy
  k4 : ∀ d, (w.mgr d).st.isJoining = true ∨ (w.mgr d).st = .idle → ¬ (w.mgr d).busy
  k5 : ∀ d, (w.mgr d).busy → (∀ a, (w.mgr d).st ≠ .running a) → (w.mgr d).results = [] →
    ∃ B ∈ nodes, B ≠ d ∧ (w.mgr B).st.isStarting = true ∧ ¬ w.Granted B d
  k6 : ∀ X, (w.mgr X).busy ∨ (w.mgr X).complete → ∀ Y, ¬ w.Granted X Y
  k7 : ∀ X Y, ¬ (w.Granted X Y ∧ w.Granted Y X)

theorem Inv.init (nodes : List Nat) : Inv nodes Cl.init := by
  constructor <;> simp [Cl.init, Mgr.init, MState.holds, MState.acked, Cl.tok, MState.one, MState.isStarting, Mgr.busy,
    Mgr.complete, Cl.Granted, MState.isJoining]

theorem MState.one_le (s : MState) : s.one ≤ 1 := by unfold MState.one; split <;> omega

theorem MState.one_pos {s : MState} (h : 0 < s.one) : s.isStarting = true := by
  unfold MState.one at h; split at h <;> simp_all

theorem Inv.req {nodes : List Nat} {w : Cl} (h : Inv nodes w) {d X : Nat} (hm : (d, MMsg.request X) ∈ w.net) :
    (w.mgr X).st.isStarting = true ∧ w.net.count (d, .request X) = 1 ∧ (w.mgr d).st.holds X = 0 ∧
      w.net.count (X, .ack d) = 0 ∧ (w.mgr X).st.acked.count d = 0 := by
  have h1 := h.tok X d
  have h2 : 0 < w.net.count (d, .request X) := List.count_pos_iff.2 hm
  have h3 := (w.mgr X).st.one_le
  unfold Cl.tok at h1
  refine ⟨MState.one_pos (by omega), by omega, by omega, by omega, by omega⟩

theorem Inv.ack {nodes : List Nat} {w : Cl} (h : Inv nodes w) {d Y : Nat} (hm : (d, MMsg.ack Y) ∈ w.net) :
    (w.mgr d).st.isStarting = true ∧ w.net.count (Y, .request d) = 0 ∧ (w.mgr Y).st.holds d = 0 ∧
      w.net.count (d, .ack Y) = 1 ∧ (w.mgr d).st.acked.count Y = 0 := by
  have h1 := h.tok d Y
  have h2 : 0 < w.net.count (d, .ack Y) := List.count_pos_iff.2 hm
  have h3 := (w.mgr d).st.one_le
  unfold Cl.tok at h1
  refine ⟨MState.one_pos (by omega), by omega, by omega, by omega, by omega⟩

theorem Inv.hold {nodes : List Nat} {w : Cl} (h : Inv nodes w) {d X : Nat} (hm : 0 < (w.mgr d).st.holds X) :
    (w.mgr X).st.isStarting = true ∧ w.net.count (d, .request X) = 0 ∧ (w.mgr d).st.holds X = 1 ∧
      w.net.count (X, .ack d) = 0 ∧ (w.mgr X).st.acked.count d = 0 := by
  have h1 := h.tok X d
  have h3 := (w.mgr X).st.one_le
  unfold Cl.tok at h1
  refine ⟨MState.one_pos (by omega), by omega, by omega, by omega, by omega⟩

/-- a node that is not starting has been given nothing. -/
theorem Inv.notGranted {nodes : List Nat} {w : Cl} (h : Inv nodes w) {Y : Nat} (hY : (w.mgr Y).st.isStarting = false)
    (X : Nat) : ¬ w.Granted X Y := by
  rintro (hg | hg)
  · have := (h.ack hg).1
    simp [hY] at this
  · have : (w.mgr Y).st.acked = [] := by
      cases hs : (w.mgr Y).st <;> simp_all [MState.isStarting, MState.acked]
    rw [this] at hg; simp at hg

theorem Inv.tokZero {nodes : List Nat} {w : Cl} (h : Inv nodes w) {X : Nat} (hX : (w.mgr X).st.isStarting = false)
    (Y : Nat) : w.tok X Y = 0 := by
  have := h.tok X Y
  unfold MState.one at this
  simp [hX] at this
  exact this

/-! ### micro-steps -/

/-- fewer messages. -/
theorem Inv.shrink {nodes : List Nat} {w : Cl} (h : Inv nodes w) {net : List (Nat × MMsg)} (hn : net.Sublist w.net) :
    Inv nodes { w with net := net } := by
  have hg : ∀ X Y, Cl.Granted { w with net := net } X Y → w.Granted X Y := by
    rintro X Y (hg | hg)
    · exact .inl (hn.subset hg)
    · exact .inr hg
  refine ⟨h.self, h.nodup, h.known, h.all, fun d m s hm => h.src d m s (hn.subset hm), h.held, h.ackd, ?_, h.mem, h.k1, h.k2,
    h.k2', h.k3, h.k4, ?_, ?_, ?_⟩
  · intro X Y
    have := h.tok X Y
    have h1 := hn.count_le (Y, MMsg.request X)
    have h2 := hn.count_le (X, MMsg.ack Y)
    unfold Cl.tok at this ⊢
    dsimp only
    omega
  · intro d h1 h2 h3
    obtain ⟨B, hB, hne, hs, hng⟩ := h.k5 d h1 h2 h3
    exact ⟨B, hB, hne, hs, fun e => hng (hg _ _ e)⟩
  · exact fun X hX Y e => h.k6 X hX Y (hg _ _ e)
  · exact fun X Y e => h.k7 X Y ⟨hg _ _ e.1, hg _ _ e.2⟩

/-- an answer to `X` is sent. -/
theorem Inv.grant {nodes : List Nat} {w : Cl} (h : Inv nodes w) {d X : Nat} (hd : d ∈ nodes) (hX : X ∈ nodes)
    (hne : X ≠ d) (hs : (w.mgr X).st.isStarting = true) (ht : w.tok X d = 0) (hb : ¬ (w.mgr d).busy)
    (hc : (w.mgr d).st.isStarting = false) : Inv nodes { w with net := w.net ++ [(X, .ack d)] } := by
  have hcnt : ∀ x, (w.net ++ [(X, MMsg.ack d)]).count x = w.net.count x + if x = (X, MMsg.ack d) then 1 else 0 := by
    intro x
    rw [List.count_append]
    by_cases e : x = (X, MMsg.ack d)
    · subst e; simp
    · have : [(X, MMsg.ack d)].count x = 0 := List.count_eq_zero.2 (by simpa using e)
      rw [if_neg e, this]
  have hg : ∀ A B, Cl.Granted { w with net := w.net ++ [(X, .ack d)] } A B → w.Granted A B ∨ (A = d ∧ B = X) := by
    rintro A B (hg | hg)
    · rcases List.mem_append.1 hg with hg | hg
      · exact .inl (.inl hg)
      · simp only [List.mem_singleton, Prod.mk.injEq, MMsg.ack.injEq] at hg
        exact .inr ⟨hg.2, hg.1⟩
    · exact .inl (.inr hg)
  have hng := h.notGranted hc
  refine ⟨h.self, h.nodup, h.known, h.all, ?_, h.held, h.ackd, ?_, h.mem, h.k1, h.k2, h.k2', h.k3, h.k4, ?_, ?_, ?_⟩
  · intro e m s hm hm'
    rcases List.mem_append.1 hm with hm | hm
    · exact h.src e m s hm hm'
    · simp only [List.mem_singleton, Prod.mk.injEq] at hm
      obtain ⟨rfl, rfl⟩ := hm
      simp only [MMsg.src?, Option.some.injEq] at hm'
      subst hm'
      exact ⟨hX, hd, hne.symm⟩
  · intro A B
    have h1 := h.tok A B
    by_cases e : A = X ∧ B = d
    · obtain ⟨rfl, rfl⟩ := e
      unfold Cl.tok at ht ⊢
      dsimp only
      rw [hcnt, hcnt, if_neg (by simp), if_pos rfl]
      have : (w.mgr A).st.one = 1 := by simp [MState.one, hs]
      omega
    · unfold Cl.tok at h1 ⊢
      dsimp only
      rw [hcnt, hcnt, if_neg (by simp), if_neg (by simpa using e)]
      omega
  · intro e h1 h2 h3
    obtain ⟨B, hB, hne', hs', hng'⟩ := h.k5 e h1 h2 h3
    refine ⟨B, hB, hne', hs', fun hx => ?_⟩
    rcases hg _ _ hx with hx | ⟨rfl, rfl⟩
    · exact hng' hx
    · simp [hc] at hs'
  · intro A hA B hx
    rcases hg _ _ hx with hx | ⟨rfl, rfl⟩
    · exact h.k6 A hA B hx
    · rcases hA with hA | hA
      · exact hb hA
      · have := hA.1; simp [hc] at this
  · rintro A B ⟨h1, h2⟩
    rcases hg _ _ h1 with h1' | ⟨rfl, rfl⟩
    · rcases hg _ _ h2 with h2 | ⟨rfl, rfl⟩
      · exact h.k7 A B ⟨h1', h2⟩
      · exact hng _ h1'
    · rcases hg _ _ h2 with h2 | ⟨e1, e2⟩
      · exact hng _ h2
      · exact hne e1

/-- messages of no interest are sent. -/
theorem Inv.noise {nodes : List Nat} {w : Cl} (h : Inv nodes w) {l : List (Nat × MMsg)}
    (hl : ∀ x ∈ l, x.2.src? = none) : Inv nodes { w with net := w.net ++ l } := by
  have hcnt : ∀ x : Nat × MMsg, x.2.src? ≠ none → (w.net ++ l).count x = w.net.count x := by
    intro x hx
    rw [List.count_append, List.count_eq_zero.2 (fun e => hx (hl x e)), Nat.add_zero]
  have hg : ∀ A B, Cl.Granted { w with net := w.net ++ l } A B → w.Granted A B := by
    rintro A B (hg | hg)
    · rcases List.mem_append.1 hg with hg | hg
      · exact .inl hg
      · have := hl _ hg; simp [MMsg.src?] at this
    · exact .inr hg
  refine ⟨h.self, h.nodup, h.known, h.all, ?_, h.held, h.ackd, ?_, h.mem, h.k1, h.k2, h.k2', h.k3, h.k4, ?_, ?_, ?_⟩
  · intro e m s hm hm'
    rcases List.mem_append.1 hm with hm | hm
    · exact h.src e m s hm hm'
    · have := hl _ hm; simp [hm'] at this
  · intro A B
    have h1 := h.tok A B
    unfold Cl.tok at h1 ⊢
    dsimp only
    rw [hcnt _ (by simp [MMsg.src?]), hcnt _ (by simp [MMsg.src?])]
    exact h1
  · intro e h1 h2 h3
    obtain ⟨B, hB, hne', hs', hng'⟩ := h.k5 e h1 h2 h3
    exact ⟨B, hB, hne', hs', fun hx => hng' (hg _ _ hx)⟩
  · exact fun A hA B hx => h.k6 A hA B (hg _ _ hx)
  · exact fun A B e => h.k7 A B ⟨hg _ _ e.1, hg _ _ e.2⟩

/-- one manager changes. -/
def Cl.upd (w : Cl) (d : Nat) (σ : Mgr) : Cl := { w with mgr := w.setMgr d σ }

theorem Cl.upd_self (w : Cl) (d : Nat) (σ : Mgr) : (w.upd d σ).mgr d = σ := by simp [Cl.upd, Cl.setMgr]

theorem Cl.upd_other (w : Cl) {d n : Nat} (σ : Mgr) (h : n ≠ d) : (w.upd d σ).mgr n = w.mgr n := by
  simp [Cl.upd, Cl.setMgr, h]

theorem Cl.upd_net (w : Cl) (d : Nat) (σ : Mgr) : (w.upd d σ).net = w.net := rfl

/-- The conditions under which a manager may change. -/
structure Fits (nodes : List Nat) (w : Cl) (d : Nat) (σ : Mgr) : Prop where
  self : σ.self = d
  nodup : σ.managers.Nodup
  known : ∀ n ∈ σ.managers, n ∈ nodes ∧ n ≠ d
  all : d ∈ nodes → σ.st.isJoining = false → ∀ n ∈ nodes, n ≠ d → n ∈ σ.managers
  held : ∀ s, 0 < σ.st.holds s → d ∈ nodes ∧ s ∈ nodes ∧ s ≠ d
  ackd : ∀ s ∈ σ.st.acked, d ∈ nodes ∧ s ∈ nodes ∧ s ≠ d
  tokOut : ∀ Y, Y ≠ d → w.net.count (Y, .request d) + (w.mgr Y).st.holds d + w.net.count (d, .ack Y) + σ.st.acked.count Y ≤
    σ.st.one
  tokIn : ∀ X, X ≠ d → w.net.count (d, .request X) + σ.st.holds X + w.net.count (X, .ack d) + (w.mgr X).st.acked.count d ≤
    (w.mgr X).st.one
  mem : σ.busy → d ∈ nodes
  k1 : σ.live.length + σ.ended.length ≤ 1
  k2 : σ.starts + σ.results.length ≤ 1
  k2' : 0 < σ.starts + σ.results.length → σ.complete
  k3 : 0 < σ.starts → ¬ σ.busy
  k4 : σ.st.isJoining = true ∨ σ.st = .idle → ¬ σ.busy
  k5 : σ.busy → (∀ a, σ.st ≠ .running a) → σ.results = [] →
    ∃ B ∈ nodes, B ≠ d ∧ (w.mgr B).st.isStarting = true ∧ (d, MMsg.ack B) ∉ w.net ∧ B ∉ σ.st.acked
  stays : ∀ X, X ≠ d → (w.mgr X).busy → (w.mgr d).st.isStarting = true → ¬ w.Granted X d → σ.st.isStarting = true
  k6 : σ.busy ∨ σ.complete → ∀ Y, Y ≠ d → ¬ w.Granted d Y
  k6' : ∀ X ∈ σ.st.acked, ¬ (w.mgr X).busy ∧ ¬ (w.mgr X).complete
  k7 : ∀ X ∈ σ.st.acked, ¬ w.Granted d X

theorem Inv.upd {nodes : List Nat} {w : Cl} (h : Inv nodes w) {d : Nat} {σ : Mgr} (f : Fits nodes w d σ) :
    Inv nodes (w.upd d σ) := by
  have other : ∀ {n}, n ≠ d → (w.upd d σ).mgr n = w.mgr n := fun hn => w.upd_other σ hn
  have me : (w.upd d σ).mgr d = σ := w.upd_self d σ
  have hnet : (w.upd d σ).net = w.net := rfl
  have gother : ∀ {A B}, B ≠ d → ((w.upd d σ).Granted A B ↔ w.Granted A B) := by
    intro A B hB
    unfold Cl.Granted
    rw [other hB, hnet]
  have gme : ∀ {A}, (w.upd d σ).Granted A d ↔ (d, MMsg.ack A) ∈ w.net ∨ A ∈ σ.st.acked := by
    intro A
    unfold Cl.Granted
    rw [me, hnet]
  have ackne : ∀ {A B}, w.Granted A B → A ≠ B := by
    rintro A B (hg | hg)
    · exact (h.src _ _ _ hg rfl).2.2
    · exact (h.ackd _ _ hg).2.2
  constructor
  · intro n; by_cases hn : n = d
    · subst hn; rw [me]; exact f.self
    · rw [other hn]; exact h.self n
  · intro n; by_cases hn : n = d
    · subst hn; rw [me]; exact f.nodup
    · rw [other hn]; exact h.nodup n
  · intro n; by_cases hn : n = d
    · subst hn; rw [me]; exact f.known
    · rw [other hn]; exact h.known n
  · intro n; by_cases hn : n = d
    · subst hn; rw [me]; exact f.all
    · rw [other hn]; exact h.all n
  · exact h.src
  · intro n; by_cases hn : n = d
    · subst hn; rw [me]; exact f.held
    · rw [other hn]; exact h.held n
  · intro n; by_cases hn : n = d
    · subst hn; rw [me]; exact f.ackd
    · rw [other hn]; exact h.ackd n
  · intro X Y
    unfold Cl.tok
    rw [hnet]
    by_cases hX : X = d
    · subst hX
      by_cases hY : Y = X
      · subst hY
        have a1 : w.net.count (Y, MMsg.request Y) = 0 := List.count_eq_zero.2 fun e => (h.src _ _ _ e rfl).2.2 rfl
        have a2 : w.net.count (Y, MMsg.ack Y) = 0 := List.count_eq_zero.2 fun e => (h.src _ _ _ e rfl).2.2 rfl
        rw [me, a1, a2]
        have a3 : σ.st.acked.count Y = 0 := List.count_eq_zero.2 fun e => (f.ackd _ e).2.2 rfl
        have a4 : σ.st.holds Y = 0 := by
          rcases Nat.eq_zero_or_pos (σ.st.holds Y) with e | e
          · exact e
          · exact absurd rfl (f.held _ e).2.2
        omega
      · rw [me, other hY]; exact f.tokOut Y hY
    · by_cases hY : Y = d
      · subst hY; rw [me, other hX]; exact f.tokIn X hX
      · rw [other hX, other hY]; exact h.tok X Y
  · intro n; by_cases hn : n = d
    · subst hn; rw [me]; exact f.mem
    · rw [other hn]; exact h.mem n
  · intro n; by_cases hn : n = d
    · subst hn; rw [me]; exact f.k1
    · rw [other hn]; exact h.k1 n
  · intro n; by_cases hn : n = d
    · subst hn; rw [me]; exact f.k2
    · rw [other hn]; exact h.k2 n
  · intro n; by_cases hn : n = d
    · subst hn; rw [me]; exact f.k2'
    · rw [other hn]; exact h.k2' n
  · intro n; by_cases hn : n = d
    · subst hn; rw [me]; exact f.k3
    · rw [other hn]; exact h.k3 n
  · intro n; by_cases hn : n = d
    · subst hn; rw [me]; exact f.k4
    · rw [other hn]; exact h.k4 n
  · intro n; by_cases hn : n = d
    · subst hn; rw [me]; intro h1 h2 h3
      obtain ⟨B, hB, hne, hs, hg1, hg2⟩ := f.k5 h1 h2 h3
      refine ⟨B, hB, hne, by rw [other hne]; exact hs, ?_⟩
      rw [gme]; rintro (e | e)
      · exact hg1 e
      · exact hg2 e
    · rw [other hn]; intro h1 h2 h3
      obtain ⟨B, hB, hne, hs, hg⟩ := h.k5 n h1 h2 h3
      refine ⟨B, hB, hne, ?_, by rw [gother hn]; exact hg⟩
      by_cases hBd : B = d
      · subst hBd; rw [me]; exact f.stays n hn h1 hs (h.k6 n (.inl h1) _)
      · rw [other hBd]; exact hs
  · intro X; by_cases hX : X = d
    · subst hX; rw [me]; intro h1 Y
      by_cases hY : Y = X
      · subst hY; rw [gme]; rintro (e | e)
        · exact (h.src _ _ _ e rfl).2.2 rfl
        · exact (f.ackd _ e).2.2 rfl
      · rw [gother hY]; exact f.k6 h1 Y hY
    · rw [other hX]; intro h1 Y
      by_cases hY : Y = d
      · subst hY; rw [gme]; rintro (e | e)
        · exact h.k6 X h1 _ (.inl e)
        · rcases h1 with h1 | h1
          · exact (f.k6' X e).1 h1
          · exact (f.k6' X e).2 h1
      · rw [gother hY]; exact h.k6 X h1 Y
  · intro X Y
    by_cases hX : X = d
    · subst hX
      by_cases hY : Y = X
      · subst hY; rw [gme]; rintro ⟨e | e, _⟩
        · exact (h.src _ _ _ e rfl).2.2 rfl
        · exact (f.ackd _ e).2.2 rfl
      · rw [gother hY, gme]; rintro ⟨e1, e2 | e2⟩
        · exact h.k7 X Y ⟨e1, .inl e2⟩
        · exact f.k7 Y e2 e1
    · by_cases hY : Y = d
      · subst hY
        rw [gother hX, gme]; rintro ⟨e2 | e2, e1⟩
        · exact h.k7 X Y ⟨.inl e2, e1⟩
        · exact f.k7 X e2 e1
      · rw [gother hX, gother hY]; exact h.k7 X Y

/-- what is the case of the manager at `d` now. -/
theorem Inv.fits {nodes : List Nat} {w : Cl} (h : Inv nodes w) (d : Nat) : Fits nodes w d (w.mgr d) where
  self := h.self d
  nodup := h.nodup d
  known := h.known d
  all := h.all d
  held := h.held d
  ackd := h.ackd d
  tokOut Y _ := h.tok d Y
  tokIn X _ := h.tok X d
  mem := h.mem d
  k1 := h.k1 d
  k2 := h.k2 d
  k2' := h.k2' d
  k3 := h.k3 d
  k4 := h.k4 d
  k5 h1 h2 h3 := by
    obtain ⟨B, hB, hne, hs, hg⟩ := h.k5 d h1 h2 h3
    exact ⟨B, hB, hne, hs, fun e => hg (.inl e), fun e => hg (.inr e)⟩
  stays _ _ _ hs _ := hs
  k6 h1 Y _ := h.k6 d h1 Y
  k6' X hX := ⟨fun e => h.k6 X (.inl e) d (.inr hX), fun e => h.k6 X (.inr e) d (.inr hX)⟩
  k7 X hX e := h.k7 d X ⟨e, .inr hX⟩

end Verif.Singleton
