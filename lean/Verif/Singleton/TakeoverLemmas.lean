import Verif.Singleton.TakeoverSpec
import Verif.Singleton.FirstStartRun

/-! # Cluster singletons when nodes fail: the invariant -/

namespace Verif.Singleton

variable {A : List Nat} {K B : Nat} {w : Cl}

/-- how far the new leader is. -/
inductive Heading (σ : Mgr) : Prop where
  | idle (h : σ.st = .idle) (h1 : σ.starts = 0) (h2 : σ.results = []) (h3 : σ.fresh = 0)
  | waiting (l : List Nat) (h : σ.st = .starting l) (hl : l.length ≠ σ.managers.length)
      (h1 : σ.starts = 0) (h2 : σ.results = []) (h3 : σ.fresh = 0)
  | starting (l : List Nat) (h : σ.st = .starting l) (hl : l.length = σ.managers.length)
      (h1 : σ.starts = 1) (h2 : σ.results = []) (h3 : σ.fresh = 0)
  | booted (l : List Nat) (h : σ.st = .starting l) (hl : l.length = σ.managers.length)
      (h1 : σ.starts = 0) (h2 : σ.results = [0]) (h3 : σ.fresh = 1)
  | running (h : σ.st = .running 0) (h1 : σ.starts = 0) (h2 : σ.results = []) (h3 : σ.fresh = 1)

/-- a node that has nothing to do with the singleton. -/
structure Calm (σ : Mgr) : Prop where
  st : σ.st = .idle
  starts : σ.starts = 0
  results : σ.results = []
  fresh : σ.fresh = 0

/-- the messages about the singleton of `B`. -/
def About (A : List Nat) (B : Nat) (x : Nat × MMsg) : Prop :=
  ∃ X ∈ A, X ≠ B ∧ (x = (X, .request B) ∨ x = (B, .ack X) ∨ x = (X, .started B))

/-- `A`: the nodes left after the crash of `K`. `B`: the leader. -/
structure Heir (A : List Nat) (K B : Nat) (w : Cl) : Prop where
  self : ∀ d ∈ A, (w.mgr d).self = d
  nodup : ∀ d ∈ A, (w.mgr d).managers.Nodup
  known : ∀ d ∈ A, ∀ x ∈ (w.mgr d).managers, (x ∈ A ∨ x = K) ∧ x ≠ d
  all : ∀ d ∈ A, ∀ x ∈ A, x ≠ d → x ∈ (w.mgr d).managers
  oth : ∀ d ∈ A, d ≠ B → Calm (w.mgr d)
  net : ∀ x ∈ w.net, x.1 ∈ A → About A B x
  lead : Heading (w.mgr B)
  idle : (w.mgr B).st = .idle → ∀ x ∈ w.net, x.1 ∉ A
  tok : ∀ l, (w.mgr B).st = .starting l → ∀ X ∈ A, X ≠ B →
    w.net.count (X, .request B) + w.net.count (B, .ack X) + l.count X = 1
  acked : ∀ l, (w.mgr B).st = .starting l → ∀ x ∈ l, x ∈ A ∧ x ≠ B

def weigh (A : List Nat) (x : Nat × MMsg) : Nat := if x.1 ∈ A then x.2.left else 0

def load (A : List Nat) (net : List (Nat × MMsg)) : Nat := (net.map (weigh A)).sum

def Mgr.heirLeft (N : Nat) (σ : Mgr) : Nat :=
  match σ.st with
  | .idle => 3 * N
  | .starting _ => N + 1 - σ.results.length
  | _ => 0

/-- whether the crash of `K` is still to be told. -/
def Mgr.untold (K : Nat) (σ : Mgr) : Nat := if K ∈ σ.managers then 1 else 0

/-- the steps left. -/
def Cl.due (A : List Nat) (K B : Nat) (w : Cl) : Nat :=
  load A w.net + (A.map fun X => (w.mgr X).untold K).sum + (w.mgr B).heirLeft A.length

theorem load_append (l m : List (Nat × MMsg)) : load A (l ++ m) = load A l + load A m := by
  simp [load]

theorem load_erase {l : List (Nat × MMsg)} {x : Nat × MMsg} (h : x ∈ l) : load A (l.erase x) + weigh A x = load A l := by
  have := ((List.perm_cons_erase h).map (weigh A)).sum_nat
  unfold load
  rw [this]
  simp only [List.map_cons, List.sum_cons]
  omega

theorem load_zero {l : List (Nat × MMsg)} : load A l = 0 ↔ ∀ x ∈ l, x.1 ∉ A := by
  induction l with
  | nil => simp [load]
  | cons a l ih =>
    have : load A (a :: l) = weigh A a + load A l := by simp [load]
    rw [this, Nat.add_eq_zero_iff, ih]
    have ha : weigh A a = 0 ↔ a.1 ∉ A := by
      unfold weigh
      by_cases e : a.1 ∈ A
      · rw [if_pos e]
        have : 0 < a.2.left := by cases a.2 <;> simp [MMsg.left]
        exact ⟨fun h => by omega, fun h => absurd e h⟩
      · rw [if_neg e]; exact ⟨fun _ => e, fun _ => rfl⟩
    rw [ha]
    simp

/-- messages to the managers known: those to `K` do not count. -/
theorem load_told (hA : A.Nodup) {d : Nat} (hd : d ∈ A) {ms : List Nat} (hms : ms.Nodup)
    (hk : ∀ x ∈ ms, (x ∈ A ∨ x = K) ∧ x ≠ d) (ha : ∀ x ∈ A, x ≠ d → x ∈ ms) (m : MMsg) :
    load A (ms.map fun n => (n, m)) + m.left = m.left * A.length := by
  have h1 : load A (ms.map fun n => (n, m)) = m.left * (ms.filter fun x => decide (x ∈ A)).length := by
    unfold load
    rw [List.map_map]
    clear hms hk ha
    induction ms with
    | nil => simp
    | cons a ms ih =>
      simp only [List.map_cons, List.sum_cons, List.filter_cons, ih, Function.comp, weigh]
      by_cases e : a ∈ A
      · simp [e, Nat.mul_add, Nat.add_comm]
      · simp [e]
  have h2 : (ms.filter fun x => decide (x ∈ A)).Perm (followers A d) := by
    refine (List.perm_ext_iff_of_nodup (hms.filter _) (hA.filter _)).2 fun x => ?_
    rw [show (x ∈ List.filter (fun x => decide (x ≠ d)) A) ↔ x ∈ A ∧ x ≠ d by simp, List.mem_filter]
    constructor
    · rintro ⟨h1, h2⟩; exact ⟨by simpa using h2, (hk x h1).2⟩
    · rintro ⟨h1, h2⟩; exact ⟨ha x h1 h2, by simpa using h1⟩
  have h3 := followers_length hA hd
  rw [h1, h2.length_eq, ← h3, Nat.mul_succ]

theorem due_into (hA : A.Nodup) {d : Nat} (hd : d ∈ A) (n : List (Nat × MMsg)) (σ : Mgr) (l : List (Nat × MMsg)) :
    (w.into n d σ l).due A K B + load A w.net + (w.mgr d).untold K + (w.mgr B).heirLeft A.length =
      w.due A K B + load A n + load A l + σ.untold K + ((w.into n d σ l).mgr B).heirLeft A.length := by
  have h := sum_map_change hA (f := fun X => ((w.into n d σ l).mgr X).untold K) (g := fun X => (w.mgr X).untold K) hd
    fun x _ hx => by rw [into_other n σ l hx]
  rw [into_self] at h
  unfold Cl.due
  rw [into_net, load_append]
  omega

theorem Heir.into (h : Heir A K B w) {d : Nat} {n l : List (Nat × MMsg)} {σ : Mgr} (hs : σ.self = d)
    (hnd : σ.managers.Nodup) (hk : ∀ x ∈ σ.managers, (x ∈ A ∨ x = K) ∧ x ≠ d) (ha : ∀ x ∈ A, x ≠ d → x ∈ σ.managers)
    (ho : d ≠ B → Calm σ) (hnet : ∀ x ∈ n ++ l, x.1 ∈ A → About A B x) (hlead : Heading ((w.into n d σ l).mgr B))
    (hidle : ((w.into n d σ l).mgr B).st = .idle → ∀ x ∈ n ++ l, x.1 ∉ A)
    (htok : ∀ m, ((w.into n d σ l).mgr B).st = .starting m → ∀ X ∈ A, X ≠ B →
      (n ++ l).count (X, .request B) + (n ++ l).count (B, .ack X) + m.count X = 1)
    (hack : ∀ m, ((w.into n d σ l).mgr B).st = .starting m → ∀ x ∈ m, x ∈ A ∧ x ≠ B) :
    Heir A K B (w.into n d σ l) := by
  have hall : ∀ (P : Nat → Mgr → Prop), P d σ → (∀ X ∈ A, P X (w.mgr X)) → ∀ X ∈ A, P X ((w.into n d σ l).mgr X) := by
    intro P h1 h2 X hX
    by_cases e : X = d
    · subst e; rw [into_self]; exact h1
    · rw [into_other n σ l e]; exact h2 X hX
  exact ⟨hall (fun d σ => σ.self = d) hs h.self, hall (fun _ σ => σ.managers.Nodup) hnd h.nodup,
    hall (fun d σ => ∀ x ∈ σ.managers, (x ∈ A ∨ x = K) ∧ x ≠ d) hk h.known,
    hall (fun d σ => ∀ x ∈ A, x ≠ d → x ∈ σ.managers) ha h.all, hall (fun d σ => d ≠ B → Calm σ) ho h.oth,
    hnet, hlead, hidle, htok, hack⟩

/-- when all have acknowledged, nothing is asked and `K` is forgotten. -/
theorem Heir.full (h : Heir A K B w) (hB : B ∈ A) (hKA : K ∉ A) {l : List Nat} (hst : (w.mgr B).st = .starting l)
    (hl : l.length = (w.mgr B).managers.length) : (∀ X ∈ A, X ≠ B → X ∈ l) ∧ K ∉ (w.mgr B).managers := by
  have hnd : l.Nodup := by
    rw [List.nodup_iff_count]
    intro x
    by_cases hx : x ∈ l
    · have := h.tok l hst x (h.acked l hst x hx).1 (h.acked l hst x hx).2; omega
    · rw [List.count_eq_zero.2 hx]; omega
  have hsub : ∀ x ∈ (w.mgr B).managers, x ∈ l :=
    subset_of_length hnd (fun x hx => h.all B hB x (h.acked l hst x hx).1 (h.acked l hst x hx).2) (by omega)
  exact ⟨fun X hX hne => hsub X (h.all B hB X hX hne), fun hK => hKA (h.acked l hst K (hsub K hK)).1⟩

/-- when nothing is under way and `K` is forgotten, all have acknowledged. -/
theorem Heir.answered (h : Heir A K B w) (hB : B ∈ A) {l : List Nat} (hst : (w.mgr B).st = .starting l)
    (hnet : ∀ x ∈ w.net, x.1 ∉ A) (hK : K ∉ (w.mgr B).managers) : l.length = (w.mgr B).managers.length := by
  have hnd : l.Nodup := by
    rw [List.nodup_iff_count]
    intro x
    by_cases hx : x ∈ l
    · have := h.tok l hst x (h.acked l hst x hx).1 (h.acked l hst x hx).2; omega
    · rw [List.count_eq_zero.2 hx]; omega
  refine ((List.perm_ext_iff_of_nodup hnd (h.nodup B hB)).2 fun x => ⟨fun hx => ?_, fun hx => ?_⟩).length_eq
  · exact h.all B hB x (h.acked l hst x hx).1 (h.acked l hst x hx).2
  · obtain ⟨h1 | h1, h2⟩ := h.known B hB x hx
    · have ht := h.tok l hst x h1 h2
      rw [List.count_eq_zero.2 fun e => hnet _ e h1, List.count_eq_zero.2 fun e => hnet _ e hB] at ht
      exact List.count_pos_iff.1 (by omega)
    · subst h1; exact absurd hx hK

end Verif.Singleton
