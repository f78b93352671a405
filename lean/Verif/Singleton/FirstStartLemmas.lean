import Verif.Singleton.FirstStartSpec
import Verif.Singleton.ClusterRun

/-! # The first start of a cluster singleton: the invariant -/

namespace Verif.Singleton

variable {nodes : List Nat} {w : Cl} {L : Nat}

theorem Cl.next_at (w : Cl) (child : Bool) (op : ClOp) (ha : w.allows nodes op = true) :
    w.next nodes child op = (({ w with net := w.rest op }).upd op.node
      ((w.mgr op.node).step (fun _ => true) (op.op nodes child)).1).tell
        (((w.mgr op.node).step (fun _ => true) (op.op nodes child)).2.filterMap MOut.msg?) := by
  unfold Cl.next
  rw [if_pos ha, Cl.at_eq]

theorem Cl.next_not (w : Cl) (child : Bool) (op : ClOp) (ha : w.allows nodes op ≠ true) : w.next nodes child op = w := by
  unfold Cl.next
  rw [if_neg ha]

/-- a step that changes nothing. -/
theorem Cl.next_same (w : Cl) (child : Bool) (op : ClOp) (hr : w.rest op = w.net)
    (hs : (w.mgr op.node).step (fun _ => true) (op.op nodes child) = (w.mgr op.node, [])) : w.next nodes child op = w := by
  unfold Cl.next
  split
  · rw [hr, hs]; exact Cl.at_same w op.node
  · rfl

/-- how far the leader is. -/
inductive Lead (σ : Mgr) : Prop where
  | joining (h : σ.st = .joining none) (h1 : σ.starts = 0) (h2 : σ.results = []) (h3 : σ.fresh = 0)
  | waiting (l : List Nat) (h : σ.st = .starting l) (hl : l.length ≠ σ.managers.length)
      (h1 : σ.starts = 0) (h2 : σ.results = []) (h3 : σ.fresh = 0)
  | starting (l : List Nat) (h : σ.st = .starting l) (hl : l.length = σ.managers.length)
      (h1 : σ.starts = 1) (h2 : σ.results = []) (h3 : σ.fresh = 0)
  | booted (l : List Nat) (h : σ.st = .starting l) (hl : l.length = σ.managers.length)
      (h1 : σ.starts = 0) (h2 : σ.results = [0]) (h3 : σ.fresh = 1)
  | running (h : σ.st = .running 0) (h1 : σ.starts = 0) (h2 : σ.results = []) (h3 : σ.fresh = 1)

/-- a node that is not the leader. -/
structure Follower (L : Nat) (σ : Mgr) : Prop where
  st : σ.st = .joining none ∨ σ.st = .joining (some L) ∨ σ.st = .idle
  starts : σ.starts = 0
  results : σ.results = []
  fresh : σ.fresh = 0

structure Solo (nodes : List Nat) (L : Nat) (w : Cl) : Prop where
  inv : Inv nodes w
  oth : ∀ d, d ≠ L → Follower L (w.mgr d)
  net : ∀ x ∈ w.net, ∃ X ∈ nodes, X ≠ L ∧ (x = (X, .request L) ∨ x = (L, .ack X) ∨ x = (X, .started L))
  lead : Lead (w.mgr L)
  jn : (w.mgr L).st = .joining none → w.net = [] ∧ ∀ X, X ≠ L → (w.mgr X).st ≠ .joining (some L)
  tok : (w.mgr L).st.isStarting = true → ∀ X ∈ nodes, X ≠ L → w.tok L X = 1
  up : (w.mgr L).st = .running 0 → ∀ X ∈ nodes, ∀ p, (w.mgr X).st ≠ .joining p
  nj : ∀ X p, X ≠ L → (w.mgr X).st = .joining p → ¬ w.Granted X L

def MMsg.left : MMsg → Nat
  | .request _ => 2
  | _ => 1

def MState.left : MState → Nat
  | .joining none => 1
  | .joining _ => 2
  | _ => 0

def Mgr.leadLeft (N : Nat) (σ : Mgr) : Nat :=
  match σ.st with
  | .joining _ => 3 * N
  | .starting _ => N + 1 - σ.results.length
  | _ => 0

def followers (nodes : List Nat) (L : Nat) : List Nat := nodes.filter (· ≠ L)

/-- the steps left. -/
def Cl.left (nodes : List Nat) (L : Nat) (w : Cl) : Nat :=
  (w.net.map fun x => x.2.left).sum + ((followers nodes L).map fun X => (w.mgr X).st.left).sum +
    (w.mgr L).leadLeft nodes.length

theorem mem_followers {X : Nat} : X ∈ followers nodes L ↔ X ∈ nodes ∧ X ≠ L := by simp [followers]

theorem followers_length (hn : nodes.Nodup) (hL : L ∈ nodes) : (followers nodes L).length + 1 = nodes.length := by
  have h : followers nodes L = nodes.erase L := by
    rw [hn.erase_eq_filter]
    unfold followers
    congr 1
    funext x
    by_cases h : x = L <;> simp [h]
  rw [h, List.length_erase_of_mem hL]
  have := List.length_pos_of_mem hL
  omega

theorem sum_map_congr {l : List Nat} {f g : Nat → Nat} (h : ∀ x ∈ l, f x = g x) : (l.map f).sum = (l.map g).sum := by
  rw [List.map_congr_left h]

theorem sum_map_change {l : List Nat} (hl : l.Nodup) {f g : Nat → Nat} {d : Nat} (hd : d ∈ l)
    (h : ∀ x ∈ l, x ≠ d → f x = g x) : (l.map f).sum + g d = (l.map g).sum + f d := by
  induction l with
  | nil => simp at hd
  | cons a l ih =>
    rw [List.nodup_cons] at hl
    simp only [List.map_cons, List.sum_cons]
    by_cases e : a = d
    · subst e
      have := sum_map_congr (l := l) (f := f) (g := g) fun x hx => h x (by simp [hx]) (fun e => hl.1 (e ▸ hx))
      omega
    · have hd' : d ∈ l := by
        rcases List.mem_cons.1 hd with e' | e'
        · exact absurd e'.symm e
        · exact e'
      have h1 := ih hl.2 hd' fun x hx => h x (by simp [hx])
      have h2 := h a (by simp) e
      omega

theorem sum_erase {l : List (Nat × MMsg)} {x : Nat × MMsg} (h : x ∈ l) :
    ((l.erase x).map fun y => y.2.left).sum + x.2.left = (l.map fun y => y.2.left).sum := by
  have := ((List.perm_cons_erase h).map fun y => y.2.left).sum_nat
  rw [this]
  simp only [List.map_cons, List.sum_cons]
  omega

theorem sum_const {α : Type} (l : List α) (f : α → Nat) (k : Nat) (h : ∀ x ∈ l, f x = k) : (l.map f).sum = k * l.length := by
  induction l with
  | nil => simp
  | cons a l ih =>
    simp only [List.map_cons, List.sum_cons, List.length_cons]
    rw [ih fun x hx => h x (by simp [hx]), h a (by simp), Nat.mul_succ]
    omega

/-- the managers known to a node that is up. -/
theorem Inv.managers_length (h : Inv nodes w) (hn : nodes.Nodup) {d : Nat} (hd : d ∈ nodes) (hj : (w.mgr d).st.isJoining = false) :
    (w.mgr d).managers.length + 1 = nodes.length := by
  have hp : (w.mgr d).managers.Perm (followers nodes d) := by
    refine (List.perm_ext_iff_of_nodup (h.nodup d) (hn.filter _)).2 fun x => ?_
    rw [show (x ∈ List.filter (fun x => decide (x ≠ d)) nodes) ↔ x ∈ nodes ∧ x ≠ d by simp]
    exact ⟨h.known d x, fun hx => h.all d hd hj x hx.1 hx.2⟩
  rw [hp.length_eq]
  exact followers_length hn hd

theorem Solo.init (hn : nodes.Nodup) (hL : L ∈ nodes) :
    Solo nodes L Cl.init ∧ Cl.init.left nodes L + 1 = 4 * nodes.length := by
  refine ⟨⟨Inv.init nodes, fun d _ => ⟨.inl rfl, rfl, rfl, rfl⟩, by simp [Cl.init], .joining rfl rfl rfl rfl,
    fun _ => ⟨rfl, fun X _ => by simp [Cl.init, Mgr.init]⟩, by simp [Cl.init, Mgr.init, MState.isStarting],
    by simp [Cl.init, Mgr.init], by simp [Cl.Granted, Cl.init, Mgr.init, MState.acked]⟩, ?_⟩
  have h1 : ((followers nodes L).map fun X => (Cl.init.mgr X).st.left).sum = 1 * (followers nodes L).length :=
    sum_const _ _ 1 fun x _ => rfl
  have h2 := followers_length hn hL
  unfold Cl.left
  rw [h1]
  simp only [Cl.init, Mgr.leadLeft, Mgr.init, List.map_nil, List.sum_nil]
  omega

end Verif.Singleton
