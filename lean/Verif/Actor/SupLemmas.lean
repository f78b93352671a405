import Verif.Actor.Supervision

/-! # Lemmas about supervision, registry and worker pools -/

namespace Verif.Actor

namespace Map
variable {α : Type}

theorem get_erase (m : Map α) (k k' : String) :
    (m.erase k).get k' = if k' = k then none else m.get k' := by
  unfold Map.get Map.erase
  induction m with
  | nil => simp
  | cons p m ih =>
    rw [List.filter_cons]
    by_cases hp : p.1 = k
    · simp only [hp, ne_eq, not_true_eq_false, decide_false]
      rw [if_neg (by simp), ih]
      by_cases hk : k' = k
      · simp [hk]
      · have : ¬ k = k' := fun h => hk h.symm
        simp [hk, this, hp]
    · simp only [hp, ne_eq, not_false_eq_true, decide_true, if_true, List.find?_cons]
      by_cases hk' : p.1 = k'
      · have : ¬ k' = k := fun h => hp (hk'.trans h)
        simp [hk', this]
      · simp only [hk', decide_false]; exact ih

theorem get_insert (m : Map α) (k k' : String) (v : α) :
    (m.insert k v).get k' = if k' = k then some v else m.get k' := by
  unfold Map.insert
  by_cases hk : k' = k
  · subst hk; simp [Map.get]
  · have : ¬ k = k' := fun h => hk h.symm
    have h2 := get_erase m k k'
    simp only [hk, if_false] at h2 ⊢
    rw [← h2]; simp [Map.get, this]

/-- keys are unique -/
def Uniq (m : Map α) : Prop := m.Pairwise (fun a b => a.1 ≠ b.1)

theorem Uniq.erase {m : Map α} (h : Uniq m) (k : String) : Uniq (m.erase k) :=
  List.Pairwise.filter _ h

theorem Uniq.insert {m : Map α} (h : Uniq m) (k : String) (v : α) : Uniq (m.insert k v) := by
  unfold Map.insert Uniq
  rw [List.pairwise_cons]
  refine ⟨?_, h.erase k⟩
  intro p hp
  simp [Map.erase] at hp
  exact fun e => hp.2 e.symm

theorem mem_of_get {m : Map α} {k : String} {v : α} (h : m.get k = some v) : (k, v) ∈ m := by
  unfold Map.get at h
  rcases Option.eq_none_or_eq_some (m.find? (fun p => p.1 = k)) with hf | ⟨p, hf⟩
  · simp [hf] at h
  · simp [hf] at h
    have h1 := List.find?_some hf
    have h2 := List.mem_of_find?_eq_some hf
    simp at h1
    rw [← h1, ← h]; exact h2

theorem get_of_mem {m : Map α} (hu : Uniq m) {k : String} {v : α} (h : (k, v) ∈ m) :
    m.get k = some v := by
  induction m with
  | nil => simp at h
  | cons p m ih =>
    rw [Uniq, List.pairwise_cons] at hu
    rcases List.mem_cons.1 h with h | h
    · subst h; simp [Map.get]
    · have := hu.1 _ h
      have h2 := ih hu.2 h
      unfold Map.get at h2 ⊢
      simp only [List.find?_cons]
      simp only at this
      simp [this, h2]

theorem get_none_iff {m : Map α} {k : String} : m.get k = none ↔ ∀ v, (k, v) ∉ m := by
  constructor
  · intro h v hv
    unfold Map.get at h
    simp at h
    exact h k v hv rfl
  · intro h
    rcases Option.eq_none_or_eq_some (m.get k) with hf | ⟨v, hf⟩
    · exact hf
    · exact absurd (mem_of_get hf) (h v)

theorem mem_erase {m : Map α} {k : String} {p : String × α} :
    p ∈ m.erase k ↔ p ∈ m ∧ p.1 ≠ k := by
  simp [Map.erase]

theorem mem_insert {m : Map α} {k : String} {v : α} {p : String × α} :
    p ∈ m.insert k v ↔ p = (k, v) ∨ (p ∈ m ∧ p.1 ≠ k) := by
  simp [Map.insert, mem_erase]

end Map

/-! ### Children -/

/-- Does this operation say that a child under `id` exists (`some true`) or is gone (`some false`)? -/
def aboutChild (id : String) : SupOp → Option Bool
  | .spawn k _ _ => if k = id then some true else none
  | .spawnDeferred k _ => if k = id then some true else none
  | .attach k _ => if k = id then some true else none
  | .addChild k _ => if k = id then some true else none
  | .terminated k => if k = id then some false else none

theorem supStep_isSome (cs : Map Child) (op : SupOp) (id : String) :
    ((supStep cs op).get id).isSome = match aboutChild id op with
      | some b => b
      | none => (cs.get id).isSome := by
  cases op with
  | spawn k r ok =>
    simp only [supStep, spawn, aboutChild]
    split
    · rename_i c hc
      by_cases hk : k = id
      · subst hk; simp [hc]
      · simp [hk]
    · rw [Map.get_insert]
      by_cases hk : k = id
      · simp [hk]
      · simp [hk, Ne.symm hk]
  | spawnDeferred k r =>
    simp only [supStep, spawnDeferred, aboutChild]
    split
    · rename_i c hc
      by_cases hk : k = id
      · subst hk; simp [hc]
      · simp [hk]
    · rw [Map.get_insert]
      by_cases hk : k = id
      · simp [hk]
      · simp [hk, Ne.symm hk]
  | attach k r =>
    simp only [supStep, attach, aboutChild, Map.get_insert]
    by_cases hk : k = id
    · simp [hk]
    · simp [hk, Ne.symm hk]
  | addChild k r =>
    simp only [supStep, addChild, aboutChild, Map.get_insert]
    by_cases hk : k = id
    · simp [hk]
    · simp [hk, Ne.symm hk]
  | terminated k =>
    simp only [supStep, onChildStopped, aboutChild, Map.get_erase]
    by_cases hk : k = id
    · simp [hk]
    · simp [hk, Ne.symm hk]

theorem getLast?_cons_getD {α : Type} (a : α) (l : List α) :
    (a :: l).getLast? = some (l.getLast?.getD a) := by
  induction l generalizing a with
  | nil => rfl
  | cons b l ih =>
    rw [List.getLast?_cons_cons, ih]; simp [ih]

theorem supFold_isSome (ops : List SupOp) (cs : Map Child) (id : String) :
    ((ops.foldl supStep cs).get id).isSome
      = ((ops.filterMap (aboutChild id)).getLast?).getD (cs.get id).isSome := by
  induction ops generalizing cs with
  | nil => simp
  | cons op ops ih =>
    rw [List.foldl_cons, ih, supStep_isSome]
    cases h : aboutChild id op with
    | none => simp [List.filterMap_cons, h]
    | some b => rw [List.filterMap_cons, h]; simp [getLast?_cons_getD]

/-- one entry per id -/
theorem supRun_uniq (ops : List SupOp) : Map.Uniq (supRun ops) := by
  unfold supRun
  have : ∀ cs : Map Child, cs.Uniq → (ops.foldl supStep cs).Uniq := by
    induction ops with
    | nil => intro cs h; exact h
    | cons op ops ih =>
      intro cs h
      refine ih _ ?_
      cases op <;> simp only [supStep, spawn, spawnDeferred, attach, addChild, onChildStopped]
      · split
        · exact h
        · exact h.insert _ _
      · split
        · exact h
        · exact h.insert _ _
      · exact h.insert _ _
      · exact h.insert _ _
      · exact h.erase _
  exact this [] List.Pairwise.nil

/-! ### Families -/

structure FamOk (f : Family) : Prop where
  uniq : f.kids.Uniq
  mem : ∀ id r, (∃ k, (id, Child.mk k r) ∈ f.kids) ↔ (id, r) ∈ f.running ++ f.notices
  nodup : (f.running ++ f.notices).Nodup

def FamOp.isAttach : FamOp → Bool
  | .attach _ _ => true
  | _ => false

theorem famOk_step {f : Family} (h : FamOk f) (op : FamOp) (ha : op.isAttach = false) :
    FamOk (famStep f op) := by
  obtain ⟨h1, h2, h3⟩ := h
  cases op with
  | attach id r => simp [FamOp.isAttach] at ha
  | spawn id r =>
    simp only [famStep]
    split
    · exact ⟨h1, h2, h3⟩
    · rename_i hn
      rw [Map.get_none_iff] at hn
      have hfree : ∀ r', (id, r') ∉ f.running ++ f.notices := by
        intro r' hr'
        obtain ⟨k, hk⟩ := (h2 id r').2 hr'
        exact hn _ hk
      refine ⟨h1.insert _ _, ?_, ?_⟩
      · intro id' r'
        simp only [Map.mem_insert]
        constructor
        · rintro ⟨k, hk | ⟨hk, _⟩⟩
          · simp at hk; simp [hk]
          · have := (h2 id' r').1 ⟨k, hk⟩
            simp at this ⊢; rcases this with h | h <;> simp [h]
        · intro hm
          simp at hm
          rcases hm with ⟨rfl, rfl⟩ | hm
          · exact ⟨.spawned, by simp⟩
          · have hm' : (id', r') ∈ f.running ++ f.notices := by simpa using hm
            obtain ⟨k, hk⟩ := (h2 id' r').2 hm'
            refine ⟨k, .inr ⟨hk, ?_⟩⟩
            intro e; subst e; exact hfree _ hm'
      · simp only [List.cons_append, List.nodup_cons]
        exact ⟨hfree r, h3⟩
  | die id r =>
    simp only [famStep]
    split
    · rename_i hm
      have hperm : (f.running.erase (id, r) ++ (f.notices ++ [(id, r)])).Perm (f.running ++ f.notices) := by
        have h1 : f.running.Perm ((id, r) :: f.running.erase (id, r)) := List.perm_cons_erase hm
        have h2 : (f.running ++ f.notices).Perm ((id, r) :: f.running.erase (id, r) ++ f.notices) :=
          h1.append_right _
        refine List.Perm.trans ?_ h2.symm
        rw [← List.append_assoc]
        exact (List.perm_append_singleton _ _)
      refine ⟨h1, ?_, hperm.nodup_iff.2 h3⟩
      intro id' r'
      rw [h2 id' r']; exact (hperm.mem_iff).symm
    · exact ⟨h1, h2, h3⟩
  | deliver =>
    simp only [famStep]
    split
    · exact ⟨h1, h2, h3⟩
    · rename_i n rest hn
      obtain ⟨nid, nr⟩ := n
      rw [hn] at h2 h3
      obtain ⟨kn, hkn⟩ := (h2 nid nr).2 (by simp)
      have hnd : (nid, nr) ∉ f.running ++ rest := by
        have : (f.running ++ (nid, nr) :: rest).Perm ((nid, nr) :: (f.running ++ rest)) :=
          List.perm_middle
        exact (List.nodup_cons.1 (this.nodup_iff.1 h3)).1
      refine ⟨h1.erase _, ?_, ?_⟩
      · intro id' r'
        simp only [onChildStopped, Map.mem_erase]
        constructor
        · rintro ⟨k, hk, hne⟩
          have := (h2 id' r').1 ⟨k, hk⟩
          simp at this hne ⊢
          rcases this with h | ⟨h, _⟩ | h
          · exact .inl h
          · exact absurd h hne
          · exact .inr h
        · intro hm
          have hm' : (id', r') ∈ f.running ++ (nid, nr) :: rest := by
            simp at hm ⊢; rcases hm with h | h <;> simp [h]
          obtain ⟨k, hk⟩ := (h2 id' r').2 hm'
          refine ⟨k, hk, ?_⟩
          rintro rfl
          have e1 := Map.get_of_mem h1 hk
          have e2 := Map.get_of_mem h1 hkn
          rw [e1] at e2
          simp at e2
          rw [e2.2] at hm
          exact hnd hm
      · refine h3.sublist ?_
        exact List.Sublist.append (List.Sublist.refl _) (List.sublist_cons_self _ _)

theorem famOk_run (ops : List FamOp) (ha : ∀ op ∈ ops, op.isAttach = false) : FamOk (famRun ops) := by
  unfold famRun
  have : ∀ f, FamOk f → FamOk (ops.foldl famStep f) := by
    induction ops with
    | nil => intro f h; exact h
    | cons op ops ih =>
      intro f h
      exact ih (fun o ho => ha o (by simp [ho])) _ (famOk_step h op (ha op (by simp)))
  exact this _ ⟨List.Pairwise.nil, by simp, by simp⟩

/-! ### Registry -/

/-- Use of ids the registry can cope with: an id is not given to a second actor while one is running
under it, and an actor does not stop before its registration has been sent. -/
def RegOp.ok (g : Registry) : RegOp → Prop
  | .start id _ => g.running.get id = none
  | .stop id _ => g.unregistered.get id = none
  | _ => True

def Disciplined : Registry → List RegOp → Prop
  | _, [] => True
  | g, op :: ops => op.ok g ∧ Disciplined (regStep g op) ops

/-- what the registry will hold once the queue has been processed -/
def Registry.final (g : Registry) : Map Nat := g.queue.foldl regApply g.actors

/-- lookups in the queue will be answered with the truth, given the registry they will see -/
def Promised : Map Nat → List SMsg → Prop
  | _, [] => True
  | m, .lookup id t :: q => m.get id = t ∧ Promised m q
  | m, msg :: q => Promised (regApply m msg) q

theorem promised_append (m : Map Nat) (q : List SMsg) (msg : SMsg) :
    Promised m (q ++ [msg]) ↔ Promised m q ∧ Promised (q.foldl regApply m) [msg] := by
  induction q generalizing m with
  | nil => simp [Promised]
  | cons a q ih =>
    cases a <;> simp [Promised, ih, regApply, and_assoc]

structure RegOk (g : Registry) : Prop where
  uniqRun : g.running.Uniq
  uniqUn : g.unregistered.Uniq
  sub : ∀ id r, (id, r) ∈ g.unregistered → (id, r) ∈ g.running
  final : ∀ id, g.final.get id = g.truth id
  promised : Promised g.actors g.queue
  answered : ∀ a ∈ g.answers, a.2.1 = a.2.2

theorem Map.get_cons_ne {α : Type} (m : Map α) (p : String × α) (k : String) (h : p.1 ≠ k) :
    Map.get (p :: m) k = Map.get m k := by
  simp [Map.get, h]

theorem Map.get_cons_self {α : Type} (m : Map α) (k : String) (v : α) :
    Map.get ((k, v) :: m) k = some v := by
  simp [Map.get]

theorem truth_none (g : Registry) (h : ∀ id r, (id, r) ∈ g.unregistered → (id, r) ∈ g.running)
    (id : String) (hn : g.running.get id = none) : g.truth id = none ∧ g.unregistered.get id = none := by
  have : g.unregistered.get id = none := by
    rw [Map.get_none_iff] at hn ⊢
    exact fun v hv => hn v (h _ _ hv)
  simp [Registry.truth, this, hn]

theorem regOk_step {g : Registry} (h : RegOk g) (op : RegOp) (ho : op.ok g) :
    RegOk (regStep g op) := by
  obtain ⟨h1, h2, h3, h4, h5, h6⟩ := h
  cases op with
  | start id r =>
    simp only [RegOp.ok] at ho
    have hu := (truth_none g h3 id ho)
    refine ⟨?_, ?_, ?_, ?_, h5, h6⟩
    · simp only [regStep, Map.Uniq, List.pairwise_cons]
      refine ⟨?_, h1⟩
      rintro ⟨k, v⟩ hp hk
      simp only at hk; subst hk
      exact Map.get_none_iff.1 ho _ hp
    · simp only [regStep, Map.Uniq, List.pairwise_cons]
      refine ⟨?_, h2⟩
      rintro ⟨k, v⟩ hp hk
      simp only at hk; subst hk
      exact Map.get_none_iff.1 ho _ (h3 _ _ hp)
    · intro id' r' hm
      simp only [regStep, List.mem_cons] at hm ⊢
      rcases hm with hm | hm
      · exact .inl hm
      · exact .inr (h3 _ _ hm)
    · intro id'
      have hf : (regStep g (.start id r)).final = g.final := rfl
      rw [hf, h4]
      by_cases hk : id = id'
      · subst hk
        rw [hu.1]; simp [Registry.truth, regStep, Map.get_cons_self]
      · simp [Registry.truth, regStep, Map.get_cons_ne, hk]
  | sendRegister id =>
    simp only [regStep]
    split
    · exact ⟨h1, h2, h3, h4, h5, h6⟩
    · rename_i r hr
      have hrun := h3 _ _ (Map.mem_of_get hr)
      have hget := Map.get_of_mem h1 hrun
      refine ⟨h1, h2.erase _, ?_, ?_, ?_, h6⟩
      · intro id' r' hm
        exact h3 _ _ (Map.mem_erase.1 hm).1
      · intro id'
        simp only [Registry.final, List.foldl_append, List.foldl_cons, List.foldl_nil, regApply]
        rw [Map.get_insert]
        by_cases hk : id' = id
        · subst hk; simp [Registry.truth, Map.get_erase, hget]
        · have := h4 id'
          simp only [Registry.final] at this
          simp [hk, this, Registry.truth, Map.get_erase]
      · simp only [promised_append]; exact ⟨h5, by simp [Promised]⟩
  | stop id r =>
    simp only [RegOp.ok] at ho
    simp only [regStep]
    split
    · rename_i hm
      have hget := Map.get_of_mem h1 hm
      have hfil : ∀ id', Map.get (g.running.filter (· ≠ (id, r))) id'
          = if id' = id then none else g.running.get id' := by
        intro id'
        by_cases hk : id' = id
        · subst hk
          simp only [if_true]
          rw [Map.get_none_iff]
          intro v hv
          simp only [List.mem_filter, ne_eq, decide_not, Bool.not_eq_true', decide_eq_false_iff_not] at hv
          have := Map.get_of_mem h1 hv.1
          rw [hget] at this
          simp at this
          exact hv.2 (by simp [this])
        · simp only [hk, if_false]
          rcases Option.eq_none_or_eq_some (g.running.get id') with hf | ⟨v, hf⟩
          · rw [hf, Map.get_none_iff]
            intro v hv
            exact Map.get_none_iff.1 hf v (List.mem_filter.1 hv).1
          · rw [hf]
            refine Map.get_of_mem (List.Pairwise.filter _ h1) ?_
            rw [List.mem_filter]
            refine ⟨Map.mem_of_get hf, ?_⟩
            simp [hk]
      refine ⟨List.Pairwise.filter _ h1, h2, ?_, ?_, ?_, h6⟩
      · intro id' r' hm'
        have h3' := h3 _ _ hm'
        rw [List.mem_filter]
        refine ⟨h3', ?_⟩
        simp only [ne_eq, decide_not, Bool.not_eq_true', decide_eq_false_iff_not]
        rintro e
        simp at e
        rw [e.1] at hm'
        exact Map.get_none_iff.1 ho _ hm'
      · intro id'
        simp only [Registry.final, List.foldl_append, List.foldl_cons, List.foldl_nil, regApply]
        rw [Map.get_erase]
        have := h4 id'
        simp only [Registry.final] at this
        rw [this]
        simp only [Registry.truth, hfil]
        by_cases hk : id' = id
        · subst hk; simp [ho]
        · simp [hk]
      · simp only [promised_append]; exact ⟨h5, by simp [Promised]⟩
    · exact ⟨h1, h2, h3, h4, h5, h6⟩
  | lookup id =>
    refine ⟨h1, h2, h3, ?_, ?_, h6⟩
    · intro id'
      simp only [regStep, Registry.final, List.foldl_append, List.foldl_cons, List.foldl_nil, regApply]
      exact h4 id'
    · simp only [regStep, promised_append]
      refine ⟨h5, ?_⟩
      simp only [Promised, and_true]
      exact h4 id
  | process =>
    simp only [regStep]
    split
    · exact ⟨h1, h2, h3, h4, h5, h6⟩
    · rename_i m rest hq
      simp only [Registry.final, hq] at h4 h5
      refine ⟨h1, h2, h3, ?_, ?_, ?_⟩
      · intro id'; simp only [Registry.final]; exact h4 id'
      · simp only
        cases m <;> simp only [Promised, regApply] at h5 ⊢
        · exact h5
        · exact h5
        · exact h5.2
      · simp only
        cases m with
        | lookup id t =>
          simp only [Promised] at h5
          intro a ha
          rcases List.mem_append.1 ha with ha | ha
          · exact h6 a ha
          · simp at ha; subst ha; exact h5.1
        | _ => exact h6

theorem regOk_run (ops : List RegOp) (hd : Disciplined ⟨[], [], [], [], []⟩ ops) :
    RegOk (regRun ops) := by
  unfold regRun
  have h0 : RegOk ⟨[], [], [], [], []⟩ :=
    ⟨List.Pairwise.nil, List.Pairwise.nil, by simp, by intro id; rfl, trivial, by simp⟩
  generalize (⟨[], [], [], [], []⟩ : Registry) = g at hd h0
  induction ops generalizing g with
  | nil => exact h0
  | cons op ops ih => exact ih _ hd.2 (regOk_step h0 op hd.1)

/-! ### Workers -/

theorem succ_div_mod (k n : Nat) (hn : 0 < n) :
    (k % n + 1 < n → (k + 1) / n = k / n ∧ (k + 1) % n = k % n + 1) ∧
    (¬ k % n + 1 < n → (k + 1) / n = k / n + 1 ∧ (k + 1) % n = 0) := by
  have hd := Nat.div_add_mod k n
  have hm := Nat.mod_lt k hn
  constructor
  · intro h
    have e : k + 1 = n * (k / n) + (k % n + 1) := by omega
    constructor
    · rw [e, Nat.mul_add_div hn, Nat.div_eq_of_lt h]; rfl
    · rw [e, Nat.mul_add_mod, Nat.mod_eq_of_lt h]
  · intro h
    have e : k + 1 = n * (k / n + 1) := by rw [Nat.mul_add]; omega
    constructor
    · rw [e, Nat.mul_div_cancel_left _ hn]
    · rw [e, Nat.mul_mod_right]

theorem workerRun_state {W : Type} (ws : List W) (k : Nat) (hn : 0 < ws.length) :
    (workerRun ws k).1 = ws.drop (k % ws.length) ++ ws.take (k % ws.length)
    ∧ (workerRun ws k).2 = (List.range k).map (fun j => ws[j % ws.length]?) := by
  induction k with
  | zero => simp [workerRun]
  | succ k ih =>
    have hm := Nat.mod_lt k hn
    obtain ⟨e1, e2⟩ := succ_div_mod k ws.length hn
    have hd : ws.drop (k % ws.length) = ws[k % ws.length] :: ws.drop (k % ws.length + 1) :=
      List.drop_eq_getElem_cons hm
    have hh : workerHandle (workerRun ws k).1 =
        (ws.drop (k % ws.length + 1) ++ ws.take (k % ws.length + 1), some ws[k % ws.length]) := by
      rw [ih.1, hd]
      simp only [workerHandle, List.cons_append]
      rw [List.take_succ_eq_append_getElem hm, ← List.append_assoc]
    simp only [workerRun, hh, ih.2]
    constructor
    · by_cases h : k % ws.length + 1 < ws.length
      · rw [(e1 h).2]
      · have : k % ws.length + 1 = ws.length := by omega
        rw [(e2 h).2, this]; simp
    · rw [List.range_succ, List.map_append]
      simp [hm]

/-- how many of the first `k` numbers are `a` modulo `n` -/
theorem count_mod (n a k : Nat) (ha : a < n) :
    ((List.range k).map (· % n)).count a = k / n + (if a < k % n then 1 else 0) := by
  have hn : 0 < n := by omega
  induction k with
  | zero => simp
  | succ k ih =>
    obtain ⟨e1, e2⟩ := succ_div_mod k n hn
    have hm := Nat.mod_lt k hn
    rw [List.range_succ, List.map_append, List.count_append, ih]
    simp only [List.map_cons, List.map_nil, List.count_cons, List.count_nil, beq_iff_eq]
    by_cases h : k % n + 1 < n
    · rw [(e1 h).1, (e1 h).2]
      split <;> split <;> split <;> omega
    · rw [(e2 h).1, (e2 h).2]
      split <;> split <;> split <;> omega

end Verif.Actor
