import Verif.Singleton.ProxySpec

namespace Verif.Singleton

theorem settled_append (l l' : List (PMsg × Option Nat)) : settled (l ++ l') = settled l ++ settled l' := by
  simp [settled]

theorem waiting_append (l l' : List (PMsg × Option Nat)) : waiting (l ++ l') = waiting l ++ waiting l' := by
  simp [waiting]

theorem settled_some (q : List PMsg) (r : Nat) : settled (q.map fun m => (m, some r)) = q.map fun m => (m, r) := by
  induction q with
  | nil => rfl
  | cons m q ih => simp [settled] at ih ⊢; exact ih

theorem settled_none (q : List PMsg) : settled (q.map fun m => (m, none)) = [] := by
  simp [settled]

theorem waiting_some (q : List PMsg) (r : Nat) : waiting (q.map fun m => (m, some r)) = [] := by
  simp [waiting]

theorem waiting_none (q : List PMsg) : waiting (q.map fun m => (m, none)) = q := by
  induction q with
  | nil => rfl
  | cons m q ih => simp [waiting] at ih ⊢; exact ih

/-- the part of a list of deliveries before the first that panics. -/
def good (l : List (PMsg × Nat)) : List (PMsg × Nat) := l.takeWhile fun x => x.1.channel

def allGood (l : List (PMsg × Nat)) : Bool := l.all fun x => x.1.channel

theorem good_append (l l' : List (PMsg × Nat)) : good (l ++ l') = if allGood l then l ++ good l' else good l := by
  induction l with
  | nil => rfl
  | cons x l ih =>
    unfold good allGood at *
    cases hx : x.1.channel with
    | true =>
      simp only [List.cons_append, List.takeWhile_cons, hx, if_true, List.all_cons, Bool.true_and, ih]
      split <;> rfl
    | false => simp [hx]

theorem allGood_append (l l' : List (PMsg × Nat)) : allGood (l ++ l') = (allGood l && allGood l') := by simp [allGood]

theorem good_all {l : List (PMsg × Nat)} (h : allGood l = true) : good l = l := by
  have := good_append l []
  simpa [h, good] using this

/-- what one handler does. -/
structure Eff (p p' : Proxy) (l : List (PMsg × Nat)) (live : PState) : Prop where
  spawned : p'.spawned = p.spawned ++ (good l).map entry
  st : p'.st = if allGood l then live else .dead

theorem flush_eff (p : Proxy) (r : Nat) (q : List PMsg) : Eff p (p.flush r q) (q.map fun m => (m, r)) (.active r) := by
  induction q generalizing p with
  | nil => exact ⟨by simp [Proxy.flush, good], by simp [Proxy.flush, allGood]⟩
  | cons m q ih =>
    unfold Proxy.flush Proxy.deliver
    cases hc : m.channel with
    | true =>
      simp only [if_true]
      obtain ⟨h1, h2⟩ := ih { p with spawned := p.spawned ++ [(r, m.id)], tasks := p.tasks ++ [(r, m.id)] }
      refine ⟨?_, ?_⟩
      · rw [h1]; simp [good, hc, entry]
      · rw [h2]; simp [allGood, hc]
    | false => exact ⟨by simp [good, hc], by simp [allGood, hc]⟩

theorem dead_run (ops : List POp) (p : Proxy) (h : p.st = .dead) : (p.run ops).st = .dead ∧ (p.run ops).spawned = p.spawned := by
  induction ops generalizing p with
  | nil => exact ⟨h, rfl⟩
  | cons op ops ih =>
    have hn : (p.next op).st = .dead ∧ (p.next op).spawned = p.spawned := by
      cases op with
      | deliver m => simp [Proxy.next, Proxy.onDeliver, h]
      | started r => simp [Proxy.next, Proxy.onStarted, h]
      | stopping => simp [Proxy.next, Proxy.onStopping, h]
      | task i => simp only [Proxy.next, Proxy.runTask]; split <;> simp [h]
    obtain ⟨h1, h2⟩ := ih (p.next op) hn.1
    exact ⟨h1, h2.trans hn.2⟩

/-- the messages still to be dealt with: those queued, then those to come. -/
def todo : PState → List POp → List (PMsg × Option Nat)
  | .buffered q, ops => (q.map fun m => (m, dest none ops)) ++ assigned none ops
  | .active r, ops => assigned (some r) ops
  | .dead, _ => []

def PState.queue : PState → List PMsg
  | .buffered q => q
  | _ => []

theorem run_todo (ops : List POp) (p : Proxy) (h : p.st ≠ .dead) :
    (p.run ops).spawned = p.spawned ++ (good (settled (todo p.st ops))).map entry ∧
      ((p.run ops).st = .dead ↔ allGood (settled (todo p.st ops)) = false) ∧
      ((p.run ops).st ≠ .dead → (p.run ops).st.queue = waiting (todo p.st ops)) := by
  induction ops generalizing p with
  | nil =>
    cases hst : p.st with
    | dead => exact absurd hst h
    | active r => simp [Proxy.run, todo, assigned, settled, good, allGood, hst, waiting, PState.queue]
    | buffered q =>
      simp only [todo, assigned, dest, List.append_nil, settled_none, waiting_none]
      simp [Proxy.run, good, allGood, hst, PState.queue]
  | cons op ops ih =>
    show ((p.next op).run ops).spawned = _ ∧ (((p.next op).run ops).st = .dead ↔ _) ∧ (((p.next op).run ops).st ≠ .dead → ((p.next op).run ops).st.queue = _)
    -- a step that does not kill the proxy and delivers nothing
    have quiet : (p.next op).spawned = p.spawned → (p.next op).st ≠ .dead → todo (p.next op).st ops = todo p.st (op :: ops) →
        ((p.next op).run ops).spawned = p.spawned ++ (good (settled (todo p.st (op :: ops)))).map entry ∧
        (((p.next op).run ops).st = .dead ↔ allGood (settled (todo p.st (op :: ops))) = false) ∧
        (((p.next op).run ops).st ≠ .dead → ((p.next op).run ops).st.queue = waiting (todo p.st (op :: ops))) := by
      intro h1 h2 h3
      have := ih (p.next op) h2
      rw [h1, h3] at this
      exact this
    -- a step that delivers `l`
    have busy : ∀ (l : List PMsg) (r : Nat), Eff p (p.next op) (l.map fun m => (m, r)) (.active r) →
        todo p.st (op :: ops) = (l.map fun m => (m, some r)) ++ todo (.active r) ops →
        ((p.next op).run ops).spawned = p.spawned ++ (good (settled (todo p.st (op :: ops)))).map entry ∧
        (((p.next op).run ops).st = .dead ↔ allGood (settled (todo p.st (op :: ops))) = false) ∧
        (((p.next op).run ops).st ≠ .dead → ((p.next op).run ops).st.queue = waiting (todo p.st (op :: ops))) := by
      intro l r he ht
      rw [ht, settled_append, settled_some, waiting_append, waiting_some, good_append, allGood_append]
      by_cases hg : allGood (l.map fun m => (m, r)) = true
      · have hst : (p.next op).st = .active r := by rw [he.st, hg]; rfl
        obtain ⟨i1, i2, i3⟩ := ih (p.next op) (by rw [hst]; simp)
        rw [hst] at i1 i2 i3
        refine ⟨?_, ?_, i3⟩
        · rw [i1, he.spawned, good_all hg, hg]; simp
        · rw [i2, hg]; simp
      · rw [Bool.not_eq_true] at hg
        have hst : (p.next op).st = .dead := by rw [he.st, hg]; rfl
        obtain ⟨d1, d2⟩ := dead_run ops (p.next op) hst
        refine ⟨?_, ?_, fun e => absurd d1 e⟩
        · rw [d2, he.spawned, hg]; simp
        · rw [hg]; simp [d1]
    cases hst : p.st with
    | dead => exact absurd hst h
    | buffered q =>
      rw [hst] at quiet busy
      cases op with
      | deliver m =>
        refine quiet (by simp [Proxy.next, Proxy.onDeliver, hst]) (by simp [Proxy.next, Proxy.onDeliver, hst]) ?_
        simp [Proxy.next, Proxy.onDeliver, hst, todo, assigned, dest]
      | started r =>
        refine busy q r ?_ ?_
        · have : p.next (.started r) = p.flush r q := by simp [Proxy.next, Proxy.onStarted, hst]
          rw [this]; exact flush_eff p r q
        · simp [todo, assigned, dest]
      | stopping =>
        refine quiet (by simp [Proxy.next, Proxy.onStopping, hst]) (by simp [Proxy.next, Proxy.onStopping, hst]) ?_
        simp [Proxy.next, Proxy.onStopping, hst, todo, assigned, dest]
      | task i =>
        have e : (p.runTask i).st = p.st ∧ (p.runTask i).spawned = p.spawned := by
          unfold Proxy.runTask; split <;> exact ⟨rfl, rfl⟩
        refine quiet e.2 (by simp [Proxy.next, e.1, hst]) ?_
        simp [Proxy.next, e.1, hst, todo, assigned, dest]
    | active r =>
      rw [hst] at quiet busy
      cases op with
      | deliver m =>
        refine busy [m] r ?_ ?_
        · have hn : p.next (.deliver m) = if m.channel then { p with spawned := p.spawned ++ [(r, m.id)], tasks := p.tasks ++ [(r, m.id)] }
              else { p with st := .dead } := by
            simp only [Proxy.next, Proxy.onDeliver, hst, Proxy.deliver]
            cases m.channel <;> rfl
          rw [hn]
          cases hc : m.channel with
          | true => exact ⟨by simp [good, hc, entry], by simp [allGood, hc, hst]⟩
          | false => exact ⟨by simp [good, hc], by simp [allGood, hc]⟩
        · simp [todo, assigned, dest]
      | started r' =>
        refine quiet (by simp [Proxy.next, Proxy.onStarted, hst]) (by simp [Proxy.next, Proxy.onStarted, hst]) ?_
        simp [Proxy.next, Proxy.onStarted, hst, todo, assigned]
      | stopping =>
        refine quiet (by simp [Proxy.next, Proxy.onStopping, hst]) (by simp [Proxy.next, Proxy.onStopping, hst]) ?_
        simp [Proxy.next, Proxy.onStopping, hst, todo, assigned]
      | task i =>
        have e : (p.runTask i).st = p.st ∧ (p.runTask i).spawned = p.spawned := by
          unfold Proxy.runTask; split <;> exact ⟨rfl, rfl⟩
        refine quiet e.2 (by simp [Proxy.next, e.1, hst]) ?_
        simp [Proxy.next, e.1, hst, todo, assigned]

theorem perm_eraseIdx {α : Type} (l : List α) (i : Nat) (t : α) (h : l[i]? = some t) : (t :: l.eraseIdx i).Perm l := by
  induction l generalizing i with
  | nil => simp at h
  | cons x l ih =>
    cases i with
    | zero => simp at h; subst h; simp
    | succ i =>
      simp only [List.getElem?_cons_succ] at h
      simp only [List.eraseIdx_cons_succ]
      exact (List.Perm.swap _ _ _).trans ((ih i h).cons x)

/-- every message handed to a task arrives once, or its task has still to run. -/
def Proxy.Accounted (p : Proxy) : Prop := (p.arrived ++ p.tasks).Perm p.spawned

theorem accounted_deliver {p p' : Proxy} {r : Nat} {m : PMsg} (h : p.Accounted) (hd : p.deliver r m = some p') : p'.Accounted := by
  unfold Proxy.deliver at hd
  split at hd
  · cases hd
    unfold Proxy.Accounted at *
    dsimp only
    rw [← List.append_assoc]
    exact h.append_right _
  · cases hd

theorem accounted_flush (q : List PMsg) {p : Proxy} (r : Nat) (h : p.Accounted) : (p.flush r q).Accounted := by
  induction q generalizing p with
  | nil => exact h
  | cons m q ih =>
    unfold Proxy.flush
    split
    · rename_i p' hd; exact ih (accounted_deliver h hd)
    · exact h

theorem accounted_next {p : Proxy} (h : p.Accounted) (op : POp) : (p.next op).Accounted := by
  cases op with
  | deliver m =>
    simp only [Proxy.next, Proxy.onDeliver]
    split
    · exact h
    · split
      · rename_i p' hd; exact accounted_deliver h hd
      · exact h
    · exact h
  | started r =>
    simp only [Proxy.next, Proxy.onStarted]
    split
    · exact accounted_flush _ r h
    · exact h
    · exact h
  | stopping => simp only [Proxy.next, Proxy.onStopping]; split <;> exact h
  | task i =>
    simp only [Proxy.next, Proxy.runTask]
    split
    · rename_i t ht
      unfold Proxy.Accounted at *
      dsimp only
      rw [List.append_assoc]
      exact ((perm_eraseIdx _ _ _ ht).append_left p.arrived).trans h
    · exact h

theorem accounted_run (ops : List POp) {p : Proxy} (h : p.Accounted) : (p.run ops).Accounted := by
  induction ops generalizing p with
  | nil => exact h
  | cons op ops ih => exact ih (accounted_next h op)

end Verif.Singleton
