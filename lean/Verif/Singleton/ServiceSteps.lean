import Verif.Singleton.ServiceLemmas

/-! # Sending to a cluster singleton: invariants -/

namespace Verif.Singleton

variable {nodes : List Nat} {L : Nat}

/-- a proxy that has not died and holds only messages with a result channel. -/
structure Fine (p : Proxy) : Prop where
  alive : p.st ≠ .dead
  asked : ∀ q, p.st = .buffered q → ∀ m ∈ q, m.channel = true

theorem flush_asked (p : Proxy) (r : Nat) (q : List PMsg) (h : ∀ m ∈ q, m.channel = true) :
    p.flush r q = { p with
      st := .active r
      spawned := p.spawned ++ q.map fun m => (r, m.id)
      tasks := p.tasks ++ q.map fun m => (r, m.id) } := by
  induction q generalizing p with
  | nil => simp [Proxy.flush]
  | cons m q ih =>
    simp only [Proxy.flush, Proxy.deliver, if_pos (h m (by simp))]
    rw [ih _ fun x hx => h x (by simp [hx])]
    simp

/-- everything sent on `d` is accounted for. -/
structure Counted (d : Nat) (sent : List Nat) (w : Svc) : Prop where
  fine : Fine (w.proxy d)
  mail : ∀ m, .deliver m ∈ w.mail d → m.channel = true
  notask : ∀ i, .task i ∉ w.mail d
  perm : (w.places d).Perm sent

theorem MOut.told_not (o : MOut) : ∀ x, o.told? = some x → (∀ m, x ≠ .deliver m) ∧ ∀ i, x ≠ .task i := by
  cases o <;> simp [MOut.told?] <;> (intro x hx; subst hx; simp)

theorem Cl.tells_not (child : Bool) (w : Cl) (op : ClOp) : ∀ x ∈ w.tells nodes child op, (∀ m, x ≠ .deliver m) ∧ ∀ i, x ≠ .task i := by
  intro x hx
  unfold Cl.tells at hx
  split at hx
  · obtain ⟨o, _, ho⟩ := List.mem_filterMap.1 hx
    exact o.told_not x ho
  · cases hx

theorem inMail_append (a b : List POp) : inMail (a ++ b) = inMail a ++ inMail b := by
  simp only [inMail, List.filterMap_append]

theorem inMail_none {l : List POp} (h : ∀ x ∈ l, ∀ m, x ≠ .deliver m) : inMail l = [] := by
  unfold inMail
  rw [List.filterMap_eq_nil_iff]
  intro x hx
  cases x with
  | deliver m => exact absurd rfl (h _ hx m)
  | _ => rfl

theorem perm_task {l : List (Nat × Nat)} {i : Nat} {t : Nat × Nat} (h : l[i]? = some t) :
    l.Perm (t :: l.eraseIdx i) := by
  induction l generalizing i with
  | nil => simp at h
  | cons a l ih =>
    cases i with
    | zero => simp at h; subst h; simp
    | succ i =>
      simp only [List.getElem?_cons_succ] at h
      simp only [List.eraseIdx_cons_succ]
      exact ((ih h).cons a).trans (.swap _ _ _)

theorem Counted.next {d : Nat} {sent : List Nat} {w : Svc} (h : Counted d sent w) (child : Bool) (op : SvcOp)
    (ha : ∀ e m, op = .send e m → m.channel = true) : Counted d (sent ++ sentAt d [op]) (w.next nodes child op) := by
  have hperm := h.perm
  unfold Svc.places at hperm
  cases op with
  | cl op =>
    have hs : sentAt d [.cl op] = [] := rfl
    rw [hs, List.append_nil]
    have ht := w.cl.tells_not (nodes := nodes) child op
    by_cases e : d = op.node
    · subst e
      refine ⟨h.fine, ?_, ?_, ?_⟩
      · intro m hm
        simp only [Svc.next, setAt_self, List.mem_append] at hm
        rcases hm with hm | hm
        · exact h.mail m hm
        · exact absurd rfl ((ht _ hm).1 m)
      · intro i hm
        simp only [Svc.next, setAt_self, List.mem_append] at hm
        rcases hm with hm | hm
        · exact h.notask i hm
        · exact absurd rfl ((ht _ hm).2 i)
      · simp only [Svc.places, Svc.next, setAt_self, inMail_append, inMail_none fun x hx => (ht x hx).1, List.append_nil]
        exact hperm
    · have hm : (w.next nodes child (.cl op)).mail d = w.mail d := setAt_ne _ _ e
      refine ⟨h.fine, ?_, ?_, ?_⟩
      · rw [hm]; exact h.mail
      · rw [hm]; exact h.notask
      · unfold Svc.places; rw [hm]; exact hperm
  | send e m =>
    by_cases hd : e = d
    · subst hd
      have hs : sentAt e [.send e m] = [m.id] := by simp [sentAt]
      rw [hs]
      refine ⟨h.fine, ?_, ?_, ?_⟩
      · intro x hx
        simp only [Svc.next, setAt_self, List.mem_append, List.mem_singleton] at hx
        rcases hx with hx | hx
        · exact h.mail x hx
        · cases hx; exact ha e m rfl
      · intro i hx
        simp only [Svc.next, setAt_self, List.mem_append, List.mem_singleton] at hx
        rcases hx with hx | hx
        · exact h.notask i hx
        · cases hx
      · simp only [Svc.places, Svc.next, setAt_self, inMail_append, List.append_assoc]
        rw [show inMail [POp.deliver m] = [m.id] from rfl]
        refine List.Perm.trans ?_ (hperm.append_right [m.id])
        rw [List.perm_iff_count]
        intro x
        simp only [List.count_append]
        omega
    · have hs : sentAt d [.send e m] = [] := by simp [sentAt, hd]
      rw [hs, List.append_nil]
      have hm : (w.next nodes child (.send e m)).mail d = w.mail d := setAt_ne _ _ (fun e' => hd e'.symm)
      refine ⟨h.fine, ?_, ?_, ?_⟩
      · rw [hm]; exact h.mail
      · rw [hm]; exact h.notask
      · unfold Svc.places; rw [hm]; exact hperm
  | handle e =>
    have hs : sentAt d [.handle e] = [] := rfl
    rw [hs, List.append_nil]
    by_cases hd : d = e
    · subst hd
      cases hm : w.mail d with
      | nil => simp only [Svc.next, hm]; exact h
      | cons x rest =>
        have hn : w.next nodes child (.handle d) =
            { w with proxy := setAt w.proxy d ((w.proxy d).next x), mail := setAt w.mail d rest } := by
          simp only [Svc.next, hm]
        rw [hn]
        have hm' := h.mail
        have hk' := h.notask
        rw [hm] at hm' hk' hperm
        have hr1 : ∀ m, POp.deliver m ∈ setAt w.mail d rest d → m.channel = true := by
          rw [setAt_self]; exact fun m hx => hm' m (by simp [hx])
        have hr2 : ∀ i, POp.task i ∉ setAt w.mail d rest d := by
          rw [setAt_self]; exact fun i hx => hk' i (by simp [hx])
        have hf := h.fine
        refine ⟨?_, hr1, hr2, ?_⟩
        · simp only [setAt_self]
          cases x with
          | deliver m =>
            have hc := hm' m (by simp)
            cases hst : (w.proxy d).st with
            | buffered q =>
              simp only [Proxy.next, Proxy.onDeliver, hst]
              refine ⟨by simp, fun q' e => ?_⟩
              simp only [PState.buffered.injEq] at e
              subst e
              intro y hy
              simp only [List.mem_append, List.mem_singleton] at hy
              rcases hy with hy | rfl
              · exact hf.asked q hst y hy
              · exact hc
            | active r =>
              simp only [Proxy.next, Proxy.onDeliver, hst, Proxy.deliver, if_pos hc]
              exact ⟨by simp, by simp⟩
            | dead => exact absurd hst hf.alive
          | started r =>
            cases hst : (w.proxy d).st with
            | buffered q =>
              simp only [Proxy.next, Proxy.onStarted, hst]
              rw [flush_asked _ _ _ (hf.asked q hst)]
              exact ⟨by simp, by simp⟩
            | active r' =>
              simp only [Proxy.next, Proxy.onStarted, hst]
              exact ⟨by simp, by simp⟩
            | dead => exact absurd hst hf.alive
          | stopping =>
            cases hst : (w.proxy d).st with
            | buffered q => simp only [Proxy.next, Proxy.onStopping, hst]; exact hf
            | active r' =>
              simp only [Proxy.next, Proxy.onStopping, hst]
              exact ⟨by simp, fun q e => by cases e; simp⟩
            | dead => exact absurd hst hf.alive
          | task i => exact absurd (by simp) (hk' i)
        · simp only [Svc.places, setAt_self]
          refine List.Perm.trans ?_ hperm
          rw [List.perm_iff_count]
          intro y
          cases x with
          | deliver m =>
            have hc := hm' m (by simp)
            rw [show inMail (.deliver m :: rest) = m.id :: inMail rest from rfl]
            cases hst : (w.proxy d).st with
            | buffered q =>
              simp only [Proxy.next, Proxy.onDeliver, hst, PState.kept, List.map_append, List.map_cons, List.map_nil,
                List.count_append, List.count_cons, List.count_nil]
              omega
            | active r =>
              simp only [Proxy.next, Proxy.onDeliver, hst, Proxy.deliver, if_pos hc, PState.kept, List.map_append, List.map_cons,
                List.map_nil, List.count_append, List.count_cons, List.count_nil]
              omega
            | dead => exact absurd hst hf.alive
          | started r =>
            rw [show inMail (.started r :: rest) = inMail rest from rfl]
            cases hst : (w.proxy d).st with
            | buffered q =>
              simp only [Proxy.next, Proxy.onStarted, hst]
              rw [flush_asked _ _ _ (hf.asked q hst)]
              simp only [PState.kept, List.map_append, List.map_map, List.count_append, List.count_nil]
              rw [show ((fun x : Nat × Nat => x.2) ∘ fun m : PMsg => (r, m.id)) = (fun m : PMsg => m.id) from rfl]
              omega
            | active r' =>
              simp only [Proxy.next, Proxy.onStarted, hst, PState.kept]
            | dead => exact absurd hst hf.alive
          | stopping =>
            rw [show inMail (.stopping :: rest) = inMail rest from rfl]
            cases hst : (w.proxy d).st with
            | buffered q => simp only [Proxy.next, Proxy.onStopping, hst]
            | active r' => simp only [Proxy.next, Proxy.onStopping, hst, PState.kept, List.map_nil]
            | dead => exact absurd hst hf.alive
          | task i => exact absurd (by simp) (hk' i)
    · cases hm : w.mail e with
      | nil => simp only [Svc.next, hm]; exact h
      | cons x rest =>
        have hn : w.next nodes child (.handle e) =
            { w with proxy := setAt w.proxy e ((w.proxy e).next x), mail := setAt w.mail e rest } := by
          simp only [Svc.next, hm]
        rw [hn]
        have h1 : setAt w.proxy e ((w.proxy e).next x) d = w.proxy d := setAt_ne _ _ hd
        have h2 : setAt w.mail e rest d = w.mail d := setAt_ne _ _ hd
        refine ⟨?_, ?_, ?_, ?_⟩
        · show Fine (setAt w.proxy e ((w.proxy e).next x) d); rw [h1]; exact h.fine
        · show ∀ m, POp.deliver m ∈ setAt w.mail e rest d → _; rw [h2]; exact h.mail
        · show ∀ i, POp.task i ∉ setAt w.mail e rest d; rw [h2]; exact h.notask
        · simp only [Svc.places, h1, h2]; exact hperm
  | task e i =>
    have hs : sentAt d [.task e i] = [] := rfl
    rw [hs, List.append_nil]
    cases ht : (w.proxy e).tasks[i]? with
    | none => simp only [Svc.next, ht]; exact h
    | some t =>
      simp only [Svc.next, ht]
      refine ⟨?_, ?_, ?_, ?_⟩
      · rw [Svc.arrive_proxy]
        by_cases hd : d = e
        · subst hd
          simp only [setAt_self, Proxy.next, Proxy.runTask, ht]
          exact ⟨h.fine.alive, h.fine.asked⟩
        · simp only [setAt_ne _ _ hd]; exact h.fine
      · rw [Svc.arrive_mail]; exact h.mail
      · rw [Svc.arrive_mail]; exact h.notask
      · by_cases hd : d = e
        · subst hd
          refine List.Perm.trans ?_ hperm
          unfold Svc.places
          rw [Svc.arrive_proxy, Svc.arrive_mail, List.perm_iff_count]
          intro y
          have hp := ((perm_task ht).map (·.2)).count_eq y
          simp only [List.map_cons, List.count_cons] at hp
          simp only [setAt_self, Proxy.next, Proxy.runTask, ht]
          unfold Svc.arrive
          split <;> simp only [setAt_self, List.map_append, List.map_cons, List.map_nil, List.count_append, List.count_cons,
            List.count_nil] <;> omega
        · unfold Svc.places
          rw [Svc.arrive_proxy, Svc.arrive_mail]
          have hg : (Svc.arrive { w with proxy := setAt w.proxy e ((w.proxy e).next (.task i)) } e t.1 t.2).got d = w.got d := by
            unfold Svc.arrive; split
            · exact setAt_ne _ _ hd
            · rfl
          have hf : (Svc.arrive { w with proxy := setAt w.proxy e ((w.proxy e).next (.task i)) } e t.1 t.2).failed d = w.failed d := by
            unfold Svc.arrive; split
            · rfl
            · exact setAt_ne _ _ hd
          rw [hg, hf]
          simp only [setAt_ne _ _ hd]
          exact hperm

theorem sentAt_cons (d : Nat) (op : SvcOp) (ops : List SvcOp) : sentAt d (op :: ops) = sentAt d [op] ++ sentAt d ops := by
  rw [show op :: ops = [op] ++ ops from rfl]
  simp only [sentAt, List.filterMap_append]

theorem Counted.run {d : Nat} {sent : List Nat} {w : Svc} (h : Counted d sent w) (child : Bool) (ops : List SvcOp)
    (ha : AllAsked ops) : Counted d (sent ++ sentAt d ops) (w.run nodes child ops) := by
  induction ops generalizing w sent with
  | nil => simpa [sentAt, Svc.run] using h
  | cons op ops ih =>
    rw [sentAt_cons, ← List.append_assoc]
    exact ih (h.next child op fun e m hx => ha e m (by simp [hx])) fun e m hx => ha e m (by simp [hx])

theorem Counted.init (d : Nat) : Counted d [] {} :=
  ⟨⟨by simp, fun q e => by cases e; simp⟩, by simp, by simp, .refl _⟩

end Verif.Singleton
