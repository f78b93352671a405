import Verif.Sharding.ShardProps

/-!
# What a shard knows after a restart (C49)

A history is a list of starts, passivations, removals and snapshots. The specification below says which
entities are known and which were active at its end, without any table of entities.
-/

namespace Verif.Sharding

inductive HEvent where
  | start (e c : Nat)
  | passivate (e : Nat)
  | remove (e : Nat)
  | snapshot
deriving DecidableEq, Repr

/-- the recipe of `e` if it was started and not removed since. -/
def lastRecipe (e : Nat) (h : List HEvent) : Option Nat :=
  h.foldl (fun cur ev => match ev with
    | .start e' c => if e' = e then some c else cur
    | .remove e' => if e' = e then none else cur
    | _ => cur) none

/-- whether `e` was started, and neither passivated nor removed since. -/
def wasActive (e : Nat) (h : List HEvent) : Bool :=
  h.foldl (fun cur ev => match ev with
    | .start e' _ => if e' = e then true else cur
    | .passivate e' => if e' = e then false else cur
    | .remove e' => if e' = e then false else cur
    | .snapshot => cur) false

/-- the events after the last snapshot. -/
def sinceLastSnapshot (h : List HEvent) : List HEvent :=
  (h.reverse.takeWhile fun ev => ev ≠ .snapshot).reverse

/-- the entity table and journal of a shard that goes through a history. The table changes as its journal
entries say; a snapshot writes the table. -/
def historyStep (p : Assoc Nat Entity × List JEntry) : HEvent → Assoc Nat Entity × List JEntry
  | .start e c => (recoverEntry p.1 (.start e c), p.2 ++ [.start e c])
  | .passivate e => (recoverEntry p.1 (.passivate e), p.2 ++ [.passivate e])
  | .remove e => (recoverEntry p.1 (.remove e), p.2 ++ [.remove e])
  | .snapshot => (p.1, p.2 ++ [.snapshot (snapshotOf p.1)])

def writeJournal (h : List HEvent) : List JEntry := (h.foldl historyStep ([], [])).2

/-! ### lemmas -/

theorem foldl_after_snapshot (l : List JEntry) (h : l.any JEntry.isSnapshot = true) (m m' : Assoc Nat Entity) :
    l.foldl recoverEntry m = l.foldl recoverEntry m' := by
  induction l generalizing m m' with
  | nil => cases h
  | cons x l ih =>
    simp only [List.foldl_cons]
    by_cases hl : l.any JEntry.isSnapshot = true
    · exact ih hl _ _
    · cases x with
      | snapshot s => rfl
      | start e c => simp [JEntry.isSnapshot] at h hl; exact absurd h (by simpa using hl)
      | passivate e => simp [JEntry.isSnapshot] at h hl; exact absurd h (by simpa using hl)
      | remove e => simp [JEntry.isSnapshot] at h hl; exact absurd h (by simpa using hl)

theorem recoverAll_foldl (j : List JEntry) : recoverAll j = j.foldl recoverEntry [] := by
  unfold recoverAll
  induction j with
  | nil => rfl
  | cons x l ih =>
    simp only [sinceSnapshot]
    split
    · rename_i hl
      rw [ih, List.foldl_cons]
      exact foldl_after_snapshot l hl _ _
    · rfl

theorem recoverAll_snoc (j : List JEntry) (x : JEntry) : recoverAll (j ++ [x]) = recoverEntry (recoverAll j) x := by
  rw [recoverAll_foldl, recoverAll_foldl, List.foldl_append]; rfl

/-- restoring a snapshot gives back the recipes, all idle. -/
theorem restore_snapshotOf {m : Assoc Nat Entity} (hu : m.Uniq) (e : Nat) :
    (restoreSnapshot (snapshotOf m)).get e = (m.get e).map fun x => ⟨x.recipe, .idle⟩ := by
  unfold restoreSnapshot snapshotOf
  rw [List.foldl_map]
  suffices H : ∀ (l : Assoc Nat Entity) (acc : Assoc Nat Entity), l.Uniq →
      (l.foldl (fun m p => m.insert p.1 ⟨p.2.recipe, if false = true then EState.passivated else .idle⟩) acc).get e
        = match l.get e with
          | some x => some ⟨x.recipe, .idle⟩
          | none => acc.get e by
    have := H m [] hu
    rw [this]
    cases m.get e <;> simp [Assoc.get_nil]
  intro l
  induction l with
  | nil => intro acc _; rfl
  | cons p l ih =>
    intro acc hul
    obtain ⟨k, x⟩ := p
    have hu' : Assoc.Uniq l ∧ ∀ v, (k, v) ∉ l := by
      rw [Assoc.uniq_iff] at hul
      simp only [List.map_cons, List.nodup_cons] at hul
      refine ⟨by rw [Assoc.uniq_iff]; exact hul.2, fun v hv => hul.1 (List.mem_map.mpr ⟨(k, v), hv, rfl⟩)⟩
    rw [List.foldl_cons, ih _ hu'.1, Assoc.get_cons]
    by_cases hk : k = e
    · subst hk
      have : Assoc.get l k = none := Assoc.get_none_iff.mpr hu'.2
      rw [this]
      simp [Assoc.get_insert]
    · have hk' : e ≠ k := fun x => hk x.symm
      simp only [Assoc.get_insert, hk, hk', if_false]

theorem history_snoc (h : List HEvent) (ev : HEvent) :
    (h ++ [ev]).foldl historyStep ([], []) = historyStep (h.foldl historyStep ([], [])) ev := by
  rw [List.foldl_append]; rfl

theorem writeJournal_snoc (h : List HEvent) (ev : HEvent) :
    writeJournal (h ++ [ev]) = (historyStep (h.foldl historyStep ([], [])) ev).2 := by
  unfold writeJournal; rw [history_snoc]

theorem history_table_uniq (h : List HEvent) : (h.foldl historyStep ([], [])).1.Uniq := by
  induction h using snoc_induction with
  | nil => exact Assoc.Uniq.nil
  | snoc h ev ih =>
    rw [history_snoc]
    cases ev with
    | start e c => exact recoverEntry_uniq ih (.start e c)
    | passivate e => exact recoverEntry_uniq ih (.passivate e)
    | remove e => exact recoverEntry_uniq ih (.remove e)
    | snapshot => exact ih

theorem recoverEntry_recipe (m : Assoc Nat Entity) (e : Nat) (cur : Option Nat)
    (h : (m.get e).map Entity.recipe = cur) :
    (∀ e' c, ((recoverEntry m (.start e' c)).get e).map Entity.recipe = if e' = e then some c else cur) ∧
    (∀ e', ((recoverEntry m (.passivate e')).get e).map Entity.recipe = cur) ∧
    (∀ e', ((recoverEntry m (.remove e')).get e).map Entity.recipe = if e' = e then none else cur) := by
  refine ⟨?_, ?_, ?_⟩
  · intro e' c
    simp only [recoverEntry, Assoc.get_insert]
    by_cases he : e' = e
    · simp [he]
    · have : e ≠ e' := fun x => he x.symm
      simp [he, this, h]
  · intro e'
    simp only [recoverEntry]
    split
    · rename_i x hx
      simp only [Assoc.get_insert]
      split
      · rename_i he
        subst he
        rw [hx] at h
        simpa using h
      · exact h
    · exact h
  · intro e'
    simp only [recoverEntry, Assoc.get_erase]
    by_cases he : e' = e
    · simp [he]
    · have : e ≠ e' := fun x => he x.symm
      simp [he, this, h]

theorem lastRecipe_snoc (e : Nat) (h : List HEvent) (ev : HEvent) :
    lastRecipe e (h ++ [ev]) = match ev with
      | .start e' c => if e' = e then some c else lastRecipe e h
      | .remove e' => if e' = e then none else lastRecipe e h
      | _ => lastRecipe e h := by
  unfold lastRecipe
  rw [List.foldl_append]
  cases ev <;> rfl

theorem history_recipe (h : List HEvent) (e : Nat) :
    (((h.foldl historyStep ([], [])).1.get e).map Entity.recipe = lastRecipe e h) ∧
    (((recoverAll (writeJournal h)).get e).map Entity.recipe = lastRecipe e h) := by
  induction h using snoc_induction with
  | nil => exact ⟨rfl, rfl⟩
  | snoc h ev ih =>
    obtain ⟨ih1, ih2⟩ := ih
    rw [writeJournal_snoc, history_snoc, lastRecipe_snoc]
    have hj : (h.foldl historyStep ([], [])).2 = writeJournal h := rfl
    have r1 := recoverEntry_recipe _ e _ ih1
    have r2 := recoverEntry_recipe _ e _ ih2
    cases ev with
    | start e' c =>
      simp only [historyStep, hj, recoverAll_snoc]
      exact ⟨r1.1 e' c, r2.1 e' c⟩
    | passivate e' =>
      simp only [historyStep, hj, recoverAll_snoc]
      exact ⟨r1.2.1 e', r2.2.1 e'⟩
    | remove e' =>
      simp only [historyStep, hj, recoverAll_snoc]
      exact ⟨r1.2.2 e', r2.2.2 e'⟩
    | snapshot =>
      simp only [historyStep, hj, recoverAll_snoc]
      refine ⟨ih1, ?_⟩
      simp only [recoverEntry]
      rw [restore_snapshotOf (history_table_uniq h), ← ih1, Option.map_map]
      rfl

/-- whether a table has `e` as starting. -/
def startingIn (m : Assoc Nat Entity) (e : Nat) : Bool := ((m.get e).map fun x => x.st.isStarting).getD false

theorem recoverEntry_starting (m : Assoc Nat Entity) (e : Nat) (cur : Bool) (h : startingIn m e = cur) :
    (∀ e' c, startingIn (recoverEntry m (.start e' c)) e = if e' = e then true else cur) ∧
    (∀ e', startingIn (recoverEntry m (.passivate e')) e = if e' = e then false else cur) ∧
    (∀ e', startingIn (recoverEntry m (.remove e')) e = if e' = e then false else cur) := by
  unfold startingIn at *
  refine ⟨?_, ?_, ?_⟩
  · intro e' c
    simp only [recoverEntry, Assoc.get_insert]
    by_cases he : e' = e
    · simp [he, EState.isStarting]
    · have : e ≠ e' := fun x => he x.symm
      simp [he, this, h]
  · intro e'
    simp only [recoverEntry]
    by_cases he : e' = e
    · subst he
      rcases hg : m.get e' with _ | x
      · simp [hg]
      · simp [Assoc.get_insert, EState.isStarting]
    · have hne : e ≠ e' := fun x => he x.symm
      split
      · simp [Assoc.get_insert, he, hne, h]
      · simp [he, h]
  · intro e'
    simp only [recoverEntry, Assoc.get_erase]
    by_cases he : e' = e
    · simp [he]
    · have : e ≠ e' := fun x => he x.symm
      simp [he, this, h]

theorem wasActive_snoc (e : Nat) (h : List HEvent) (ev : HEvent) :
    wasActive e (h ++ [ev]) = match ev with
      | .start e' _ => if e' = e then true else wasActive e h
      | .passivate e' => if e' = e then false else wasActive e h
      | .remove e' => if e' = e then false else wasActive e h
      | .snapshot => wasActive e h := by
  unfold wasActive
  rw [List.foldl_append]
  cases ev <;> rfl

theorem sinceLastSnapshot_snoc (h : List HEvent) (ev : HEvent) :
    sinceLastSnapshot (h ++ [ev]) = if ev = .snapshot then [] else sinceLastSnapshot h ++ [ev] := by
  unfold sinceLastSnapshot
  rw [List.reverse_append]
  simp only [List.reverse_cons, List.reverse_nil, List.nil_append, List.cons_append, List.takeWhile_cons]
  by_cases he : ev = .snapshot <;> simp [he]

theorem history_starting (h : List HEvent) (e : Nat) :
    startingIn (recoverAll (writeJournal h)) e = wasActive e (sinceLastSnapshot h) := by
  induction h using snoc_induction with
  | nil => rfl
  | snoc h ev ih =>
    rw [writeJournal_snoc, sinceLastSnapshot_snoc]
    have hj : (h.foldl historyStep ([], [])).2 = writeJournal h := rfl
    have r := recoverEntry_starting _ e _ ih
    cases ev with
    | start e' c =>
      simp only [historyStep, hj, recoverAll_snoc, reduceCtorEq, if_false, wasActive_snoc]
      exact r.1 e' c
    | passivate e' =>
      simp only [historyStep, hj, recoverAll_snoc, reduceCtorEq, if_false, wasActive_snoc]
      exact r.2.1 e'
    | remove e' =>
      simp only [historyStep, hj, recoverAll_snoc, reduceCtorEq, if_false, wasActive_snoc]
      exact r.2.2 e'
    | snapshot =>
      simp only [historyStep, hj, recoverAll_snoc, if_true]
      simp only [startingIn, recoverEntry]
      rw [restore_snapshotOf (history_table_uniq h)]
      rcases (h.foldl historyStep ([], [])).1.get e with _ | x <;> rfl

/-- the entities restarted after recovery, with the recipe used. -/
theorem boot_restarts (j : List JEntry) (e c : Nat) :
    (∃ t ∈ (Shard.boot j).starting, t.e = e ∧ t.c = c) ↔
      startingIn (recoverAll j) e = true ∧ ((recoverAll j).get e).map Entity.recipe = some c := by
  have hm : (∃ t ∈ (Shard.boot j).starting, t.e = e ∧ t.c = c) ↔
      (e, c) ∈ (Shard.boot j).starting.map (fun t => (t.e, t.c)) := by
    simp only [List.mem_map, Prod.mk.injEq]
  rw [hm, boot_starting]
  simp only [List.mem_map, List.mem_filter, Prod.mk.injEq]
  constructor
  · rintro ⟨⟨k, x⟩, ⟨hk, hs⟩, rfl, rfl⟩
    have hg : (recoverAll j).get k = some x := Assoc.get_of_mem (recoverAll_uniq j) hk
    simp [startingIn, hg, hs]
  · rintro ⟨h1, h2⟩
    unfold startingIn at h1
    rcases hg : (recoverAll j).get e with _ | x
    · rw [hg] at h2; cases h2
    · rw [hg] at h1 h2
      refine ⟨(e, x), ⟨Assoc.mem_of_get hg, by simpa using h1⟩, rfl, by simpa using h2⟩

/-! ### C49 -/

/-- **C49.** After a restart the shard knows exactly the entities started and not removed since, with their
latest recipes, for every history with any number of snapshots. -/
theorem C49_known (h : List HEvent) (e : Nat) :
    ((Shard.boot (writeJournal h)).entities.get e).map Entity.recipe = lastRecipe e h := by
  rw [boot_entities]; exact (history_recipe h e).2

example : lastRecipe 1 [.start 1 4, .start 2 5, .snapshot, .remove 2, .start 1 6, .passivate 1] = some 6 := by decide
example : ((Shard.boot (writeJournal [.start 1 4, .start 2 5, .snapshot, .remove 2, .start 1 6, .passivate 1])).entities.get 2)
  = none := by decide

/-- **C49.** It restarts exactly those that were active according to the events after the last snapshot. -/
theorem C49_restarts_since_snapshot (h : List HEvent) (e c : Nat) :
    (∃ t ∈ (Shard.boot (writeJournal h)).starting, t.e = e ∧ t.c = c) ↔
      wasActive e (sinceLastSnapshot h) = true ∧ lastRecipe e h = some c := by
  rw [boot_restarts, history_starting, (history_recipe h e).2]

/-- **C49.** In a history without snapshots, it restarts exactly those that were active. -/
theorem C49_restarts_partial (h : List HEvent) (hs : HEvent.snapshot ∉ h) (e c : Nat) :
    (∃ t ∈ (Shard.boot (writeJournal h)).starting, t.e = e ∧ t.c = c) ↔
      wasActive e h = true ∧ lastRecipe e h = some c := by
  rw [C49_restarts_since_snapshot]
  have : sinceLastSnapshot h = h := by
    clear e c
    induction h using snoc_induction with
    | nil => rfl
    | snoc h ev ih =>
      rw [sinceLastSnapshot_snoc, if_neg (fun e => hs (by rw [e]; simp)), ih (fun hm => hs (List.mem_append_left _ hm))]
  rw [this]

example :
    let h := [HEvent.start 1 4, .start 2 5, .passivate 2, .start 3 6, .remove 3]
    wasActive 1 h = true ∧ wasActive 2 h = false ∧
      (Shard.boot (writeJournal h)).starting = [⟨1, 4, 0⟩] := by decide

/-- Each is restarted once. -/
theorem C49_restarted_once (j : List JEntry) (e : Nat) : (Shard.boot j).startsUnderWay e ≤ 1 := by
  rw [startsUnderWay_eq]; exact (boot_calm j e).1.one

/-- **C49 fails** with snapshots: an entity that was active when the snapshot was taken is not restarted,
and a passivated one is no longer known to be passivated. -/
theorem C49_snapshot_refuted :
    wasActive 1 [.start 1 4, .snapshot] = true ∧ (Shard.boot (writeJournal [.start 1 4, .snapshot])).starting = [] ∧
    (Shard.boot (writeJournal [.start 1 4, .passivate 1, .snapshot])).entities.get 1 = some ⟨4, .idle⟩ := by decide

/-- **C49.** The journal a running shard writes: if every write succeeds, what is recovered is what the
shard knew. -/
theorem C49_running (j : List JEntry) (ops : List ShardOp)
    (hok : ∀ op ∈ ops, (∀ r, op ≠ .request r false) ∧ (∀ e c, op ≠ .startEntity e c false)) (e : Nat) :
    ((Shard.boot ((Shard.boot j).run ops).journal).entities.get e).map Entity.recipe
      = (((Shard.boot j).run ops).entities.get e).map Entity.recipe := by
  rw [boot_entities]
  suffices H : ((recoverAll ((Shard.boot j).run ops).journal).get e).map Entity.recipe
      = (((Shard.boot j).run ops).entities.get e).map Entity.recipe ∧ ((Shard.boot j).run ops).entities.Uniq from H.1
  induction ops using snoc_induction with
  | nil =>
    show ((recoverAll (Shard.boot j).journal).get e).map _ = ((Shard.boot j).entities.get e).map _ ∧ _
    rw [boot_journal, boot_entities]
    exact ⟨rfl, by show (Shard.boot j).entities.Uniq; rw [boot_entities]; exact recoverAll_uniq j⟩
  | snoc ops op ih =>
    obtain ⟨ih, hu⟩ := ih (fun op' h' => hok op' (List.mem_append_left _ h'))
    have ho := hok op (List.mem_append_right _ (List.mem_singleton.mpr rfl))
    rw [Shard.run_append]
    show ((recoverAll (((Shard.boot j).run ops).next op).journal).get e).map Entity.recipe
      = ((((Shard.boot j).run ops).next op).entities.get e).map Entity.recipe ∧
      (((Shard.boot j).run ops).next op).entities.Uniq
    generalize (Shard.boot j).run ops = σ at ih hu
    cases op with
    | request r ok =>
      have hokt : ok = true := by
        cases ok with
        | true => rfl
        | false => exact absurd rfl (ho.1 r)
      subst hokt
      simp only [Shard.next, Shard.step, Shard.request]
      split
      · split
        · rename_i x hx
          refine ⟨?_, hu.insert _ _⟩
          rw [ih]
          simp only [Assoc.get_insert]
          split
          · rename_i he; rw [he, hx]; rfl
          · rfl
        · split
          · rename_i c _
            simp only [Shard.startEntity, Bool.and_self, if_true, recoverAll_snoc]
            refine ⟨?_, hu.insert _ _⟩
            rw [(recoverEntry_recipe _ e _ ih).1]
            simp only [Assoc.get_insert]
            by_cases he : r.entity = e
            · simp [he]
            · have : e ≠ r.entity := fun x => he x.symm
              simp [he, this]
          · exact ⟨ih, hu⟩
      · exact ⟨ih, hu⟩
    | startEntity e' c ok =>
      have hokt : ok = true := by
        cases ok with
        | true => rfl
        | false => exact absurd rfl (ho.2 e' c)
      subst hokt
      simp only [Shard.next, Shard.step, Shard.handleStart, Shard.startEntity, Bool.and_self, if_true, recoverAll_snoc]
      refine ⟨?_, hu.insert _ _⟩
      rw [(recoverEntry_recipe _ e _ ih).1]
      simp only [Assoc.get_insert]
      by_cases he : e' = e
      · simp [he]
      · have : e ≠ e' := fun x => he x.symm
        simp [he, this]
    | started t =>
      simp only [Shard.next, Shard.step]
      split
      · simp only [Shard.started]
        split
        · rename_i x hx
          refine ⟨?_, hu.insert _ _⟩
          simp only [Assoc.get_insert]
          rw [ih]
          split
          · rename_i he; rw [he, hx]; rfl
          · rfl
        · exact ⟨ih, hu⟩
      · exact ⟨ih, hu⟩
    | startFailed t =>
      simp only [Shard.next, Shard.step]
      split <;> exact ⟨ih, hu⟩
    | snapshot =>
      simp only [Shard.next, Shard.step, recoverAll_snoc, recoverEntry]
      refine ⟨?_, hu⟩
      rw [restore_snapshotOf hu, Option.map_map]
      rfl
    | childStopped e' i =>
      simp only [Shard.next, Shard.step]
      split <;> exact ⟨ih, hu⟩

/-- **C49 fails** if a write to the journal fails: the error is ignored, the entity runs, and after a
restart the shard does not know it. -/
theorem C49_unpersisted_refuted :
    let r : EReq := ⟨1, 5, some 9, true⟩
    let σ := (Shard.boot []).run [.request r false, .started ⟨5, 9, 0⟩]
    σ.entities.get 5 = some ⟨9, .active 0⟩ ∧ (Shard.boot σ.journal).entities.get 5 = none := by decide

/-- **C48.** An entity active before a restart (and not covered by a snapshot) is being started after it:
a request for it waits and is delivered when it is up. -/
theorem C48_restarted_partial (h : List HEvent) (e c : Nat) (ha : wasActive e (sinceLastSnapshot h) = true)
    (hc : lastRecipe e h = some c) (r : EReq) (hr : r.entity = e) (hk : r.known = true) (ok : Bool) :
    ∃ t ∈ ((Shard.boot (writeJournal h)).next (.request r ok)).starting, t.e = e ∧ t.c = c ∧
      (((Shard.boot (writeJournal h)).next (.request r ok)).step (.started t)).2 = [.deliver e t.i r] := by
  subst hr
  obtain ⟨t, ht, h1, h2⟩ := (C49_restarts_since_snapshot h r.entity c).mpr ⟨ha, hc⟩
  have hst := history_starting h r.entity
  rw [ha] at hst
  obtain ⟨c', hg⟩ : ∃ c', (Shard.boot (writeJournal h)).entities.get r.entity = some ⟨c', .starting []⟩ := by
    rw [boot_entities]
    unfold startingIn at hst
    rcases hq : (recoverAll (writeJournal h)).get r.entity with _ | ⟨c', st⟩
    · rw [hq] at hst; cases hst
    · have hb := recoverAll_buf _ _ _ hq
      rw [hq] at hst
      cases st with
      | starting buf => simp only [EState.buf] at hb; subst hb; exact ⟨c', rfl⟩
      | _ => cases hst
  have hn : ((Shard.boot (writeJournal h)).next (.request r ok)).starting = (Shard.boot (writeJournal h)).starting ∧
      ((Shard.boot (writeJournal h)).next (.request r ok)).entities.get r.entity = some ⟨c', .starting [r]⟩ := by
    simp [Shard.next, Shard.step, Shard.request, hk, hg, EState.request, Assoc.get_insert]
  refine ⟨t, by rw [hn.1]; exact ht, h1, h2, ?_⟩
  rw [(C47_up _ t (by rw [hn.1]; exact ht) (by rw [h1, hn.2]; simp)).1]
  simp [Shard.waitingFor, h1, hn.2]

example : wasActive 1 (sinceLastSnapshot [.start 2 3, .snapshot, .start 1 4]) = true ∧
    lastRecipe 1 [.start 2 3, .snapshot, .start 1 4] = some 4 := by decide

end Verif.Sharding
