import Verif.Persist.SharedLemmas

/-!
# C116: A Redis journal used by many at once is as if used by one after another
-/

namespace Verif.Persist.Shared

/-! ### One after another -/

/-- **C116**: Whatever the actors of any number of nodes call, in whatever order the commands reach Redis, get lost or
fail, and whichever nodes stop or crash: what the callers see is explained by one order of the requests that took
effect. Each took effect once and was called; each answer is the one it has in that order; a request called after
another was answered comes after it; and what Redis holds is what the requests leave in that order. -/
theorem C116_explained (st : RedisStore) (ops : List Op) :
    ∃ order, Explains order st ((start st).runs ops).2 ((start st).runs ops).1.store :=
  ⟨_, (Inv.runs st ops).explains⟩

/-- **C116**: A call ends once at most, with an answer or an error, and nothing is told to one who did not call. -/
theorem C116_once (st : RedisStore) (ops : List Op) :
    (((start st).runs ops).2.filterMap Ev.ends).Nodup ∧
    ∀ i ∈ ((start st).runs ops).2.filterMap Ev.ends, i ∈ ((start st).runs ops).2.filterMap Ev.begins := by
  have I := Inv.runs st ops
  refine ⟨I.nodups.2.2, fun i hi => ?_⟩
  rw [I.begun]
  exact I.account.subset (by simp [hi])

/-- **C116**: Every call ends: what the journal actors, Redis and the tasks do by themselves is always less and less, and
when there is nothing left for them to do (and no command was lost), every call has been answered, has failed or was
one of a node that crashed. -/
theorem C116_ends (st : RedisStore) (ops : List Op) (hd : ∀ i, Op.drop i ∉ ops) :
    let σ := ((start st).runs ops).1
    (∀ op, op.own = true → σ.step op = (σ, []) ∨ (σ.step op).1.left < σ.left) ∧
    ((∀ op, op.own = true → σ.step op = (σ, [])) →
      ∀ i ∈ ((start st).runs ops).2.filterMap Ev.begins, i ∈ ((start st).runs ops).2.filterMap Ev.ends) := by
  intro σ
  refine ⟨fun op ho => step_less σ op ho, fun hs i hi => ?_⟩
  have I := Inv.runs st ops
  have A := Awaited.runs st ops hd
  have hw : σ.wire = [] := by
    cases hw : σ.wire with
    | nil => rfl
    | cons j w =>
      have hf : σ.wire.find? (fun x => x.id == j.id) = some j := by rw [hw]; simp
      have e : σ.exec j.id = (σ, []) := hs (.exec j.id) rfl
      unfold Sys.exec at e
      rw [hf] at e
      have := congrArg (fun p => p.1.wire) e
      have hj : j ∈ σ.wire := by rw [hw]; simp
      have hl := length_filter_lt (p := fun x : Job => x.id != j.id) hj (by simp)
      simp only at this
      rw [this] at hl
      omega
  have hr : σ.replies = [] := by
    cases hr : σ.replies with
    | nil => rfl
    | cons p w =>
      have hf : σ.replies.find? (fun x => x.1 == p.1) = some p := by rw [hr]; simp
      have e : σ.deliver p.1 = (σ, []) := hs (.deliver p.1) rfl
      unfold Sys.deliver at e
      rw [hf] at e
      exact absurd (congrArg (·.2) e) (by simp)
  have ht : σ.tasks = [] := by
    cases ht : σ.tasks with
    | nil => rfl
    | cons j w =>
      rcases A j (by show j ∈ σ.tasks; rw [ht]; simp) with ⟨x, hx, _⟩ | ⟨x, hx, _⟩
      · have hx : x ∈ σ.wire := hx
        rw [hw] at hx; cases hx
      · have hx : x ∈ σ.replies := hx
        rw [hr] at hx; cases hx
  have hq : σ.queue = [] := by
    cases hq : σ.queue with
    | nil => rfl
    | cons j w =>
      have hf : σ.queue.find? (fun x => x.node == j.node) = some j := by rw [hq]; simp
      have e : σ.handle j.node = (σ, []) := hs (.handle j.node) rfl
      unfold Sys.handle at e
      have hb : ¬ σ.busy j.node = true := by simp [Sys.busy, ht]
      rw [if_neg hb, hf] at e
      have := congrArg (fun p => p.1.tasks) e
      simp only [ht] at this
      cases this
  rw [I.begun] at hi
  have := I.account.symm.subset hi
  have h1 : ((start st).runs ops).1.queue = [] := hq
  have h2 : ((start st).runs ops).1.tasks = [] := ht
  rw [h1, h2] at this
  simpa using this

/-! ### A journal of one's own -/

theorem pairwise_of_before {α : Type} {R : α → α → Prop} {l : List α} (h : ∀ x y, Before l x y → R x y) :
    l.Pairwise R := by
  induction l with
  | nil => exact .nil
  | cons z l ih =>
    refine List.pairwise_cons.mpr ⟨fun y hy => h z y ⟨[z], l, rfl, by simp, hy⟩, ih fun x y hb => ?_⟩
    obtain ⟨a, b, rfl, hx, hy⟩ := hb
    exact h x y ⟨z :: a, b, rfl, List.mem_cons_of_mem _ hx, hy⟩

theorem before_range {i j n : Nat} (hij : i < j) (hj : j < n) : Before (List.range n) i j := by
  refine ⟨List.range (i + 1), (List.range (n - (i + 1))).map (i + 1 + ·), ?_, by simp, ?_⟩
  · rw [← List.range_add]; congr 1; omega
  · rw [List.mem_map]
    exact ⟨j - (i + 1), by rw [List.mem_range]; omega, by omega⟩

theorem before_filterMap {α β : Type} {f : α → Option β} {l : List α} {b c : β} (h : Before (l.filterMap f) b c) :
    ∃ x y, f x = some b ∧ f y = some c ∧ Before l x y := by
  obtain ⟨u, v, e, hb, hc⟩ := h
  obtain ⟨l1, l2, rfl, rfl, rfl⟩ := List.filterMap_eq_append_iff.mp e
  obtain ⟨x, hx, e1⟩ := List.mem_filterMap.mp hb
  obtain ⟨y, hy, e2⟩ := List.mem_filterMap.mp hc
  exact ⟨x, y, e1, e2, l1, l2, rfl, hx, hy⟩

theorem begins_some {e : Ev} {i : Nat} (h : e.begins = some i) : ∃ n r, e = .called i n r := by
  cases e <;> cases h
  exact ⟨_, _, rfl⟩

theorem Inv.before_called {st σ h log} (I : Inv st σ h log) {i n j m : Nat} {r q : Req} (h1 : Ev.called i n r ∈ h)
    (h2 : Ev.called j m q ∈ h) (hij : i < j) : Before h (.called i n r) (.called j m q) := by
  have hb := before_range hij (I.lt h2)
  rw [← I.begun] at hb
  obtain ⟨x, y, e1, e2, hb⟩ := before_filterMap hb
  obtain ⟨n', r', rfl⟩ := begins_some e1
  obtain ⟨m', q', rfl⟩ := begins_some e2
  obtain ⟨rfl, rfl⟩ := I.same hb.fst h1
  obtain ⟨rfl, rfl⟩ := I.same hb.snd h2
  exact hb

theorem mem_callsAbout {K : List String} {h : List Ev} {i : Nat} {r : Req} :
    (i, r) ∈ callsAbout K h ↔ (∃ n, Ev.called i n r ∈ h) ∧ ∀ k ∈ r.keys, k ∈ K := by
  unfold callsAbout
  rw [List.mem_filterMap]
  constructor
  · rintro ⟨e, he, h1⟩
    cases e with
    | called i' n r' =>
      simp only at h1
      split at h1
      · rename_i hk
        injection h1 with h1
        injection h1 with h1 h2
        subst h1 h2
        exact ⟨⟨n, he⟩, by simpa using hk⟩
      · cases h1
    | _ => cases h1
  · rintro ⟨⟨n, hm⟩, hk⟩
    exact ⟨_, hm, by simp only; rw [if_pos (by simpa using hk)]⟩

theorem callsAbout_ids (K : List String) (h : List Ev) :
    ((callsAbout K h).map (·.1)).Sublist (h.filterMap Ev.begins) := by
  induction h with
  | nil => exact .slnil
  | cons e h ih =>
    unfold callsAbout at ih ⊢
    cases e with
    | called i n r =>
      rw [List.filterMap_cons, List.filterMap_cons]
      simp only [Ev.begins]
      split
      · rename_i he
        exact ih.cons i
      · rename_i he
        split at he
        · cases he; exact ih.cons_cons i
        · cases he
    | _ => exact ih

/-- **C116**: Someone who has a journal to themselves and waits for every answer, as a persistent actor does, has the
answers of a Redis they have to themselves: those of their calls done one after another in the order they made them;
and what Redis holds for them is what these calls leave. What others do with other keys, and how their requests are
mixed with these, cannot be seen. -/
theorem C116_own (st : RedisStore) (ops : List Op) (K : List String) (hK : OneAtATime K ((start st).runs ops).2) :
    ∃ own : List Effect, own.map (fun x => (x.id, x.req)) = callsAbout K ((start st).runs ops).2 ∧
      (∀ x ∈ own, Ev.answered x.id x.ans ∈ ((start st).runs ops).2) ∧
      ∃ s, InTurn st own s ∧ ∀ k ∈ K, s k = ((start st).runs ops).1.store k := by
  have I := Inv.runs st ops
  generalize ((start st).runs ops).2 = h at *
  generalize effects (start st) ops = log at *
  generalize ((start st).runs ops).1 = σ at *
  have hn : (log.map (·.id)).Nodup := I.explains.once
  have hmem : ∀ x ∈ log.filter (about K), x ∈ log ∧ ∀ k ∈ x.req.keys, k ∈ K := by
    intro x hx
    obtain ⟨hx, ha⟩ := List.mem_filter.mp hx
    exact ⟨hx, by simpa [about] using ha⟩
  have hinj : ∀ x ∈ log, ∀ y ∈ log, x.id = y.id → x = y := by
    intro x hx y hy e
    refine filterMap_nodup_inj (fun z : Effect => some z.id) ?_ x hx y hy x.id rfl (by simp [e])
    have : log.filterMap (fun z : Effect => some z.id) = log.map (·.id) :=
      congrFun (List.filterMap_eq_map (f := fun z : Effect => z.id)) log
    rw [this]; exact hn
  have hans : ∀ x ∈ log, (∀ k ∈ x.req.keys, k ∈ K) → Ev.answered x.id x.ans ∈ h := by
    intro x hx hk
    obtain ⟨n, hc⟩ := I.asked x hx
    obtain ⟨a, ha⟩ := hK.heard _ _ _ hc hk
    obtain ⟨r, hr⟩ := I.told _ _ ha
    have := hinj x hx _ hr rfl
    rw [this]; exact ha
  have hsort : (log.filter (about K)).Pairwise (fun x y => x.id < y.id) := by
    rw [List.pairwise_filter]
    refine pairwise_of_before fun x y hb hx hy => ?_
    have hx' := (hmem x (List.mem_filter.mpr ⟨hb.fst, hx⟩)).2
    have hy' := (hmem y (List.mem_filter.mpr ⟨hb.snd, hy⟩)).2
    have hlog : log.Nodup := (List.pairwise_map.mp hn).imp fun {a b} hne e => hne (by rw [e])
    rcases Nat.lt_trichotomy x.id y.id with h1 | h1 | h1
    · exact h1
    · have := hinj x hb.fst y hb.snd h1
      subst this
      exact (hb.asymm hlog hb).elim
    · obtain ⟨n, hcx⟩ := I.asked x hb.fst
      obtain ⟨m, hcy⟩ := I.asked y hb.snd
      obtain ⟨a, ha⟩ := hK.waits _ _ _ _ _ _ hy' hx' (I.before_called hcy hcx h1)
      exact (hb.asymm hlog (I.kept y hb.snd x hb.fst _ _ _ ha)).elim
  refine ⟨log.filter (about K), ?_, fun x hx => hans x (hmem x hx).1 (hmem x hx).2, ?_⟩
  · have hp1 : ((log.filter (about K)).map fun x => (x.id, x.req)).Pairwise (fun a b => a.1 < b.1) :=
      List.pairwise_map.mpr hsort
    have hp2 : (callsAbout K h).Pairwise (fun a b => a.1 < b.1) := by
      rw [← List.pairwise_map (f := fun a : Nat × Req => a.1) (R := fun a b => a < b)]
      refine List.Pairwise.sublist (callsAbout_ids K h) ?_
      rw [I.begun]; exact List.pairwise_lt_range
    have hd : ∀ {l : List (Nat × Req)}, l.Pairwise (fun a b => a.1 < b.1) → l.Nodup := fun hp =>
      hp.imp fun {a b} hl e => by rw [e] at hl; omega
    have hperm : ((log.filter (about K)).map fun x => (x.id, x.req)).Perm (callsAbout K h) := by
      rw [List.perm_ext_iff_of_nodup (hd hp1) (hd hp2)]
      rintro ⟨i, r⟩
      rw [mem_callsAbout, List.mem_map]
      constructor
      · rintro ⟨x, hx, e⟩
        injection e with e1 e2
        subst e1 e2
        exact ⟨I.asked x (hmem x hx).1, (hmem x hx).2⟩
      · rintro ⟨⟨n, hc⟩, hk⟩
        obtain ⟨a, ha⟩ := hK.heard _ _ _ hc hk
        obtain ⟨r', hr⟩ := I.told _ _ ha
        obtain ⟨m, hm⟩ := I.asked _ hr
        obtain ⟨_, rfl⟩ := I.same hc hm
        exact ⟨_, List.mem_filter.mpr ⟨hr, by simpa [about] using hk⟩, rfl⟩
    refine hperm.eq_of_pairwise (le := fun a b => a.1 < b.1) ?_ hp1 hp2
    intro a b _ _ h1 h2
    omega
  · refine I.turn.restrict (K := K) ?_ ?_ st (fun _ _ => rfl)
    · intro x hx
      obtain ⟨n, hc⟩ := I.asked x hx
      exact (hK.apart _ _ _ hc).2
    · intro x hx
      obtain ⟨n, hc⟩ := I.asked x hx
      exact (hK.apart _ _ _ hc).1

/-! ### What is stored is there -/

/-- **C116**: What was written and acknowledged is in every answer to a later reading of its key that covers its number,
on whichever node, unless somebody called for a removal. -/
theorem C116_read_back (st : RedisStore) (ops : List Op) {k : String} {e : Entry} {i n j m : Nat} {r : Req} {a : Ans}
    {b c : Option Int} {l : List Entry} (hw : Ev.called i n r ∈ ((start st).runs ops).2) (he : e ∈ r.writes k)
    (hb : Before ((start st).runs ops).2 (.answered i a) (.called j m (.range k b c)))
    (hl : Ev.answered j (.entries (some l)) ∈ ((start st).runs ops).2) (h1 : b.getD 0 ≤ e.seq)
    (h2 : ∀ x, c = some x → e.seq ≤ x)
    (hr : ∀ i n q, Ev.called i n q ∈ ((start st).runs ops).2 → q.removes = true → k ∉ q.keys) : e ∈ l := by
  have I := Inv.runs st ops
  obtain ⟨r', hx⟩ := I.told _ _ hb.fst
  obtain ⟨n', hx'⟩ := I.asked _ hx
  obtain ⟨_, rfl⟩ := I.same hw hx'
  obtain ⟨q, hy⟩ := I.told _ _ hl
  obtain ⟨m', hy'⟩ := I.asked _ hy
  obtain ⟨_, rfl⟩ := I.same hb.snd hy'
  obtain ⟨u, v, s, hlog, ht, ha, hxu⟩ := I.turn.sees (I.kept _ hx _ hy _ _ _ hb)
  have hk := (ht.keeps (k := k) (fun z hz => by
    obtain ⟨n, hz'⟩ := I.asked z (by rw [hlog]; exact List.mem_append_left _ hz)
    exact hr _ _ _ hz') e).mpr (.inr ⟨_, hxu, he⟩)
  simp only [Req.exec, Ans.entries.injEq, Option.some.injEq] at ha
  rw [ha]
  unfold redisReadRange
  refine List.mem_filter.mpr ⟨hk, ?_⟩
  cases c with
  | none => simpa using h1
  | some x => simpa using ⟨h1, h2 x rfl⟩

theorem exec_sorted (r : Req) {st : RedisStore} (hs : ∀ k, SortedSeq (st k)) (k : String) :
    SortedSeq ((r.exec st).1 k) := by
  by_cases hk : k ∈ r.keys
  · cases r with
    | write k' e' =>
      have : k = k' := by simpa [Req.keys] using hk
      subst this
      simpa [Req.exec, redisWrite, RedisStore.set] using zadd_sorted (hs k)
    | batch k' es =>
      have : k = k' := by simpa [Req.keys] using hk
      subst this
      simpa [Req.exec, redisWriteBatch, RedisStore.set] using foldl_zadd_sorted (hs k)
    | deleteRange k' a b =>
      have : k = k' := by simpa [Req.keys] using hk
      subst this
      simp only [Req.exec, RedisStore.set, if_pos]
      exact List.Pairwise.filter _ (hs k)
    | delete ks =>
      simp only [Req.exec]
      rw [foldl_set, if_pos (show k ∈ ks from hk)]
      exact List.Pairwise.nil
    | latest k' => exact hs k
    | one k' n => exact hs k
    | range k' a b => exact hs k
  · rw [exec_other r st k hk]; exact hs k

theorem InTurn.sorted {order : List Effect} {st st' : RedisStore} (h : InTurn st order st')
    (hs : ∀ k, SortedSeq (st k)) : ∀ k, SortedSeq (st' k) := by
  induction order generalizing st with
  | nil => cases h; exact hs
  | cons x xs ih => exact ih h.2 (exec_sorted x.req hs)

/-- **C116**: The latest snapshot is never older than one whose writing was acknowledged before it was asked for, on
whichever node, unless somebody called for a removal. -/
theorem C116_latest (st : RedisStore) (hs : ∀ k, SortedSeq (st k)) (ops : List Op) {k : String} {e : Entry}
    {i n j m : Nat} {a : Ans} {o : Option Entry} (hw : Ev.called i n (.write k e) ∈ ((start st).runs ops).2)
    (hb : Before ((start st).runs ops).2 (.answered i a) (.called j m (.latest k)))
    (hl : Ev.answered j (.entry o) ∈ ((start st).runs ops).2)
    (hr : ∀ i n q, Ev.called i n q ∈ ((start st).runs ops).2 → q.removes = true → k ∉ q.keys) :
    ∃ x, o = some x ∧ e.seq ≤ x.seq := by
  have I := Inv.runs st ops
  obtain ⟨r', hx⟩ := I.told _ _ hb.fst
  obtain ⟨n', hx'⟩ := I.asked _ hx
  obtain ⟨_, rfl⟩ := I.same hw hx'
  obtain ⟨q, hy⟩ := I.told _ _ hl
  obtain ⟨m', hy'⟩ := I.asked _ hy
  obtain ⟨_, rfl⟩ := I.same hb.snd hy'
  obtain ⟨u, v, s, hlog, ht, ha, hxu⟩ := I.turn.sees (I.kept _ hx _ hy _ _ _ hb)
  have hk := (ht.keeps (k := k) (fun z hz => by
    obtain ⟨n, hz'⟩ := I.asked z (by rw [hlog]; exact List.mem_append_left _ hz)
    exact hr _ _ _ hz') e).mpr (.inr ⟨_, hxu, by simp [Req.writes]⟩)
  simp only [Req.exec, Ans.entry.injEq, redisReadSnapshot] at ha
  cases hg : (s k).getLast? with
  | none => rw [List.getLast?_eq_none_iff] at hg; rw [hg] at hk; cases hk
  | some x => exact ⟨x, by rw [ha, hg], le_getLast (ht.sorted hs k) hg e hk⟩

/-! ### What the commands do -/

/-- **C116**: What each request does to the sets: writing adds, removal takes away what is in its range or everything,
and reading changes nothing; other keys are left alone. -/
theorem C116_commands (st : RedisStore) (r : Req) (k : String) (e : Entry) :
    e ∈ (r.exec st).1 k ↔ match r with
      | .write k' e' => e ∈ st k ∨ (k = k' ∧ e = e')
      | .batch k' es => e ∈ st k ∨ (k = k' ∧ e ∈ es)
      | .deleteRange k' a b => e ∈ st k ∧ ¬ (k = k' ∧ a ≤ e.seq ∧ e.seq ≤ b)
      | .delete ks => e ∈ st k ∧ k ∉ ks
      | _ => e ∈ st k := by
  cases r with
  | write k' e' =>
    rw [exec_mem _ _ _ (fun h => by cases h)]
    by_cases h : k' = k
    · simp [Req.writes, h]
    · simp [Req.writes, h, Ne.symm h]
  | batch k' es =>
    rw [exec_mem _ _ _ (fun h => by cases h)]
    by_cases h : k' = k
    · simp [Req.writes, h]
    · simp [Req.writes, h, Ne.symm h]
  | deleteRange k' a b =>
    simp only [Req.exec, RedisStore.set]
    by_cases h : k = k'
    · subst h; simp; omega
    · simp [h]
  | delete ks =>
    simp only [Req.exec]
    rw [foldl_set]
    by_cases h : k ∈ ks <;> simp [h]
  | latest k' => rfl
  | one k' n => rfl
  | range k' a b => rfl

/-- **C116**: What each reading is told: the last of the set; one entry with the number, if there is any; all entries
with numbers in the range, in the order of the set. -/
theorem C116_readings (st : RedisStore) (k : String) :
    ((Req.latest k).exec st).2 = .entry (st k).getLast? ∧
    (∀ n o, ((Req.one k n).exec st).2 = .entry o →
      (∀ e, o = some e → e ∈ st k ∧ e.seq = n) ∧ (o = none → ∀ e ∈ st k, e.seq ≠ n)) ∧
    (∀ a b, ∃ l, ((Req.range k a b).exec st).2 = .entries (some l) ∧ l.Sublist (st k) ∧
      ∀ e, e ∈ l ↔ e ∈ st k ∧ a.getD 0 ≤ e.seq ∧ ∀ x, b = some x → e.seq ≤ x) := by
  refine ⟨rfl, fun n o ho => ?_, fun a b => ⟨_, rfl, List.filter_sublist, fun e => ?_⟩⟩
  · simp only [Req.exec, Ans.entry.injEq] at ho
    subst ho
    refine ⟨fun e he => ?_, fun hn e he hs => ?_⟩
    · have := List.mem_filter.mp (List.mem_of_mem_head? (show e ∈ (redisReadRange st k n (some n)).head? from he))
      refine ⟨this.1, ?_⟩
      have h2 := this.2
      simp at h2
      omega
    · have hnil := List.head?_eq_none_iff.mp hn
      have : e ∈ redisReadRange st k n (some n) := List.mem_filter.mpr ⟨he, by simp [hs]⟩
      rw [hnil] at this
      cases this
  · unfold redisReadRange
    rw [List.mem_filter]
    cases b with
    | none => simp
    | some x => simp

/-- **C116**: Through its methods the storage is the one the other properties of persistence over Redis speak of: each
method does and answers what it does there. -/
theorem C116_methods (key : String → String → String) (pid : String) (st : RedisStore) (e : Entry) (es : List Entry)
    (frm to : Int) :
    ((Method.writeSnapshot e).req key pid).exec st = ((redisStorage key).writeSnapshot st pid e, .done) ∧
    ((Method.writeMessage e).req key pid).exec st = ((redisStorage key).writeMessage st pid e, .done) ∧
    ((Method.writeBatch es).req key pid).exec st = ((redisStorage key).writeBatch st pid es, .done) ∧
    (Method.readLatestSnapshot.req key pid).exec st = (st, .entry ((redisStorage key).readLatestSnapshot st pid)) ∧
    ((Method.readLatestMessages frm).req key pid).exec st =
      (st, .entries ((redisStorage key).readLatestMessages st pid frm)) ∧
    ((Method.deleteMessagesTo to).req key pid).exec st = ((redisStorage key).deleteMessagesTo st pid to, .done) ∧
    (Method.deleteAll.req key pid).exec st = ((redisStorage key).deleteAll st pid, .done) ∧
    ((Method.readMessages frm to).req key pid).exec st =
      (st, .entries (some ((st (key pid "journal")).filter fun x => decide (frm ≤ x.seq) && decide (x.seq ≤ to)))) ∧
    ((Method.readMessage frm).req key pid).exec st =
      (st, .entry ((st (key pid "journal")).find? fun x => decide (x.seq = frm))) := by
  refine ⟨rfl, rfl, rfl, rfl, rfl, rfl, rfl, rfl, ?_⟩
  show (st, Ans.entry (redisReadRange st (key pid "journal") frm (some frm)).head?) = _
  unfold redisReadRange
  rw [List.head?_filter]
  congr 3
  funext x
  by_cases h : x.seq = frm
  · simp [h]
  · have : ¬ (frm ≤ x.seq ∧ x.seq ≤ frm) := by omega
    simp only [h, decide_false, ← Bool.decide_and, this]

/-! ### Who waits for whom -/

/-- **C116**: A request that is next in the mailbox of its journal actor can be handled, done and answered at once,
however many other requests, of this node and others, are still waiting for Redis, unless one of this node is a
`Delete`. -/
theorem C116_free (st : RedisStore) (ops : List Op) {n : Nat} {j : Job}
    (hb' : ∀ x ∈ ((start st).runs ops).1.tasks, x.node = n → ∀ ks, x.req ≠ .delete ks)
    (hj : ((start st).runs ops).1.queue.find? (fun x => x.node == n) = some j) :
    Ev.answered j.id (j.req.exec ((start st).runs ops).1.store).2 ∈
      ((start st).runs (ops ++ [.handle n, .exec j.id, .deliver j.id])).2 := by
  have hb : ((start st).runs ops).1.busy n = false := by
    rw [Sys.busy, List.any_eq_false]
    intro x hx hc
    simp only [Bool.and_eq_true, beq_iff_eq] at hc
    have := hb' x hx hc.1
    cases hr : x.req with
    | delete ks => exact this ks hr
    | _ => rw [hr] at hc; cases hc.2
  have I := Inv.runs st ops
  rw [runs_append]
  refine List.mem_append_right _ ?_
  generalize ((start st).runs ops).1 = σ at *
  generalize ((start st).runs ops).2 = h at *
  have hq := (find_node hj).1
  have hnw : ∀ x ∈ σ.wire, x.id ≠ j.id := by
    intro x hx e
    have := I.cmds
    rw [List.nodup_append] at this
    exact this.2.2 x.id (List.mem_append_right _ (List.mem_map_of_mem (f := (·.id)) hx)) j.id
      (List.mem_map_of_mem (f := (·.id)) hq) e
  have hnr : ∀ p ∈ σ.replies, p.1 ≠ j.id := by
    intro p hp e
    obtain ⟨x, hx, e'⟩ := (I.reps p hp).1
    have := I.account.nodup_iff.mpr List.nodup_range
    rw [List.nodup_append] at this
    exact this.2.2 j.id (List.mem_append_right _ (List.mem_map_of_mem (f := (·.id)) hq)) x.id
      (List.mem_map_of_mem (f := (·.id)) hx) (by rw [e', e])
  have h1 : (σ.step (.handle n)) = ({ σ with
      queue := σ.queue.filter fun x => x.id != j.id, tasks := σ.tasks ++ [j], wire := σ.wire ++ [j] }, []) := by
    show σ.handle n = _
    unfold Sys.handle
    rw [hb, hj]
    rfl
  simp only [Sys.runs, h1, List.nil_append, List.append_nil]
  have hf : (σ.wire ++ [j]).find? (fun x => x.id == j.id) = some j := by
    rw [List.find?_append, List.find?_eq_none.mpr (by simpa using hnw)]
    simp
  have ht : ((σ.tasks ++ [j]).any fun x => x.id == j.id) = true := any_id.mpr ⟨j, by simp, rfl⟩
  have hr : (σ.replies ++ [(j.id, (j.req.exec σ.store).2)]).find? (fun p => p.1 == j.id) =
      some (j.id, (j.req.exec σ.store).2) := by
    rw [List.find?_append, List.find?_eq_none.mpr (by simpa using hnr)]
    simp
  simp only [Sys.step, Sys.exec, hf, ht, if_true, Sys.deliver, hr]
  simp

/-- the journal actor of a node waits for the reply to a `Delete`, and a request is behind it in the mailbox. -/
def Behind (σ : Sys) (d x : Job) : Prop :=
  d ∈ σ.tasks ∧ (∃ ks, d.req = .delete ks) ∧ x ∈ σ.queue ∧ x.node = d.node

theorem Behind.step {st σ h log} (I : Inv st σ h log) {d x : Job} (B : Behind σ d x) {op : Op}
    (h1 : op ≠ .deliver d.id) (h2 : op ≠ .fail d.id) (h3 : op ≠ .crash d.node) : Behind (σ.step op).1 d x := by
  obtain ⟨hd, hw, hx, hn⟩ := B
  have hbusy : σ.busy d.node = true := List.any_eq_true.mpr ⟨d, hd, by obtain ⟨ks, e⟩ := hw; simp [e, Req.waitedFor]⟩
  cases op with
  | call n r =>
    show Behind (σ.call n r).1 d x
    unfold Sys.call
    split
    · exact ⟨hd, hw, hx, hn⟩
    · exact ⟨hd, hw, List.mem_append_left _ hx, hn⟩
  | handle n =>
    show Behind (σ.handle n).1 d x
    unfold Sys.handle
    by_cases hb : σ.busy n = true
    · rw [if_pos hb]; exact ⟨hd, hw, hx, hn⟩
    rw [if_neg hb]
    cases hf : σ.queue.find? (fun j => j.node == n) with
    | none => exact ⟨hd, hw, hx, hn⟩
    | some j =>
      refine ⟨List.mem_append_left _ hd, hw, List.mem_filter.mpr ⟨hx, ?_⟩, hn⟩
      have hne : x.id ≠ j.id := by
        intro e
        have hn' : (σ.queue.filterMap fun z : Job => some z.id).Nodup := by
          have : σ.queue.filterMap (fun z : Job => some z.id) = σ.queue.map (·.id) :=
            congrFun (List.filterMap_eq_map (f := fun z : Job => z.id)) σ.queue
          rw [this]; exact I.nodups.1
        have := filterMap_nodup_inj _ hn' x hx j (find_node hf).1 x.id rfl (by simp [e])
        rw [this, (find_node hf).2] at hn
        rw [hn] at hb
        exact hb hbusy
      simpa using hne
  | exec i =>
    show Behind (σ.exec i).1 d x
    unfold Sys.exec
    cases hf : σ.wire.find? (fun j => j.id == i) with
    | none => exact ⟨hd, hw, hx, hn⟩
    | some j => exact ⟨hd, hw, hx, hn⟩
  | deliver i =>
    show Behind (σ.deliver i).1 d x
    unfold Sys.deliver
    cases hf : σ.replies.find? (fun p => p.1 == i) with
    | none => exact ⟨hd, hw, hx, hn⟩
    | some p =>
      refine ⟨List.mem_filter.mpr ⟨hd, ?_⟩, hw, hx, hn⟩
      have : d.id ≠ i := fun e => h1 (by rw [e])
      simpa using this
  | fail i =>
    show Behind (σ.fail i).1 d x
    unfold Sys.fail
    split
    · refine ⟨List.mem_filter.mpr ⟨hd, ?_⟩, hw, hx, hn⟩
      have : d.id ≠ i := fun e => h2 (by rw [e])
      simpa using this
    · exact ⟨hd, hw, hx, hn⟩
  | drop i => exact ⟨hd, hw, hx, hn⟩
  | stop n =>
    show Behind (σ.stop n).1 d x
    unfold Sys.stop
    by_cases hb : σ.busy n = true
    · rw [if_pos hb]; exact ⟨hd, hw, hx, hn⟩
    · rw [if_neg hb]
      refine ⟨hd, hw, List.mem_filter.mpr ⟨hx, ?_⟩, hn⟩
      have : x.node ≠ n := fun e => hb (by rw [← e, hn]; exact hbusy)
      simpa using this
  | crash n =>
    have hne : d.node ≠ n := fun e => h3 (by rw [e])
    exact ⟨List.mem_filter.mpr ⟨hd, by simpa using hne⟩, hw,
      List.mem_filter.mpr ⟨hx, by rw [hn]; simpa using hne⟩, hn⟩

/-- **C116**: While the journal actor of a node waits for the reply to a `Delete`, nobody on that node is served: as long
as that reply does not come (or fail, or the node crash), no request behind it ends, whoever called it and whatever
else happens. -/
theorem C116_delete_holds_up (st : RedisStore) (ops ops' : List Op) {d x : Job}
    (hB : Behind ((start st).runs ops).1 d x)
    (ho : ∀ op ∈ ops', op ≠ .deliver d.id ∧ op ≠ .fail d.id ∧ op ≠ .crash d.node) :
    x.id ∉ ((start st).runs (ops ++ ops')).2.filterMap Ev.ends := by
  have key : Behind ((start st).runs (ops ++ ops')).1 d x := by
    induction ops' using snoc_induction with
    | nil => simpa using hB
    | snoc l op ih =>
      rw [← List.append_assoc, runs_snoc]
      have := ho op (by simp)
      exact (ih fun o h => ho o (List.mem_append_left _ h)).step (Inv.runs st _) this.1 this.2.1 this.2.2
  have I := Inv.runs st (ops ++ ops')
  have := I.account.nodup_iff.mpr List.nodup_range
  rw [List.append_assoc, List.nodup_append] at this
  intro hm
  exact this.2.2 x.id hm x.id (List.mem_append_left _ (List.mem_map_of_mem (f := (·.id)) key.2.2.1)) rfl

theorem down_step (σ : Sys) (op : Op) {n : Nat} (h : n ∈ σ.down) : n ∈ (σ.step op).1.down := by
  cases op with
  | call m r =>
    show n ∈ (σ.call m r).1.down
    unfold Sys.call
    split <;> exact h
  | handle m =>
    show n ∈ (σ.handle m).1.down
    unfold Sys.handle
    split
    · exact h
    · split <;> exact h
  | exec i =>
    show n ∈ (σ.exec i).1.down
    unfold Sys.exec
    split <;> exact h
  | deliver i =>
    show n ∈ (σ.deliver i).1.down
    unfold Sys.deliver
    split <;> exact h
  | fail i =>
    show n ∈ (σ.fail i).1.down
    unfold Sys.fail
    split <;> exact h
  | drop i => exact h
  | stop m =>
    show n ∈ (σ.stop m).1.down
    unfold Sys.stop
    split
    · exact h
    · exact List.mem_cons_of_mem _ h
  | crash m => exact List.mem_cons_of_mem _ h

theorem down_runs (ops : List Op) : ∀ (σ : Sys) {n : Nat}, n ∈ σ.down → n ∈ (σ.runs ops).1.down := by
  induction ops with
  | nil => intro σ n h; exact h
  | cons op ops ih => intro σ n h; exact ih _ (down_step σ op h)

/-- **C116**: When a node has crashed, or its journal actor has stopped (which it does unless it waits for a `Delete`),
no request of the node is left in a mailbox, and every later call through it fails at once. -/
theorem C116_down (st : RedisStore) (ops ops' : List Op) (n : Nat) (op : Op) (r : Req)
    (ho : op = .crash n ∨ (op = .stop n ∧
      ∀ x ∈ ((start st).runs ops).1.tasks, x.node = n → ∀ ks, x.req ≠ .delete ks)) :
    (∀ j ∈ ((start st).runs (ops ++ [op])).1.queue, j.node ≠ n) ∧
    ∃ i, ((start st).runs (ops ++ [op] ++ ops' ++ [.call n r])).2 =
      ((start st).runs (ops ++ [op] ++ ops')).2 ++ [.called i n r, .failed i] := by
  have hd : n ∈ ((start st).runs (ops ++ [op])).1.down ∧ ∀ j ∈ ((start st).runs (ops ++ [op])).1.queue, j.node ≠ n := by
    rw [runs_snoc]
    rcases ho with rfl | ⟨rfl, hb'⟩
    · exact ⟨List.mem_cons_self .., fun j hj => by simpa using (List.mem_filter.mp hj).2⟩
    · have hb : ((start st).runs ops).1.busy n = false := by
        rw [Sys.busy, List.any_eq_false]
        intro x hx hc
        simp only [Bool.and_eq_true, beq_iff_eq] at hc
        have := hb' x hx hc.1
        cases hr : x.req with
        | delete ks => exact this ks hr
        | _ => rw [hr] at hc; cases hc.2
      simp only [Sys.step, Sys.stop, hb]
      exact ⟨List.mem_cons_self .., fun j hj => by simpa using (List.mem_filter.mp hj).2⟩
  refine ⟨hd.2, ((start st).runs (ops ++ [op] ++ ops')).1.next, ?_⟩
  have h2 : n ∈ ((start st).runs (ops ++ [op] ++ ops')).1.down := by
    rw [runs_append]; exact down_runs _ _ hd.1
  rw [runs_snoc]
  simp only [Sys.step, Sys.call, if_pos h2]

/-! ### Cases -/

/-- three entries. -/
def e0 : Entry := ⟨0, "Deposited", [1]⟩
def e1 : Entry := ⟨0, "Deposited", [2]⟩
def e2 : Entry := ⟨1, "Deposited", [3]⟩

/-- two actors on two nodes: `a` writes and reads, `b` writes; the commands overlap, one connection fails. -/
def busyDay : List Op :=
  [.call 1 (.write "a" e0), .call 2 (.write "b" e1), .call 2 (.write "c" e2), .handle 1, .handle 2, .handle 2, .exec 1,
    .exec 0, .deliver 0, .call 1 (.range "a" none none), .fail 2, .handle 1, .exec 3, .deliver 1, .deliver 3, .exec 2]

example : ((start fun _ => []).runs busyDay).2 =
    [.called 0 1 (.write "a" e0), .called 1 2 (.write "b" e1), .called 2 2 (.write "c" e2), .answered 0 .done,
      .called 3 1 (.range "a" none none), .failed 2, .answered 1 .done, .answered 3 (.entries (some [e0]))] := by
  decide +kernel

/-- a checker for `OneAtATime`: at any time at most one call about the keys is open. -/
def alone (K : List String) : Option Nat → List Ev → Bool
  | o, [] => o.isNone
  | o, .called i _ r :: h =>
    if r.keys.all (· ∈ K) then o.isNone && !r.keys.isEmpty && alone K (some i) h
    else r.keys.all (· ∉ K) && alone K o h
  | o, .answered i _ :: h => alone K (if o = some i then none else o) h
  | o, _ :: h => alone K o h

theorem mem_before {h1 h2 : List Ev} {x y : Ev} (hx : x ∈ h1) (hy : y ∈ h2) : Before (h1 ++ h2) x y := ⟨_, _, rfl, hx, hy⟩

theorem Before.cons {α : Type} {l : List α} {x y : α} (h : Before l x y) (z : α) : Before (z :: l) x y := by
  obtain ⟨a, b, rfl, hx, hy⟩ := h
  exact ⟨z :: a, b, rfl, List.mem_cons_of_mem _ hx, hy⟩

theorem Before.uncons {α : Type} {l : List α} {x y z : α} (h : Before (z :: l) x y) : Before l x y ∨ (x = z ∧ y ∈ l) := by
  obtain ⟨a, b, e, hx, hy⟩ := h
  cases a with
  | nil => cases hx
  | cons w a =>
    injection e with e1 e2
    subst e1 e2
    rcases List.mem_cons.mp hx with rfl | hx
    · exact .inr ⟨rfl, List.mem_append_right _ hy⟩
    · exact .inl ⟨a, b, rfl, hx, hy⟩

/-- a call left open is answered, and before any later call about the keys. -/
theorem alone_open {K : List String} : ∀ {h : List Ev} {i : Nat}, alone K (some i) h = true →
    (∃ a, Ev.answered i a ∈ h) ∧
    ∀ j m q, Ev.called j m q ∈ h → (∀ k ∈ q.keys, k ∈ K) → ∃ a, Before h (.answered i a) (.called j m q) := by
  intro h
  induction h with
  | nil => intro i hi; cases hi
  | cons e h ih =>
    intro i hi
    cases e with
    | called j m q =>
      unfold alone at hi
      by_cases hq : q.keys.all (· ∈ K) = true
      · rw [if_pos hq] at hi; simp at hi
      · rw [if_neg hq] at hi
        simp only [Bool.and_eq_true] at hi
        obtain ⟨⟨a, ha⟩, h2⟩ := ih hi.2
        refine ⟨⟨a, List.mem_cons_of_mem _ ha⟩, fun j' m' q' hm hk => ?_⟩
        rcases List.mem_cons.mp hm with e | hm
        · injection e with _ _ e; subst e
          exact absurd (by simpa using hk) hq
        · exact (h2 j' m' q' hm hk).imp fun a hb => hb.cons _
    | answered j a =>
      by_cases e : j = i
      · subst e
        refine ⟨⟨a, by simp⟩, fun j' m' q' hm hk => ⟨a, ?_⟩⟩
        rcases List.mem_cons.mp hm with e | hm
        · cases e
        · exact ⟨[_], h, rfl, by simp, hm⟩
      · unfold alone at hi
        rw [if_neg (by simpa using Ne.symm e)] at hi
        obtain ⟨⟨a, ha⟩, h2⟩ := ih hi
        refine ⟨⟨a, List.mem_cons_of_mem _ ha⟩, fun j' m' q' hm hk => ?_⟩
        rcases List.mem_cons.mp hm with e | hm
        · cases e
        · exact (h2 j' m' q' hm hk).imp fun a hb => hb.cons _
    | failed j =>
      obtain ⟨⟨a, ha⟩, h2⟩ := ih hi
      refine ⟨⟨a, List.mem_cons_of_mem _ ha⟩, fun j' m' q' hm hk => ?_⟩
      rcases List.mem_cons.mp hm with e | hm
      · cases e
      · exact (h2 j' m' q' hm hk).imp fun a hb => hb.cons _
    | lost j =>
      obtain ⟨⟨a, ha⟩, h2⟩ := ih hi
      refine ⟨⟨a, List.mem_cons_of_mem _ ha⟩, fun j' m' q' hm hk => ?_⟩
      rcases List.mem_cons.mp hm with e | hm
      · cases e
      · exact (h2 j' m' q' hm hk).imp fun a hb => hb.cons _

theorem alone_sound {K : List String} : ∀ {h : List Ev} {o : Option Nat}, alone K o h = true → OneAtATime K h := by
  intro h
  induction h with
  | nil =>
    intro o _
    refine ⟨(fun i n r hm => by cases hm), ?_, (fun i n r hm => by cases hm)⟩
    intro i n r j m q _ _ hb
    cases hb.fst
  | cons e h ih =>
    intro o ho
    have lift : OneAtATime K h → (∀ i n r, e ≠ .called i n r) → OneAtATime K (e :: h) := by
      intro H hnc
      refine ⟨?_, ?_, ?_⟩
      · intro i n r hm
        rcases List.mem_cons.mp hm with e' | hm
        · exact absurd e'.symm (hnc _ _ _)
        · exact H.apart i n r hm
      · intro i n r j m q h1 h2 hb
        rcases hb.uncons with hb | ⟨e', _⟩
        · exact (H.waits i n r j m q h1 h2 hb).imp fun a hb => hb.cons _
        · exact absurd e'.symm (hnc _ _ _)
      · intro i n r hm hk
        rcases List.mem_cons.mp hm with e' | hm
        · exact absurd e'.symm (hnc _ _ _)
        · exact (H.heard i n r hm hk).imp fun a ha => List.mem_cons_of_mem _ ha
    cases e with
    | answered i a => exact lift (ih (o := if o = some i then none else o) ho) (fun _ _ _ h => by cases h)
    | failed i => exact lift (ih (o := o) ho) (fun _ _ _ h => by cases h)
    | lost i => exact lift (ih (o := o) ho) (fun _ _ _ h => by cases h)
    | called i n r =>
      unfold alone at ho
      by_cases hr : r.keys.all (· ∈ K) = true
      · rw [if_pos hr] at ho
        simp only [Bool.and_eq_true, Option.isNone_iff_eq_none] at ho
        obtain ⟨⟨rfl, hnil⟩, ho⟩ := ho
        have H := ih ho
        obtain ⟨⟨a, ha⟩, hbef⟩ := alone_open ho
        have hrk : ∀ k ∈ r.keys, k ∈ K := by simpa using hr
        refine ⟨?_, ?_, ?_⟩
        · intro i' n' r' hm
          rcases List.mem_cons.mp hm with e' | hm
          · injection e' with _ _ e'; subst e'
            exact ⟨fun e => by simp [e] at hnil, .inl hrk⟩
          · exact H.apart i' n' r' hm
        · intro i' n' r' j m q h1 h2 hb
          rcases hb.uncons with hb | ⟨e', hm⟩
          · exact (H.waits i' n' r' j m q h1 h2 hb).imp fun a hb => hb.cons _
          · injection e' with e' _ _; subst e'
            exact (hbef j m q hm h2).imp fun a hb => hb.cons _
        · intro i' n' r' hm hk
          rcases List.mem_cons.mp hm with e' | hm
          · injection e' with e' _ _; subst e'
            exact ⟨a, List.mem_cons_of_mem _ ha⟩
          · exact (H.heard i' n' r' hm hk).imp fun a ha => List.mem_cons_of_mem _ ha
      · rw [if_neg hr] at ho
        simp only [Bool.and_eq_true] at ho
        have H := ih ho.2
        have hrk : ∀ k ∈ r.keys, k ∉ K := by simpa using ho.1
        have hno : (∀ k ∈ r.keys, k ∈ K) → False := fun h => hr (by simpa using h)
        refine ⟨?_, ?_, ?_⟩
        · intro i' n' r' hm
          rcases List.mem_cons.mp hm with e' | hm
          · injection e' with _ _ e'; subst e'
            exact ⟨fun e => by simp [e] at hr, .inr hrk⟩
          · exact H.apart i' n' r' hm
        · intro i' n' r' j m q h1 h2 hb
          rcases hb.uncons with hb | ⟨e', hm⟩
          · exact (H.waits i' n' r' j m q h1 h2 hb).imp fun a hb => hb.cons _
          · injection e' with _ _ e'; subst e'
            exact (hno h1).elim
        · intro i' n' r' hm hk
          rcases List.mem_cons.mp hm with e' | hm
          · injection e' with _ _ e'; subst e'
            exact (hno hk).elim
          · exact (H.heard i' n' r' hm hk).imp fun a ha => List.mem_cons_of_mem _ ha

/-- the hypotheses of `C116_own` hold for the actor of `busyDay` whose key is `a`, while others are at work and fail. -/
example : OneAtATime ["a"] ((start fun _ => []).runs busyDay).2 :=
  alone_sound (o := none) (by decide +kernel)

/-- those of `C116_read_back`: written on node 1, read on node 2. -/
def carryOver : List Op :=
  [.call 1 (.write "a" e0), .handle 1, .exec 0, .deliver 0, .call 2 (.range "a" (some 0) (some 7)), .call 2 (.latest "a"),
    .handle 2, .handle 2, .exec 2, .exec 1, .deliver 1, .deliver 2]

example : ((start fun _ => []).runs carryOver).2 = [.called 0 1 (.write "a" e0), .answered 0 .done] ++
    [.called 1 2 (.range "a" (some 0) (some 7)), .called 2 2 (.latest "a"), .answered 1 (.entries (some [e0])),
      .answered 2 (.entry (some e0))] := by decide +kernel

example : Before ((start fun _ => []).runs carryOver).2 (.answered 0 .done) (.called 1 2 (.range "a" (some 0) (some 7))) :=
  ⟨((start fun _ => []).runs carryOver).2.take 2, ((start fun _ => []).runs carryOver).2.drop 2, by simp,
    by decide +kernel, by decide +kernel⟩

/-- a run after which nothing is left to do (`C116_ends`): node 1 has stopped and node 2 crashed on the way. -/
def shutdown : List Op :=
  [.call 1 (.write "a" e0), .call 1 (.write "a" e2), .call 2 (.delete ["b"]), .call 2 (.latest "b"), .handle 1, .handle 2,
    .stop 1, .crash 2, .exec 0, .exec 2, .deliver 0, .call 1 (.latest "a")]

example : (((start fun _ => []).runs shutdown).2.filterMap Ev.ends, ((start fun _ => []).runs shutdown).1.left) =
    ([1, 3, 2, 0, 4], 0) := by decide +kernel

/-- the situation of `C116_delete_holds_up`: the whole journal of one actor is being deleted, another wants to write. -/
def cleaning : List Op := [.call 1 (.delete ["a"]), .call 1 (.write "b" e0), .handle 1]

example : Behind ((start fun _ => []).runs cleaning).1 ⟨0, 1, .delete ["a"]⟩ ⟨1, 1, .write "b" e0⟩ := by
  refine ⟨?_, ⟨_, rfl⟩, ?_, rfl⟩ <;> decide +kernel

/-- the situation of `C116_free`: one command is on its way, the next request is in the mailbox. -/
example : let σ := ((start fun _ => []).runs [.call 1 (.write "a" e0), .call 1 (.write "b" e1), .handle 1]).1
    (σ.tasks, σ.queue.find? fun x => x.node == 1) = ([⟨0, 1, .write "a" e0⟩], some ⟨1, 1, .write "b" e1⟩) := by
  decide +kernel

/-! ### What does not hold -/

/-- **C116 refuted (late effects)**: a request that failed may take effect later than requests called after its failure:
the writing of an entry fails, then the journal is deleted, which is acknowledged, a reading is told that there is
nothing, and then the entry appears. -/
theorem C116_late_refuted : ∃ ops : List Op, ((start fun _ => []).runs ops).2 =
    [.called 0 1 (.write "a" e0), .failed 0, .called 1 1 (.delete ["a"]), .answered 1 .done,
      .called 2 1 (.range "a" none none), .answered 2 (.entries (some [])),
      .called 3 1 (.range "a" none none), .answered 3 (.entries (some [e0]))] :=
  ⟨[.call 1 (.write "a" e0), .handle 1, .fail 0, .call 1 (.delete ["a"]), .handle 1, .exec 1, .deliver 1,
    .call 1 (.range "a" none none), .handle 1, .exec 2, .deliver 2, .exec 0, .call 1 (.range "a" none none), .handle 1,
    .exec 3, .deliver 3], by decide +kernel⟩

/-- **C116 refuted (a dead node writes)**: the node of an actor crashes while its event is on the way; its successor on
another node recovers an empty journal and writes an event of its own, under the same number; then the event of the
dead node arrives. Whoever reads the journal next has both, the unacknowledged one first, although the successor never
saw it. -/
theorem C116_dead_writer_refuted : ∃ ops : List Op, ((start fun _ => []).runs ops).2 =
    [.called 0 1 (.write "a" e0), .lost 0, .called 1 2 (.range "a" (some 0) none), .answered 1 (.entries (some [])),
      .called 2 2 (.write "a" e1), .answered 2 .done,
      .called 3 2 (.range "a" (some 0) none), .answered 3 (.entries (some [e0, e1]))] :=
  ⟨[.call 1 (.write "a" e0), .handle 1, .crash 1, .call 2 (.range "a" (some 0) none), .handle 2, .exec 1, .deliver 1,
    .call 2 (.write "a" e1), .handle 2, .exec 2, .deliver 2, .exec 0, .call 2 (.range "a" (some 0) none), .handle 2,
    .exec 3, .deliver 3], by decide +kernel⟩

/-- **C116 refuted (order of sending)**: requests do not take effect in the order in which they were put into the mailbox
of the journal actor: a removal sent first and a writing sent next, both acknowledged, leave nothing. -/
theorem C116_sent_order_refuted : ∃ ops : List Op, ((start fun _ => []).runs ops).2 =
    [.called 0 1 (.deleteRange "a" 0 7), .called 1 1 (.write "a" e0), .answered 1 .done, .answered 0 .done,
      .called 2 1 (.range "a" none none), .answered 2 (.entries (some []))] :=
  ⟨[.call 1 (.deleteRange "a" 0 7), .call 1 (.write "a" e0), .handle 1, .handle 1, .exec 1, .exec 0, .deliver 1,
    .deliver 0, .call 1 (.range "a" none none), .handle 1, .exec 2, .deliver 2], by decide +kernel⟩

/-- **C116 refuted (one deletion stops all)**: while `delete_all` of one actor waits for Redis, whatever happens short
of its end, no other actor of that node has its request served, for any other journal; had it been a removal of a range,
the other request could be answered at once. -/
theorem C116_stall_refuted : ∃ ops : List Op, (Ev.called 1 1 (.write "b" e0) ∈ ((start fun _ => []).runs ops).2) ∧
    ∀ ops' : List Op, (∀ op ∈ ops', op ≠ .deliver 0 ∧ op ≠ .fail 0 ∧ op ≠ .crash 1) →
      1 ∉ ((start fun _ => []).runs (ops ++ ops')).2.filterMap Ev.ends := by
  refine ⟨cleaning, by decide +kernel, fun ops' ho => ?_⟩
  exact C116_delete_holds_up _ cleaning ops' (d := ⟨0, 1, .delete ["a"]⟩) (x := ⟨1, 1, .write "b" e0⟩)
    (by refine ⟨?_, ⟨_, rfl⟩, ?_, rfl⟩ <;> decide +kernel) ho

end Verif.Persist.Shared
