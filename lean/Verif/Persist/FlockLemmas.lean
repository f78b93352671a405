import Verif.Persist.FlockSpec
import Verif.Persist.TrimsLemmas
import Verif.Persist.ActorProps

/-! Lemmas for copies on a shared Redis. -/

namespace Verif.Persist.Flock

open Verif.Persist.Shared (Method Ans Before)

variable {ε σ : Type}

/-! ### What is read was written -/

theorem read_written (st : RedisStore) (os : List Shared.Op) {k : String} {j m : Nat} {q : Shared.Req} {a : Ans}
    (hq : Shared.Ev.called j m q ∈ ((Shared.start st).runs os).2)
    (ha : Shared.Ev.answered j a ∈ ((Shared.start st).runs os).2)
    (hr : ∀ i n q, Shared.Ev.called i n q ∈ ((Shared.start st).runs os).2 → q.removes = true → k ∉ q.keys) :
    ∃ s, a = (q.exec s).2 ∧ ((st k).Nodup → SortedSeq (st k) → (s k).Nodup) ∧ ∀ e ∈ s k, e ∈ st k ∨
      ∃ i n r, Shared.Ev.called i n r ∈ ((Shared.start st).runs os).2 ∧ e ∈ r.writes k := by
  have I := Shared.Inv.runs st os
  obtain ⟨q', hy⟩ := I.told _ _ ha
  obtain ⟨m', hy'⟩ := I.asked _ hy
  obtain ⟨_, rfl⟩ := I.same hq hy'
  obtain ⟨u, v, hlog⟩ := List.append_of_mem hy
  have ht := I.turn
  rw [hlog] at ht
  obtain ⟨s, h1, h2⟩ := ht.split
  refine ⟨s, h2.1, fun hn hs => (Trims.run_neat h1 ⟨hs, hn⟩).2, fun e he => ?_⟩
  have hk := (h1.keeps (k := k) (fun z hz => by
    obtain ⟨n, hz'⟩ := I.asked z (by rw [hlog]; exact List.mem_append_left _ hz)
    exact hr _ _ _ hz') e).mp he
  rcases hk with hk | ⟨x, hx, hxe⟩
  · exact .inl hk
  · obtain ⟨n, hx'⟩ := I.asked x (by rw [hlog]; exact List.mem_append_left _ hx)
    exact .inr ⟨_, n, _, hx', hxe⟩

/-! ### Coming up -/

theorem replay_all (A : App ε σ) : ∀ (xs : List ε) (s : σ), (∀ e ∈ xs, A.dec (A.enc e) = some e) →
    (xs.map A.enc).foldlM (fun s p => (A.user.msg p).map fun h => (h s).1) s = some (xs.foldl A.app s)
  | [], s, _ => rfl
  | e :: xs, s, h => by
    simp only [List.map_cons, List.foldlM_cons, App.user, h e (by simp), Option.map_some, Option.bind_eq_bind,
      Option.bind_some, List.foldl_cons]
    exact replay_all A xs _ fun x hx => h x (List.mem_cons_of_mem _ hx)

theorem started_at (A : App ε σ) (xs : List ε) (h : ∀ e ∈ xs, A.dec (A.enc e) = some e) (ms : Option (List Payload))
    (hm : ms.getD [] = xs.map A.enc) :
    (started A.user (.retry .untilSuccess) A.init [true] ⟨none, ms⟩).up = some (xs.foldl A.app A.init) := by
  have hr : rebuilt A.user (times A.user.onErr 0 (A.user.pre A.init).1) ⟨none, ms⟩ = some (xs.foldl A.app A.init) := by
    unfold rebuilt
    simp only [hm]
    simpa [times, App.user] using replay_all A xs A.init h
  have := C64_comes_up A.user A.user_calm (.retry .untilSuccess) A.init 0 0 [] (.inr (.inl rfl)) _ _ hr
  simp only [List.replicate_zero, List.nil_append] at this
  rw [this]
  simp [BootRes.up, App.user]

theorem choose_events (A : App ε σ) (P : ε → Prop) : ∀ (es : List Entry), (∀ e ∈ es, ∃ x, P x ∧ e.payload = A.enc x) →
    ∃ xs : List ε, es.map Entry.payload = xs.map A.enc ∧ ∀ x ∈ xs, P x
  | [], _ => ⟨[], rfl, by simp⟩
  | e :: es, h => by
    obtain ⟨xs, h1, h2⟩ := choose_events A P es fun x hx => h x (List.mem_cons_of_mem _ hx)
    obtain ⟨x, hx, he⟩ := h e (by simp)
    refine ⟨x :: xs, by simp [h1, he], ?_⟩
    intro y hy
    rcases List.mem_cons.mp hy with rfl | hy
    · exact hx
    · exact h2 y hy

theorem payload_ptype (e : Entry) : e.payload.ptype = e.ptype := rfl

theorem lastSeq_nonneg : ∀ (es : List Entry) (l : Int), 0 ≤ l → (∀ e ∈ es, 0 ≤ e.seq) → 0 ≤ lastSeq l es
  | [], _, h, _ => h
  | e :: es, _, _, h => lastSeq_nonneg es e.seq (h e (by simp)) fun x hx => h x (List.mem_cons_of_mem _ hx)

/-- a copy that is answered these entries comes up with the events they hold. -/
theorem onMessages_up (A : App ε σ) (j : Journal) (es : List Entry) (xs : List ε)
    (hx : ∀ e ∈ xs, A.dec (A.enc e) = some e ∧ A.known.message (A.enc e).ptype = true)
    (he : es.map Entry.payload = xs.map A.enc) :
    onMessages A j none (some (.entries (some es))) =
      .up { j with last := lastSeq j.last es } (xs.foldl A.app A.init) := by
  have hk : ∀ e ∈ es, A.known.message e.ptype = true := by
    intro e h
    have : e.payload ∈ xs.map A.enc := by rw [← he]; exact List.mem_map_of_mem h
    obtain ⟨x, hx', hp⟩ := List.mem_map.mp this
    rw [← payload_ptype, ← hp]
    exact (hx x hx').2
  have hf : es.filter (fun e => A.known.message e.ptype) = es := List.filter_eq_self.2 hk
  simp only [onMessages, hf, comesUp]
  rw [started_at A xs (fun e h => (hx e h).1)]
  rw [he]
  split
  · rename_i h0
    rw [List.eq_nil_of_length_eq_zero h0]; rfl
  · rfl

/-! ### What a copy writes -/

theorem mem_numberBatch : ∀ (ps : List Payload) (l : Int) (e : Entry), e ∈ numberBatch l ps →
    l < e.seq ∧ e.payload ∈ ps
  | [], _, _, h => by simp [numberBatch] at h
  | p :: ps, l, e, h => by
    rcases List.mem_cons.mp h with rfl | h
    · exact ⟨by show l < l + 1; omega, List.mem_cons_self⟩
    · have := mem_numberBatch ps (l + 1) e h
      exact ⟨by omega, List.mem_cons_of_mem _ this.2⟩

theorem numberBatch_has : ∀ (ps : List Payload) (l : Int) (p : Payload), p ∈ ps → ∃ e ∈ numberBatch l ps, e.payload = p
  | [], _, _, h => by simp at h
  | q :: ps, l, p, h => by
    rcases List.mem_cons.mp h with rfl | h
    · exact ⟨_, List.mem_cons_self, rfl⟩
    · obtain ⟨e, he, hp⟩ := numberBatch_has ps (l + 1) p h
      exact ⟨e, List.mem_cons_of_mem _ he, hp⟩

variable (A : App ε σ) (key : String → String → String) (pid : String)

theorem numberBatch_payloads : ∀ (ps : List Payload) (l : Int), (numberBatch l ps).map Entry.payload = ps
  | [], _ => rfl
  | p :: ps, l => by
    simp only [numberBatch, List.map_cons, numberBatch_payloads ps (l + 1)]
    rfl

/-- what a copy writes are its events, with numbers that are not negative. -/
theorem writes_journal (x : Work ε) (j : Journal) (hj : 0 ≤ j.last) :
    (((x.method A j).req key pid).writes (key pid "journal")).map Entry.payload = x.list.map A.enc ∧
    ∀ e ∈ ((x.method A j).req key pid).writes (key pid "journal"), 0 ≤ e.seq := by
  cases x with
  | event y =>
    simp only [Work.method, Method.req, Shared.Req.writes, if_true, List.mem_singleton, forall_eq]
    exact ⟨rfl, hj⟩
  | events ys =>
    simp only [Work.method, Method.req, Shared.Req.writes, if_true]
    exact ⟨numberBatch_payloads _ _, fun e he => by have := (mem_numberBatch _ _ _ he).1; omega⟩

theorem writes_has (x : Work ε) (j : Journal) (y : ε) (hy : y ∈ x.list) :
    ∃ e ∈ ((x.method A j).req key pid).writes (key pid "journal"), e.payload = A.enc y := by
  cases x with
  | event z =>
    simp only [Work.list, List.mem_singleton] at hy
    subst hy
    exact ⟨_, by simp [Work.method, Method.req, Shared.Req.writes]; rfl, rfl⟩
  | events ys =>
    simp only [Work.method, Method.req, Shared.Req.writes, if_true]
    exact numberBatch_has _ _ _ (List.mem_map_of_mem hy)

theorem method_removes (x : Work ε) (j : Journal) : ((x.method A j).req key pid).removes = false := by cases x <;> rfl

theorem method_other (x : Work ε) (j : Journal) (hk : key pid "journal" ≠ key pid "snapshot") :
    ((x.method A j).req key pid).writes (key pid "snapshot") = [] := by
  cases x <;> simp [Work.method, Method.req, Shared.Req.writes, hk]

theorem writes_off {r : Shared.Req} {k : String} (h : k ∉ r.keys) : r.writes k = [] := by
  cases r with
  | write k' e' =>
    have : ¬ k' = k := by simpa [Shared.Req.keys, eq_comm] using h
    simp [Shared.Req.writes, this]
  | batch k' es =>
    have : ¬ k' = k := by simpa [Shared.Req.keys, eq_comm] using h
    simp [Shared.Req.writes, this]
  | _ => rfl

theorem outcome_answered {i : Nat} {a : Ans} : ∀ {h : List Shared.Ev}, outcomeOf i h = some (some a) →
    Shared.Ev.answered i a ∈ h
  | [], h => by simp [outcomeOf] at h
  | .answered j b :: t, h => by
    simp only [outcomeOf] at h
    split at h
    · rename_i e
      simp only [Option.some.injEq] at h
      subst e h
      exact List.mem_cons_self
    · exact List.mem_cons_of_mem _ (outcome_answered h)
  | .failed j :: t, h => by
    simp only [outcomeOf] at h
    split at h
    · cases h
    · exact List.mem_cons_of_mem _ (outcome_answered h)
  | .called _ _ _ :: t, h => List.mem_cons_of_mem _ (outcome_answered (h := t) h)
  | .lost _ :: t, h => List.mem_cons_of_mem _ (outcome_answered (h := t) h)

/-! ### The invariant -/

/-- an event is in the journal for good: somebody was answered that it is. -/
def Safe (h : List Shared.Ev) (e : ε) : Prop := ∃ i n r a x, Shared.Ev.called i n r ∈ h ∧
  x ∈ r.writes (key pid "journal") ∧ x.payload = A.enc e ∧ Shared.Ev.answered i a ∈ h

/-- what a request may do to the two keys: `W` are the entries copies write. -/
structure Fine (W : List Entry) (r : Shared.Req) : Prop where
  keeps : r.removes = true → key pid "journal" ∉ r.keys ∧ key pid "snapshot" ∉ r.keys
  writes : ∀ e ∈ r.writes (key pid "journal"), e ∈ W
  plain : r.writes (key pid "snapshot") = []

/-- the state of a copy that knows of the events `T` at least and is writing `xs`: of the events `B` copies set out to
write, it has each so many times at most. -/
def Knows (B : List ε) (T : ε → Prop) (xs : List ε) (s : σ) : Prop := ∃ l : List ε, s = l.foldl A.app A.init ∧
  (∀ x ∈ l ++ xs, x ∈ B) ∧ (∀ p, ((l ++ xs).map A.enc).count p ≤ (B.map A.enc).count p) ∧ ∀ e, T e → e ∈ l

/-- what holds of a copy that has to know of the events `T`. -/
def Good (B : List ε) (T : ε → Prop) (h : List Shared.Ev) : Phase ε σ → Prop
  | .off => True
  | .snapshot i => ∃ n, Shared.Ev.called i n (.latest (key pid "snapshot")) ∈ h
  | .messages i j snap => snap = none ∧ j.last = 0 ∧
    (∃ n, Shared.Ev.called i n (.range (key pid "journal") (some 0) none) ∈ h) ∧
    ∀ e, T e → ∃ i' n' r' a' x n, Shared.Ev.called i' n' r' ∈ h ∧ x ∈ r'.writes (key pid "journal") ∧ x.payload = A.enc e ∧
      Before h (.answered i' a') (.called i n (.range (key pid "journal") (some 0) none))
  | .up j s => 0 ≤ j.last ∧ Knows A B T [] s
  | .writing i j s x => 0 ≤ j.last ∧ Knows A B T x.list s ∧ ∃ n, Shared.Ev.called i n ((x.method A j).req key pid) ∈ h

theorem Knows.mono {A : App ε σ} {B B' : List ε} {T T' : ε → Prop} {xs : List ε} {s : σ} (h : Knows A B T xs s)
    (hb : B.Sublist B') (ht : ∀ e, T' e → T e) : Knows A B' T' xs s := by
  obtain ⟨l, h1, h2, h3, h4⟩ := h
  exact ⟨l, h1, fun x hx => hb.subset (h2 x hx), fun p => Nat.le_trans (h3 p) ((hb.map A.enc).count_le p),
    fun e he => h4 e (ht e he)⟩

theorem Good.mono {B B' : List ε} {T T' : ε → Prop} {h : List Shared.Ev} {p : Phase ε σ} (g : Good A key pid B T h p)
    (hb : B.Sublist B') (ht : ∀ e, T' e → T e) (h' : List Shared.Ev) : Good A key pid B' T' (h ++ h') p := by
  cases p with
  | off => trivial
  | snapshot i => exact g.imp fun n hn => List.mem_append_left _ hn
  | messages i j snap =>
    obtain ⟨h1, h2, h3, h4⟩ := g
    refine ⟨h1, h2, h3.imp fun n hn => List.mem_append_left _ hn, fun e he => ?_⟩
    obtain ⟨i', n', r', a', x, n, k1, k2, k3, k4⟩ := h4 e (ht e he)
    exact ⟨i', n', r', a', x, n, List.mem_append_left _ k1, k2, k3, k4.append _⟩
  | up j s => exact ⟨g.1, g.2.mono hb ht⟩
  | writing i j s x =>
    exact ⟨g.1, g.2.1.mono hb ht, g.2.2.imp fun n hn => List.mem_append_left _ hn⟩

/-- what holds of the whole: `B` are the events copies set out to write and `W` the entries made of them, `old c` are the
events copy `c` has to know of besides the ones it has been told are persisted. -/
structure Inv (st : RedisStore) (old : Nat → ε → Prop) (B : List ε) (W : List Entry) (w : World ε σ) : Prop where
  run : ∃ os, (Shared.start st).runs os = (w.sys, w.hist)
  made : W.map Entry.payload = B.map A.enc
  nonneg : ∀ e ∈ W, 0 ≤ e.seq
  fine : ∀ i n r, Shared.Ev.called i n r ∈ w.hist → Fine key pid W r
  wanted : ∀ c e, (c, e) ∈ w.acked → e ∈ B
  safe : ∀ c e, (c, e) ∈ w.acked → Safe A key pid w.hist e
  safeOld : ∀ c e, old c e → Safe A key pid w.hist e
  good : ∀ c, Good A key pid B (fun e => old c e ∨ (c, e) ∈ w.acked) w.hist (w.copies c).2

variable {A key pid}

theorem Fine.mono {W W' : List Entry} {r : Shared.Req} (h : Fine key pid W r) (hw : ∀ e ∈ W, e ∈ W') :
    Fine key pid W' r := ⟨h.keeps, fun e he => hw e (h.writes e he), h.plain⟩

theorem Safe.mono {h : List Shared.Ev} {e : ε} (s : Safe A key pid h e) (h' : List Shared.Ev) :
    Safe A key pid (h ++ h') e := by
  obtain ⟨i, n, r, a, x, h1, h2, h3, h4⟩ := s
  exact ⟨i, n, r, a, x, List.mem_append_left _ h1, h2, h3, List.mem_append_left _ h4⟩

theorem Inv.asks {st : RedisStore} {old : Nat → ε → Prop} {B xs : List ε} {W ys : List Entry} {w : World ε σ}
    (I : Inv A key pid st old B W w) (h1 : ys.map Entry.payload = xs.map A.enc) (h2 : ∀ e ∈ ys, 0 ≤ e.seq) :
    Inv A key pid st old (B ++ xs) (W ++ ys) w :=
  ⟨I.run, by rw [List.map_append, List.map_append, I.made, h1],
    fun e he => (List.mem_append.mp he).elim (I.nonneg e) (h2 e),
    fun i n r h => (I.fine i n r h).mono fun e he => List.mem_append_left _ he,
    fun c e h => List.mem_append_left _ (I.wanted c e h), I.safe, I.safeOld, fun c => by
    have := (I.good c).mono A key pid (List.sublist_append_left B xs) (T' := fun e => old c e ∨ (c, e) ∈ w.acked)
      (fun _ => id) []
    rwa [List.append_nil] at this⟩

/-- the events of a step that are calls. -/
theorem step_called (s : Shared.Sys) (o : Shared.Op) {i n : Nat} {r : Shared.Req}
    (h : Shared.Ev.called i n r ∈ (s.step o).2) : o = .call n r := by
  cases o with
  | call m q =>
    simp only [Shared.Sys.step, Shared.Sys.call] at h
    split at h <;> simp at h <;> simp [h.2.1, h.2.2]
  | handle m =>
    simp only [Shared.Sys.step, Shared.Sys.handle] at h
    split at h
    · simp at h
    · split at h <;> simp at h
  | exec j =>
    simp only [Shared.Sys.step, Shared.Sys.exec] at h
    split at h <;> simp at h
  | deliver j =>
    simp only [Shared.Sys.step, Shared.Sys.deliver] at h
    split at h <;> simp at h
  | fail j =>
    simp only [Shared.Sys.step, Shared.Sys.fail] at h
    split at h <;> simp at h
  | drop j => simp [Shared.Sys.step] at h
  | stop m =>
    simp only [Shared.Sys.step, Shared.Sys.stop] at h
    split at h <;> simp at h
  | crash m => simp [Shared.Sys.step, Shared.Sys.crash] at h

theorem Inv.redis {st : RedisStore} {old : Nat → ε → Prop} {B : List ε} {W : List Entry} {w : World ε σ}
    (I : Inv A key pid st old B W w) (o : Shared.Op) (ho : ∀ n r, o = .call n r → Fine key pid W r) :
    Inv A key pid st old B W (w.redis o) := by
  refine ⟨?_, I.made, I.nonneg, ?_, I.wanted, fun c e h => (I.safe c e h).mono _, fun c e h => (I.safeOld c e h).mono _, fun c => ?_⟩
  · obtain ⟨os, h⟩ := I.run
    refine ⟨os ++ [o], ?_⟩
    rw [Shared.runs_snoc, h]
    rfl
  · intro i n r h
    rcases List.mem_append.mp h with h | h
    · exact I.fine i n r h
    · exact ho n r (step_called _ _ h)
  · have g := (I.good c).mono A key pid (List.Sublist.refl _) (T' := fun e => old c e ∨ (c, e) ∈ w.acked) (fun _ => id)
      (w.sys.step o).2
    show Good A key pid B _ (w.hist ++ (w.sys.step o).2) ((w.redis o).copies c).2
    simp only [World.redis]
    split
    · split
      · trivial
      · exact g
    · exact g

theorem Inv.put {st : RedisStore} {old : Nat → ε → Prop} {B : List ε} {W : List Entry} {w : World ε σ}
    (I : Inv A key pid st old B W w) (c n : Nat) (p : Phase ε σ)
    (hp : Good A key pid B (fun e => old c e ∨ (c, e) ∈ w.acked) w.hist p) : Inv A key pid st old B W (w.put c n p) := by
  refine ⟨I.run, I.made, I.nonneg, I.fine, I.wanted, I.safe, I.safeOld, fun d => ?_⟩
  simp only [World.put]
  split
  · rename_i h; subst h; exact hp
  · exact I.good d

theorem call_hist (w : World ε σ) (n : Nat) (r : Shared.Req) :
    ∃ l, (w.redis (.call n r)).hist = w.hist ++ Shared.Ev.called w.sys.next n r :: l := by
  simp only [World.redis, Shared.Sys.step, Shared.Sys.call]
  split
  · exact ⟨_, rfl⟩
  · exact ⟨_, rfl⟩

theorem Inv.call {st : RedisStore} {old : Nat → ε → Prop} {B : List ε} {W : List Entry} {w : World ε σ}
    (I : Inv A key pid st old B W w) (c n : Nat) (m : Method) (p : Nat → Phase ε σ)
    (hm : Fine key pid W (m.req key pid))
    (hp : ∀ l, Good A key pid B (fun e => old c e ∨ (c, e) ∈ w.acked)
      (w.hist ++ Shared.Ev.called w.sys.next n (m.req key pid) :: l) (p w.sys.next)) :
    Inv A key pid st old B W (w.call key pid c n m p) := by
  refine (I.redis (.call n (m.req key pid)) ?_).put c n _ ?_
  · intro n' r' h
    cases h
    exact hm
  · obtain ⟨l, hl⟩ := call_hist w n (m.req key pid)
    rw [hl]
    exact hp l

/-- what a copy is told becomes known of it. -/
theorem Inv.told {st : RedisStore} {old : Nat → ε → Prop} {B : List ε} {W : List Entry} {w : World ε σ}
    (I : Inv A key pid st old B W w) (c n : Nat) (p : Phase ε σ) (es : List ε) (hs : ∀ e ∈ es, e ∈ B ∧ Safe A key pid w.hist e)
    (hp : Good A key pid B (fun e => old c e ∨ (c, e) ∈ w.acked ++ es.map fun e => (c, e)) w.hist p) :
    Inv A key pid st old B W { w.put c n p with acked := w.acked ++ es.map fun e => (c, e) } := by
  have hall : ∀ d e, (d, e) ∈ w.acked ++ es.map (fun e => (c, e)) → e ∈ B ∧ Safe A key pid w.hist e := by
    intro d e h
    rcases List.mem_append.mp h with h | h
    · exact ⟨I.wanted d e h, I.safe d e h⟩
    · obtain ⟨x, hx, hxe⟩ := List.mem_map.mp h
      cases hxe
      exact hs _ hx
  refine ⟨I.run, I.made, I.nonneg, I.fine, fun d e h => (hall d e h).1, fun d e h => (hall d e h).2, I.safeOld, fun d => ?_⟩
  · simp only [World.put]
    split
    · rename_i h; subst h; exact hp
    · rename_i hd
      have := (I.good d).mono A key pid (List.Sublist.refl _)
        (T' := fun e => old d e ∨ (d, e) ∈ w.acked ++ es.map fun e => (c, e)) (fun e he => by
          rcases he with he | he
          · exact .inl he
          · rcases List.mem_append.mp he with he | he
            · exact .inr he
            · obtain ⟨x, _, hxe⟩ := List.mem_map.mp he
              cases hxe
              exact absurd rfl hd) []
      rwa [List.append_nil] at this

variable (hk : key pid "journal" ≠ key pid "snapshot")

theorem fine_latest (W : List Entry) : Fine key pid W (Method.readLatestSnapshot.req key pid) :=
  ⟨by simp [Method.req, Shared.Req.removes], by simp [Method.req, Shared.Req.writes], rfl⟩

theorem fine_range (W : List Entry) (n : Int) : Fine key pid W ((Method.readLatestMessages n).req key pid) :=
  ⟨by simp [Method.req, Shared.Req.removes], by simp [Method.req, Shared.Req.writes], rfl⟩

include hk in
theorem fine_work {A : App ε σ} {W : List Entry} (x : Work ε) (j : Journal)
    (hx : ∀ e ∈ ((x.method A j).req key pid).writes (key pid "journal"), e ∈ W) :
    Fine key pid W ((x.method A j).req key pid) :=
  ⟨by simp [method_removes], hx, method_other A key pid x j hk⟩

theorem fine_apart {W : List Entry} {r : Shared.Req} (h : ∀ k ∈ r.keys, k ∉ keysOf key pid) : Fine key pid W r := by
  have h1 : key pid "journal" ∉ r.keys := fun hm => h _ hm (by simp [keysOf])
  have h2 : key pid "snapshot" ∉ r.keys := fun hm => h _ hm (by simp [keysOf])
  exact ⟨fun _ => ⟨h1, h2⟩, by simp [writes_off h1], writes_off h2⟩

/-- nothing is under the key of snapshots. -/
theorem Inv.noSnapshot {st : RedisStore} {old : Nat → ε → Prop} {B : List ε} {W : List Entry} {w : World ε σ}
    (I : Inv A key pid st old B W w) (hst : st (key pid "snapshot") = []) {i n : Nat} {a : Ans}
    (hq : Shared.Ev.called i n (.latest (key pid "snapshot")) ∈ w.hist) (ha : Shared.Ev.answered i a ∈ w.hist) :
    a = .entry none := by
  obtain ⟨os, hr⟩ := I.run
  have hh : w.hist = ((Shared.start st).runs os).2 := by rw [hr]
  rw [hh] at hq ha
  obtain ⟨s, h1, hnd, h2⟩ := read_written st os (k := key pid "snapshot") hq ha fun i n q h hrm =>
    ((I.fine i n q (by rw [hh]; exact h)).keeps hrm).2
  have : s (key pid "snapshot") = [] := by
    rw [List.eq_nil_iff_forall_not_mem]
    intro e he
    rcases h2 e he with h | ⟨i, n, r, h, hw⟩
    · rw [hst] at h; simp at h
    · rw [(I.fine i n r (by rw [hh]; exact h)).plain] at hw; simp at hw
  rw [h1]
  simp [Shared.Req.exec, redisReadSnapshot, this]

/-- what a copy reads from the journal. -/
theorem Inv.reads {st : RedisStore} {old : Nat → ε → Prop} {T : ε → Prop} {B : List ε} {W : List Entry} {w : World ε σ}
    (I : Inv A key pid st old B W w) (hst : st (key pid "journal") = [])
    (hQ : ∀ e ∈ B, A.dec (A.enc e) = some e ∧ A.known.message (A.enc e).ptype = true)
    (hT : ∀ e, T e → A.dec (A.enc e) = some e) {i : Nat} {j : Journal} {snap : Option Payload} {a : Ans}
    (g : Good A key pid B T w.hist (.messages i j snap)) (ha : Shared.Ev.answered i a ∈ w.hist) :
    ∃ j' s, onMessages A j snap (some a) = .up j' s ∧ Good A key pid B T w.hist (.up j' s) := by
  obtain ⟨rfl, hj, ⟨n, hq⟩, hb⟩ := g
  obtain ⟨os, hr⟩ := I.run
  have hh : w.hist = ((Shared.start st).runs os).2 := by rw [hr]
  have hrem : ∀ i n q, Shared.Ev.called i n q ∈ ((Shared.start st).runs os).2 → q.removes = true →
      key pid "journal" ∉ q.keys := fun i n q h hrm => ((I.fine i n q (by rw [hh]; exact h)).keeps hrm).1
  obtain ⟨s, h1, hnd, h2⟩ := read_written st os (k := key pid "journal") (by rw [← hh]; exact hq) (by rw [← hh]; exact ha) hrem
  simp only [Shared.Req.exec] at h1
  subst h1
  have hes : ∀ e ∈ redisReadRange s (key pid "journal") 0 none, e ∈ W := by
    intro e he
    have he := (List.mem_filter.mp he).1
    rcases h2 e he with h | ⟨i, n, r, h, hw⟩
    · rw [hst] at h; simp at h
    · exact (I.fine i n r (by rw [hh]; exact h)).writes e hw
  have hpay : ∀ e ∈ W, ∃ x, x ∈ B ∧ e.payload = A.enc x := by
    intro e he
    have : e.payload ∈ B.map A.enc := by rw [← I.made]; exact List.mem_map_of_mem he
    obtain ⟨x, hx, hxe⟩ := List.mem_map.mp this
    exact ⟨x, hx, hxe.symm⟩
  have hnd' : (redisReadRange s (key pid "journal") 0 none).Nodup :=
    (hnd (by rw [hst]; exact List.nodup_nil) (by rw [hst]; exact List.Pairwise.nil)).sublist List.filter_sublist
  obtain ⟨xs, hx1, hx2⟩ := choose_events A (· ∈ B) _ fun e he => hpay e (hes e he)
  refine ⟨_, _, onMessages_up A j _ xs (fun e he => hQ e (hx2 e he)) hx1, ?_⟩
  refine ⟨lastSeq_nonneg _ _ (by omega) fun e he => I.nonneg e (hes e he), xs, rfl, by simpa using hx2, fun p => ?_,
    fun e he => ?_⟩
  · rw [List.append_nil, ← hx1, ← I.made]
    simp only [List.count_eq_length_filter, List.filter_map, List.length_map]
    exact List.Nodup.length_le_of_subset (hnd'.sublist List.filter_sublist) fun e he =>
      List.mem_filter.mpr ⟨hes e (List.mem_filter.mp he).1, (List.mem_filter.mp he).2⟩
  obtain ⟨i', n', r', a', x, n0, k1, k2, k3, k4⟩ := hb e he
  have hm := Shared.C116_read_back st os (k := key pid "journal") (e := x) (b := some 0) (c := none) (by rw [← hh]; exact k1) k2
    (by rw [← hh]; exact k4) (by rw [← hh]; exact ha) (I.nonneg x ((I.fine i' n' r' k1).writes x k2)) (by simp) hrem
  have : x.payload ∈ xs.map A.enc := by rw [← hx1]; exact List.mem_map_of_mem hm
  obtain ⟨y, hy, hye⟩ := List.mem_map.mp this
  have h5 := hT e he
  rw [← k3, ← hye, (hQ y (hx2 y hy)).1] at h5
  cases h5
  exact hy

theorem Inv.hear {st : RedisStore} {old : Nat → ε → Prop} {B : List ε} {W : List Entry} {w : World ε σ}
    (I : Inv A key pid st old B W w) (hs1 : st (key pid "journal") = []) (hs2 : st (key pid "snapshot") = [])
    (hQ : ∀ e ∈ B, A.dec (A.enc e) = some e ∧ A.known.message (A.enc e).ptype = true)
    (hold : ∀ c e, old c e → A.dec (A.enc e) = some e)
    (c : Nat) : Inv A key pid st old B W (w.hear A key pid c) := by
  have g := I.good c
  unfold World.hear
  cases hw : (w.copies c).2.waits with
  | none => exact I
  | some i =>
    cases ho : outcomeOf i w.hist with
    | none => simp only [ho]; exact I
    | some r =>
      simp only [ho]
      cases hp : (w.copies c).2 with
      | off => rw [hp] at hw; cases hw
      | up j s => rw [hp] at hw; cases hw
      | snapshot i' =>
        rw [hp] at hw g
        cases hw
        simp only [Phase.resume, List.map_nil, List.append_nil]
        cases r with
        | none => exact I.put c _ _ trivial
        | some a =>
          obtain ⟨n, hn⟩ := g
          have := I.noSnapshot hs2 hn (outcome_answered ho)
          subst this
          show Inv A key pid st old B W (w.call key pid c (w.copies c).1 (.readLatestMessages 0) fun i =>
            .messages i (Journal.new pid) none)
          refine I.call c _ _ _ (fine_range W 0) ?_
          intro l
          refine ⟨rfl, rfl, ⟨(w.copies c).1, by simp [Method.req]⟩, fun e he => ?_⟩
          have hsafe : Safe A key pid w.hist e := by
            rcases he with he | he
            · exact I.safeOld c e he
            · exact I.safe c e he
          obtain ⟨i', n', r', a', x, k1, k2, k3, k4⟩ := hsafe
          exact ⟨i', n', r', a', x, (w.copies c).1, List.mem_append_left _ k1, k2, k3, .of_mem k4 (by simp [Method.req])⟩
      | messages i' j snap =>
        rw [hp] at hw g
        cases hw
        simp only [Phase.resume, List.map_nil, List.append_nil]
        cases r with
        | none => exact I.put c _ _ trivial
        | some a =>
          obtain ⟨j', s', h1, h2⟩ := I.reads hs1 hQ (fun e he => by
            rcases he with he | he
            · exact hold c e he
            · exact (hQ e (I.wanted c e he)).1) g (outcome_answered ho)
          rw [h1]
          exact I.put c _ _ h2
      | writing i' j s x =>
        rw [hp] at hw g
        cases hw
        obtain ⟨g1, g2, n, g4⟩ := g
        cases r with
        | none =>
          simp only [Phase.resume, onWritten, List.map_nil, List.append_nil]
          show Inv A key pid st old B W (w.call key pid c (w.copies c).1 (x.method A j) fun i => .writing i j s x)
          refine I.call c _ _ _ (I.fine _ _ _ g4) ?_
          intro l
          refine ⟨g1, g2, (w.copies c).1, ?_⟩
          simp
        | some a =>
          simp only [Phase.resume, onWritten]
          obtain ⟨l, l1, l2, l3, l4⟩ := g2
          refine I.told c _ _ x.list (fun e he => ?_) ⟨by show (0 : Int) ≤ j.last + x.list.length; omega, ?_⟩
          · obtain ⟨y, hy, hye⟩ := writes_has A key pid x j e he
            exact ⟨l2 e (List.mem_append_right _ he), _, n, _, a, y, g4, hy, hye, outcome_answered ho⟩
          · refine ⟨l ++ x.list, by rw [List.foldl_append, ← l1], by simpa using l2, by simpa using l3, ?_⟩
            intro e he
            rcases he with he | he
            · exact List.mem_append_left _ (l4 e (.inl he))
            · rcases List.mem_append.mp he with he | he
              · exact List.mem_append_left _ (l4 e (.inr he))
              · obtain ⟨y, hy, hye⟩ := List.mem_map.mp he
                cases hye
                exact List.mem_append_right _ hy

/-- the events a step makes a copy set out to write. -/
def World.takes (w : World ε σ) : Op ε → List ε
  | .work c x => match (w.copies c).2 with
    | .up _ _ => x.list
    | _ => []
  | _ => []

include hk in
theorem Inv.step {st : RedisStore} {old : Nat → ε → Prop} {B : List ε} {W : List Entry} {w : World ε σ}
    (I : Inv A key pid st old B W w) (hs1 : st (key pid "journal") = []) (hs2 : st (key pid "snapshot") = [])
    (hQ : ∀ e ∈ B, A.dec (A.enc e) = some e ∧ A.known.message (A.enc e).ptype = true)
    (hold : ∀ c e, old c e → A.dec (A.enc e) = some e)
    (op : Op ε) (hap : ∀ n r, op = .sys (.call n r) → ∀ k ∈ r.keys, k ∉ keysOf key pid) :
    ∃ W', Inv A key pid st old (B ++ w.takes op) W' (w.step A key pid op) := by
  cases op with
  | start c n =>
    refine ⟨W, ?_⟩
    simp only [World.takes, List.append_nil, World.step, World.start]
    split
    · refine I.call c n _ _ (fine_latest W) ?_
      intro l
      exact ⟨n, by simp [Method.req]⟩
    · exact I
  | work c x =>
    simp only [World.step, World.work, World.takes]
    cases hp : (w.copies c).2 with
    | up j s =>
      have g := I.good c
      rw [hp] at g
      obtain ⟨hj, l, l1, l2, l3, l4⟩ := g
      obtain ⟨h1, h2⟩ := writes_journal A key pid x j hj
      have I' := I.asks h1 h2
      dsimp only
      split
      · exact ⟨_, I'⟩
      · refine ⟨_, I'.call c _ _ _ (fine_work hk x j fun e he => List.mem_append_right _ he) ?_⟩
        intro t
        refine ⟨hj, ⟨l, l1, fun y hy => ?_, fun p => ?_, l4⟩, (w.copies c).1, by simp⟩
        · rcases List.mem_append.mp hy with hy | hy
          · exact List.mem_append_left _ (l2 y (by simpa using hy))
          · exact List.mem_append_right _ hy
        · have := l3 p
          simp only [List.append_nil] at this
          simp only [List.map_append, List.count_append]
          omega
    | _ => exact ⟨W, by simpa using I⟩
  | hear c => exact ⟨W, by simpa [World.takes, World.step] using I.hear hs1 hs2 hQ hold c⟩
  | ends c => exact ⟨W, by simpa [World.takes, World.step] using I.put c (w.copies c).1 .off trivial⟩
  | sys o => exact ⟨W, by simpa [World.takes, World.step] using I.redis o fun n r h => fine_apart (hap n r (by rw [h]))⟩

/-- all of them, in a run. -/
def taken (A : App ε σ) (key : String → String → String) (pid : String) (w : World ε σ) : List (Op ε) → List ε
  | [] => []
  | op :: ops => w.takes op ++ taken A key pid (w.step A key pid op) ops

theorem taken_asked (ops : List (Op ε)) : ∀ w : World ε σ, (taken A key pid w ops).Sublist (asked ops) := by
  induction ops with
  | nil => intro w; exact List.Sublist.refl _
  | cons op ops ih =>
    intro w
    have h1 : asked (op :: ops) = asked [op] ++ asked ops := by simp [asked]
    rw [h1]
    refine List.Sublist.append ?_ (ih _)
    cases op with
    | work c x =>
      simp only [World.takes, asked, List.flatMap_cons, List.flatMap_nil, List.append_nil]
      split
      · exact List.Sublist.refl _
      · exact List.nil_sublist _
    | _ => exact List.nil_sublist _

include hk in
theorem Inv.steps {st : RedisStore} {old : Nat → ε → Prop} (hs1 : st (key pid "journal") = [])
    (hs2 : st (key pid "snapshot") = []) (hold : ∀ c e, old c e → A.dec (A.enc e) = some e) (ops : List (Op ε)) :
    ∀ {B : List ε} {W : List Entry} {w : World ε σ}, Inv A key pid st old B W w →
    (∀ e ∈ B ++ asked ops, A.dec (A.enc e) = some e ∧ A.known.message (A.enc e).ptype = true) →
    Apart (keysOf key pid) ops → ∃ W', Inv A key pid st old (B ++ taken A key pid w ops) W' (w.run A key pid ops) := by
  induction ops with
  | nil => intro B W w I _ _; exact ⟨W, by simpa [taken, World.run] using I⟩
  | cons op ops ih =>
    intro B W w I hQ hap
    obtain ⟨W', I'⟩ := I.step hk hs1 hs2 (fun e he => hQ e (List.mem_append_left _ he)) hold op fun n r h =>
      hap n r (by simp [h])
    have h1 : asked (op :: ops) = asked [op] ++ asked ops := by simp [asked]
    obtain ⟨W'', I''⟩ := ih I' (fun e he => hQ e (by
      rw [h1]
      have ht := taken_asked (A := A) (key := key) (pid := pid) [op] w
      simp only [taken, List.append_nil] at ht
      simp only [List.mem_append] at he ⊢
      rcases he with (he | he) | he
      · exact .inl he
      · exact .inr (.inl (ht.subset he))
      · exact .inr (.inr he))) fun n r h => hap n r (List.mem_cons_of_mem _ h)
    exact ⟨W'', by simpa [taken, World.run] using I''⟩

theorem Inv.init (st : RedisStore) : Inv A key pid st (fun _ _ => False) [] [] (World.init st) where
  run := ⟨[], rfl⟩
  made := rfl
  nonneg := by simp
  fine := by intro i n r h; simp [World.init] at h
  wanted := by intro c e h; simp [World.init] at h
  safe := by intro c e h; simp [World.init] at h
  safeOld := fun _ _ h => h.elim
  good := fun _ => trivial

/-! ### Coming up on a node that works -/

theorem answered_outcome {st : RedisStore} {os : List Shared.Op} {i : Nat} {a : Ans}
    (h : Shared.Ev.answered i a ∈ ((Shared.start st).runs os).2) :
    outcomeOf i ((Shared.start st).runs os).2 = some (some a) := by
  have I := Shared.Inv.runs st os
  have hn : (((Shared.start st).runs os).2.filterMap Shared.Ev.ends).Nodup := by
    have := I.account.nodup_iff.mpr List.nodup_range
    rw [List.nodup_append, List.nodup_append] at this
    exact this.1.1
  have hu := Shared.filterMap_nodup_inj Shared.Ev.ends hn
  generalize ((Shared.start st).runs os).2 = l at *
  have key : ∀ m : List Shared.Ev, (∀ x ∈ m, x ∈ l) → Shared.Ev.answered i a ∈ m → outcomeOf i m = some (some a) := by
    intro m
    induction m with
    | nil => intro _ h; simp at h
    | cons x m ih =>
      intro hm hi
      have hx := hm x (by simp)
      have ht : x ≠ .answered i a → outcomeOf i m = some (some a) := by
        intro hne
        refine ih (fun y hy => hm y (List.mem_cons_of_mem _ hy)) ?_
        rcases List.mem_cons.mp hi with hi | hi
        · exact absurd hi.symm hne
        · exact hi
      cases x with
      | called j n r => exact ht (by simp)
      | lost j => exact ht (by simp)
      | answered j b =>
        simp only [outcomeOf]
        split
        · rename_i e
          subst e
          have := hu _ hx _ h j rfl rfl
          cases this
          rfl
        · rename_i e
          exact ht (by intro h; cases h; exact e rfl)
      | failed j =>
        simp only [outcomeOf]
        split
        · rename_i e
          subst e
          have := hu _ hx _ h j rfl rfl
          cases this
        · exact ht (by simp)
  exact key l (fun _ h => h) h

/-- the journal actor of the node runs, nothing is in its mailbox and it is not deleting. -/
structure Quiet (s : Shared.Sys) (n : Nat) : Prop where
  up : n ∉ s.down
  idle : ∀ j ∈ s.queue, j.node ≠ n
  free : ∀ j ∈ s.tasks, j.node = n → ∀ ks, j.req ≠ .delete ks

/-- what is done for a call: its journal actor takes it, Redis does it, the answer comes. -/
def served (n i : Nat) : List Shared.Op := [.handle n, .exec i, .deliver i]

theorem exec_down (s : Shared.Sys) (i : Nat) : (s.exec i).1.down = s.down ∧ (s.exec i).1.queue = s.queue ∧
    (s.exec i).1.tasks = s.tasks ∧ (s.exec i).1.next = s.next := by
  unfold Shared.Sys.exec; split <;> exact ⟨rfl, rfl, rfl, rfl⟩

theorem deliver_down (s : Shared.Sys) (i : Nat) : (s.deliver i).1.down = s.down ∧ (s.deliver i).1.queue = s.queue ∧
    (∀ j ∈ (s.deliver i).1.tasks, j ∈ s.tasks) ∧ (s.deliver i).1.next = s.next := by
  unfold Shared.Sys.deliver
  split
  · exact ⟨rfl, rfl, fun _ h => h, rfl⟩
  · exact ⟨rfl, rfl, fun _ h => (List.mem_filter.mp h).1, rfl⟩

theorem call_served {st : RedisStore} {os : List Shared.Op} {s : Shared.Sys} (hs : s = ((Shared.start st).runs os).1)
    {n : Nat} (q : Quiet s n) {r : Shared.Req} (hr : ∀ ks, r ≠ .delete ks) :
    (∃ a, Shared.Ev.answered s.next a ∈ ((Shared.start st).runs (os ++ [.call n r] ++ served n s.next)).2) ∧
    Quiet ((Shared.start st).runs (os ++ [.call n r] ++ served n s.next)).1 n ∧
    ((Shared.start st).runs (os ++ [.call n r] ++ served n s.next)).1.next = s.next + 1 := by
  have h1 : ((Shared.start st).runs (os ++ [.call n r])).1 =
      { s with next := s.next + 1, queue := s.queue ++ [(⟨s.next, n, r⟩ : Shared.Job)] } := by
    rw [Shared.runs_snoc, ← hs]
    simp only [Shared.Sys.step, Shared.Sys.call, if_neg q.up]
  have hf : (s.queue ++ [(⟨s.next, n, r⟩ : Shared.Job)]).find? (fun x => x.node == n) = some ⟨s.next, n, r⟩ := by
    rw [List.find?_append, List.find?_eq_none.mpr (by simpa using q.idle)]
    simp
  refine ⟨⟨_, Shared.C116_free st (os ++ [.call n r]) (n := n) (j := ⟨s.next, n, r⟩) ?_ ?_⟩, ?_⟩
  · rw [h1]; exact q.free
  · rw [h1]; exact hf
  rw [Shared.runs_append, h1]
  simp only [served, Shared.Sys.runs, Shared.Sys.step]
  have hb : ({ s with next := s.next + 1, queue := s.queue ++ [(⟨s.next, n, r⟩ : Shared.Job)] } : Shared.Sys).busy n = false := by
    rw [Shared.Sys.busy, List.any_eq_false]
    intro x hx hc
    simp only [Bool.and_eq_true, beq_iff_eq] at hc
    have := q.free x hx hc.1
    cases hxr : x.req with
    | delete ks => exact this ks hxr
    | _ => rw [hxr] at hc; cases hc.2
  have hh : ({ s with next := s.next + 1, queue := s.queue ++ [(⟨s.next, n, r⟩ : Shared.Job)] } : Shared.Sys).handle n = ({ s with
      next := s.next + 1
      queue := (s.queue ++ [(⟨s.next, n, r⟩ : Shared.Job)]).filter fun x => x.id != s.next
      tasks := s.tasks ++ [(⟨s.next, n, r⟩ : Shared.Job)], wire := s.wire ++ [(⟨s.next, n, r⟩ : Shared.Job)] }, []) := by
    unfold Shared.Sys.handle
    rw [hb]
    simp only [Bool.false_eq_true, if_false, hf]
  rw [hh]
  obtain ⟨e1, e2, e3, e4⟩ := exec_down { s with
      next := s.next + 1
      queue := (s.queue ++ [(⟨s.next, n, r⟩ : Shared.Job)]).filter fun x => x.id != s.next
      tasks := s.tasks ++ [(⟨s.next, n, r⟩ : Shared.Job)], wire := s.wire ++ [(⟨s.next, n, r⟩ : Shared.Job)] } s.next
  generalize Shared.Sys.exec _ s.next = t at *
  obtain ⟨d1, d2, d3, d4⟩ := deliver_down t.1 s.next
  generalize t.1.deliver s.next = u at *
  refine ⟨⟨?_, ?_, ?_⟩, ?_⟩
  · rw [d1, e1]; exact q.up
  · rw [d2, e2]
    intro j hj
    obtain ⟨hj1, hj2⟩ := List.mem_filter.mp hj
    rcases List.mem_append.mp hj1 with hj1 | hj1
    · exact q.idle j hj1
    · rw [List.mem_singleton.mp hj1] at hj2
      simp at hj2
  · intro j hj
    have := d3 j hj
    rw [e3] at this
    rcases List.mem_append.mp this with h | h
    · exact q.free j h
    · rw [List.mem_singleton.mp h]
      exact fun _ => hr
  · rw [d4, e4]

theorem run_append (w : World ε σ) (ops ops' : List (Op ε)) :
    w.run A key pid (ops ++ ops') = (w.run A key pid ops).run A key pid ops' := by simp [World.run]

theorem run_served (w : World ε σ) (n i : Nat) :
    w.run A key pid ((served n i).map .sys) =
      { w with sys := (w.sys.runs (served n i)).1, hist := w.hist ++ (w.sys.runs (served n i)).2 } := by
  simp [served, World.run, World.step, World.redis, Shared.Sys.runs]

/-- a call on a quiet node is answered. -/
theorem round {st : RedisStore} {w : World ε σ} (hr : ∃ os, (Shared.start st).runs os = (w.sys, w.hist)) {n : Nat}
    (q : Quiet w.sys n) (c : Nat) (m : Method) (hm : m ≠ .deleteAll) (p : Nat → Phase ε σ) {w' : World ε σ}
    (hw : w' = (w.call key pid c n m p).run A key pid ((served n w.sys.next).map .sys)) :
    Quiet w'.sys n ∧ w'.sys.next = w.sys.next + 1 ∧ w'.copies c = (n, p w.sys.next) ∧
    ∃ a, outcomeOf w.sys.next w'.hist = some (some a) := by
  obtain ⟨os, hos⟩ := hr
  have hd : ∀ ks, m.req key pid ≠ .delete ks := by cases m <;> simp [Method.req] at hm ⊢
  obtain ⟨⟨a, ha⟩, h2, h3⟩ := call_served (st := st) (os := os) (by rw [hos]) q hd
  rw [run_served] at hw
  have hrun : ((Shared.start st).runs (os ++ [.call n (m.req key pid)] ++ served n w.sys.next)) = (w'.sys, w'.hist) := by
    rw [Shared.runs_append, Shared.runs_snoc, hos, hw]
    rfl
  have ho := answered_outcome ha
  rw [hrun] at ho h2 h3
  refine ⟨h2, h3, ?_, a, ho⟩
  rw [hw]
  simp [World.call, World.put]

/-- a copy is started, and the two calls it makes are answered. -/
def bringUp (c n i : Nat) : List (Op ε) :=
  [.start c n] ++ (served n i).map .sys ++ [.hear c] ++ (served n (i + 1)).map .sys ++ [.hear c]

theorem asked_served (n i : Nat) : asked ((served n i).map (Op.sys (ε := ε))) = [] := rfl

theorem asked_bringUp (c n i : Nat) : asked (bringUp (ε := ε) c n i) = [] := rfl

theorem apart_bringUp (K : List String) (c n i : Nat) : Apart K (bringUp (ε := ε) c n i) := by
  intro m r h
  simp [bringUp, served] at h

include hk in
theorem brought_up {st : RedisStore} {old : Nat → ε → Prop} {B : List ε} {W : List Entry} {w : World ε σ}
    (I : Inv A key pid st old B W w) (hs1 : st (key pid "journal") = []) (hs2 : st (key pid "snapshot") = [])
    (hQ : ∀ e ∈ B, A.dec (A.enc e) = some e ∧ A.known.message (A.enc e).ptype = true)
    (hold : ∀ c e, old c e → A.dec (A.enc e) = some e) {c n : Nat} (hoff : w.Off c) (q : Quiet w.sys n) :
    ∃ s, (w.run A key pid (bringUp c n w.sys.next)).Runs c s := by
  have hB : ∀ ops : List (Op ε), asked ops = [] → ∀ e ∈ B ++ asked ops,
      A.dec (A.enc e) = some e ∧ A.known.message (A.enc e).ptype = true := by
    intro ops h e he
    rw [h, List.append_nil] at he
    exact hQ e he
  -- the latest snapshot
  have hst : w.step A key pid (.start c n) = w.call key pid c n .readLatestSnapshot .snapshot := by
    simp only [World.step, World.start]
    rw [show (w.copies c).2 = .off from hoff]
  obtain ⟨w2, hw2⟩ : ∃ w2, w2 = (w.call key pid c n .readLatestSnapshot .snapshot).run A key pid
    ((served n w.sys.next).map .sys) := ⟨_, rfl⟩
  obtain ⟨q2, n2, c2, a, ho⟩ := round I.run q c .readLatestSnapshot (by simp) .snapshot hw2
  have e2 : w2 = w.run A key pid ([.start c n] ++ (served n w.sys.next).map .sys) := by
    rw [run_append, hw2, ← hst]; rfl
  obtain ⟨W2, I2⟩ := I.steps hk hs1 hs2 hold ([.start c n] ++ (served n w.sys.next).map .sys) (hB _ rfl)
    (by intro m r h; simp [served] at h)
  rw [← e2] at I2
  have g2 := I2.good c
  rw [c2] at g2
  obtain ⟨n', hn'⟩ := g2
  have := I2.noSnapshot hs2 hn' (outcome_answered ho)
  subst this
  have hh : w2.step A key pid (.hear c) = w2.call key pid c n (.readLatestMessages 0) fun i =>
      .messages i (Journal.new pid) none := by
    simp only [World.step, World.hear, c2, Phase.waits, ho, Phase.resume, onSnapshot, List.map_nil, List.append_nil]
    rfl
  -- the messages
  obtain ⟨w4, hw4⟩ : ∃ w4, w4 = (w2.call key pid c n (.readLatestMessages 0) fun i =>
    .messages i (Journal.new pid) none).run A key pid ((served n w2.sys.next).map .sys) := ⟨_, rfl⟩
  obtain ⟨q4, n4, c4, a, ho⟩ := round I2.run q2 c (.readLatestMessages 0) (by simp)
    (fun i => .messages i (Journal.new pid) none) hw4
  have e4 : w4 = w2.run A key pid ([.hear c] ++ (served n w2.sys.next).map .sys) := by
    rw [run_append, hw4, ← hh]; rfl
  have hB2 : ∀ e ∈ (B ++ taken A key pid w ([.start c n] ++ (served n w.sys.next).map .sys)),
      A.dec (A.enc e) = some e ∧ A.known.message (A.enc e).ptype = true := by
    intro e he
    rcases List.mem_append.mp he with he | he
    · exact hQ e he
    · have := (taken_asked (A := A) (key := key) (pid := pid) _ w).subset he
      simp [asked, served] at this
  obtain ⟨W4, I4⟩ := I2.steps hk hs1 hs2 hold ([.hear c] ++ (served n w2.sys.next).map .sys) (by
      intro e he
      rw [show asked ([Op.hear c] ++ (served n w2.sys.next).map (Op.sys (ε := ε))) = [] from rfl, List.append_nil] at he
      exact hB2 e he) (by intro m r h; simp [served] at h)
  rw [← e4] at I4
  have hB4 : ∀ e ∈ (B ++ taken A key pid w ([.start c n] ++ (served n w.sys.next).map .sys)) ++
      taken A key pid w2 ([.hear c] ++ (served n w2.sys.next).map .sys),
      A.dec (A.enc e) = some e ∧ A.known.message (A.enc e).ptype = true := by
    intro e he
    rcases List.mem_append.mp he with he | he
    · exact hB2 e he
    · have := (taken_asked (A := A) (key := key) (pid := pid) _ w2).subset he
      simp [asked, served] at this
  have g4 := I4.good c
  rw [c4] at g4
  obtain ⟨j', s', h1, _⟩ := I4.reads hs1 hB4 (fun e he => by
    rcases he with he | he
    · exact hold c e he
    · exact (hB4 e (I4.wanted c e he)).1) g4 (outcome_answered ho)
  refine ⟨s', j', ?_⟩
  have e5 : w.run A key pid (bringUp c n w.sys.next) = w4.step A key pid (.hear c) := by
    rw [n2] at hw4
    unfold bringUp
    rw [run_append, run_append, run_append, ← e2, show w2.run A key pid [.hear c] = w2.step A key pid (.hear c) from rfl,
      hh, ← hw4]
    rfl
  rw [e5]
  simp only [World.step, World.hear, c4, Phase.waits, ho, Phase.resume, h1]
  simp [World.go, World.put]

end Verif.Persist.Flock
