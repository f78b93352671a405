import Verif.Chat.ChatModel

/-!
# C87: a member of a chat stream sees every message once and in order
-/

namespace Verif.Chat

/-! ## Specification -/

/-- the message said by an operation. -/
def Op.word : Op → Option Nat
  | .say m _ => some m
  | _ => none

/-- the operation is one of the peer coming or going. -/
def Op.moves : Op → Bool
  | .join => true
  | .subscribe => true
  | .leave => true
  | .sendFails => true
  | _ => false

/-- the message is stored more often than said. -/
def Op.repeats : Op → Bool
  | .say _ extra => decide (extra ≠ 0)
  | _ => false

/-- the message shown, whether from the history or as it is said. -/
def Out.msg : Out → Option Nat
  | .history m => some m
  | .live m => some m
  | .welcome => none

/-! ## Lemmas -/

theorem chat_snoc (near : Bool) (σ : Chat) (ops : List Op) (op : Op) :
    σ.run near (ops ++ [op]) = (σ.run near ops).step near op := by simp [Chat.run]

theorem chat_append (near : Bool) (σ : Chat) (a b : List Op) : σ.run near (a ++ b) = (σ.run near a).run near b := by
  simp [Chat.run]

theorem eraseIdx_perm_flying (l : List Nat) (i m : Nat) (h : l[i]? = some m) : (m :: l.eraseIdx i).Perm l := by
  induction l generalizing i with
  | nil => simp at h
  | cons a l ih =>
    cases i with
    | zero => simp at h; subst h; exact List.Perm.refl _
    | succ i =>
      simp only [List.getElem?_cons_succ] at h
      simp only [List.eraseIdx_cons_succ]
      exact (List.Perm.swap a m _).trans ((ih i h).cons a)

/-- what the stream has said and stored. -/
theorem said_step (near : Bool) (σ : Chat) (op : Op) :
    (σ.step near op).said = σ.said ++ op.word.toList := by
  cases op with
  | say m e =>
    simp only [Chat.step, Chat.say, Chat.publish, Chat.broadcast, Op.word]
    split
    · split <;> rfl
    · rfl
  | deliver i =>
    simp only [Chat.step, Chat.broadcast, Op.word]
    split
    · simp
    · split <;> simp
  | restart => simp [Chat.step, Chat.restart, Op.word]
  | join => simp only [Chat.step, Chat.join, Op.word]; split; · simp
            split <;> simp
  | subscribe => simp only [Chat.step, Chat.subscribe, Op.word]; split; · simp
                 split <;> simp
  | receive => simp only [Chat.step, Chat.receive, Op.word]; split; · simp
               split <;> simp
  | leave => simp only [Chat.step, Chat.leave, Op.word]; split; · simp
             split <;> simp
  | sendFails => simp only [Chat.step, Chat.sendFails, Op.word]; split; · simp
                 split <;> simp

theorem said_run (near : Bool) (σ : Chat) (ops : List Op) :
    (σ.run near ops).said = σ.said ++ ops.filterMap Op.word := by
  induction ops using snoc_induction with
  | nil => simp [Chat.run]
  | snoc l x ih =>
    rw [chat_snoc, said_step, ih, List.filterMap_append, List.append_assoc]
    cases x <;> rfl

theorem store_step (near : Bool) (σ : Chat) (op : Op) :
    (σ.step near op).journal = σ.journal ++ (match op with | .say m e => List.replicate (e + 1) m | _ => []) ∧
    (σ.step near op).msgs = (match op with | .say m _ => σ.msgs ++ [m] | .restart => σ.journal | _ => σ.msgs) := by
  cases op with
  | say m e =>
    simp only [Chat.step, Chat.say, Chat.publish, Chat.broadcast]
    split
    · split <;> exact ⟨rfl, rfl⟩
    · exact ⟨rfl, rfl⟩
  | deliver i =>
    simp only [Chat.step, Chat.broadcast]
    split
    · simp
    · split <;> simp
  | restart => simp [Chat.step, Chat.restart]
  | join => simp only [Chat.step, Chat.join]; split; · simp
            split <;> simp
  | subscribe => simp only [Chat.step, Chat.subscribe]; split; · simp
                 split <;> simp
  | receive => simp only [Chat.step, Chat.receive]; split; · simp
               split <;> simp
  | leave => simp only [Chat.step, Chat.leave]; split; · simp
             split <;> simp
  | sendFails => simp only [Chat.step, Chat.sendFails]; split; · simp
                 split <;> simp

/-- while the peer is a member, what is under way and what it has been given accounts for everything said. -/
structure Account (near : Bool) (σ0 σ : Chat) (said : List Nat) : Prop where
  alive : σ.dead = false
  at_ : σ.at_ = .member
  near_empty : near = true → σ.flying = σ0.flying
  /-- what has been shown since, and what waits in the mailbox. -/
  shown : ∃ arrived shown, σ.seen = σ0.seen ++ shown.map .live ∧ shown ++ σ.queue = σ0.queue ++ arrived ∧
    (near = true → arrived = said) ∧ (near = false → (arrived ++ σ.flying).Perm (σ0.flying ++ said))

theorem Account.start (near : Bool) (σ : Chat) (h1 : σ.dead = false) (h2 : σ.at_ = .member) : Account near σ σ [] :=
  ⟨h1, h2, fun _ => rfl, [], [], by simp, by simp, fun _ => rfl, fun _ => by simp⟩

theorem Account.step {near : Bool} {σ0 σ : Chat} {said : List Nat} (h : Account near σ0 σ said) (op : Op)
    (hm : op.moves = false) (hf : near = true → σ0.flying = []) : Account near σ0 (σ.step near op) (said ++ op.word.toList) := by
  obtain ⟨h1, h2, h3, arrived, shown, h4, h5, h6, h7⟩ := h
  have hsub : σ.subscribed = true := by simp [Chat.subscribed, h2]
  cases op with
  | join => cases hm
  | subscribe => cases hm
  | leave => cases hm
  | sendFails => cases hm
  | restart =>
    refine ⟨h1, h2, h3, arrived, shown, h4, h5, ?_, ?_⟩
    · simpa [Op.word] using h6
    · intro hn
      simpa [Op.word, Chat.step, Chat.restart] using h7 hn
  | say m e =>
    cases near with
    | true =>
      have hs : σ.step true (.say m e) = { σ with
          journal := σ.journal ++ List.replicate (e + 1) m, msgs := σ.msgs ++ [m], said := σ.said ++ [m]
          queue := σ.queue ++ [m] } := by
        simp [Chat.step, Chat.say, Chat.publish, Chat.broadcast, Chat.subscribed, h1, h2]
      rw [hs]
      refine ⟨h1, h2, h3, arrived ++ [m], shown, h4, ?_, ?_, ?_⟩
      · rw [← List.append_assoc, h5, List.append_assoc]
      · intro _; rw [h6 rfl]; rfl
      · intro hn; cases hn
    | false =>
      have hs : σ.step false (.say m e) = { σ with
          journal := σ.journal ++ List.replicate (e + 1) m, msgs := σ.msgs ++ [m], said := σ.said ++ [m]
          flying := σ.flying ++ [m] } := by
        simp [Chat.step, Chat.say, Chat.publish]
      rw [hs]
      refine ⟨h1, h2, (by intro hn; cases hn), arrived, shown, h4, h5, (by intro hn; cases hn), ?_⟩
      intro _
      have := (h7 rfl).append_right [m]
      simpa [Op.word] using this
  | deliver i =>
    simp only [Chat.step]
    split
    · simp only [Op.word, Option.toList, List.append_nil]
      exact ⟨h1, h2, h3, arrived, shown, h4, h5, h6, h7⟩
    · rename_i m hi
      have hs : ({ σ with flying := σ.flying.eraseIdx i } : Chat).broadcast m =
          { σ with flying := σ.flying.eraseIdx i, queue := σ.queue ++ [m] } := by
        simp [Chat.broadcast, Chat.subscribed, h1, h2]
      rw [hs]
      cases near with
      | true =>
        rw [h3 rfl, hf rfl] at hi
        simp at hi
      | false =>
        refine ⟨h1, h2, (by intro hn; cases hn), arrived ++ [m], shown, h4, ?_, (by intro hn; cases hn), ?_⟩
        · rw [← List.append_assoc, h5, List.append_assoc]
        · intro _
          simp only [Op.word, Option.toList, List.append_nil, List.append_assoc, List.singleton_append]
          exact ((eraseIdx_perm_flying _ _ _ hi).append_left arrived).trans (h7 rfl)
  | receive =>
    simp only [Chat.step, h1, Bool.false_eq_true, if_false, Op.word, Option.toList, List.append_nil]
    cases hq : σ.queue with
    | nil =>
      have hs : σ.receive = σ := by simp [Chat.receive, h2, hq]
      rw [hs]; exact ⟨h1, h2, h3, arrived, shown, h4, h5, h6, h7⟩
    | cons m q =>
      have hs : σ.receive = { σ with queue := q, seen := σ.seen ++ [.live m] } := by simp [Chat.receive, h2, hq]
      rw [hs]
      refine ⟨h1, h2, h3, arrived, shown ++ [m], ?_, ?_, h6, h7⟩
      · simp [h4]
      · rw [← h5, hq]; simp

theorem Account.run {near : Bool} {σ : Chat} (h1 : σ.dead = false) (h2 : σ.at_ = .member) (ops : List Op)
    (hm : ∀ op ∈ ops, op.moves = false) (hf : near = true → σ.flying = []) :
    Account near σ (σ.run near ops) (ops.filterMap Op.word) := by
  induction ops using snoc_induction with
  | nil => exact Account.start near σ h1 h2
  | snoc l x ih =>
    have := (ih fun op h => hm op (by simp [h])).step x (hm x (by simp)) hf
    rw [chat_snoc, List.filterMap_append]
    have e : List.filterMap Op.word [x] = x.word.toList := by cases x <;> rfl
    rw [e]
    exact this

theorem run_join (near : Bool) (σ : Chat) (h1 : σ.dead = false) (h2 : σ.at_ = .out) :
    σ.run near [.join] = { σ with at_ := .joining σ.msgs false } := by
  simp [Chat.run, Chat.step, Chat.join, h1, h2]

/-! ## Properties -/

/-- **C87.** What is in the history: everything said, in order, as long as no message had to be stored again; in any case
everything said is in the journal, in order, and what the journal has besides are repetitions. -/
theorem C87_history (near : Bool) (ops : List Op) :
    ((ops.all fun op => !op.repeats) = true → (Chat.run near {} ops).msgs = (Chat.run near {} ops).said ∧
      (Chat.run near {} ops).journal = (Chat.run near {} ops).said) ∧
    (Chat.run near {} ops).said.Sublist (Chat.run near {} ops).journal ∧
    (Chat.run near {} ops).said.Sublist (Chat.run near {} ops).msgs ∧
    ∀ m, m ∈ (Chat.run near {} ops).msgs ↔ m ∈ (Chat.run near {} ops).said := by
  have hall : ((ops.all fun op => !op.repeats) = true → (Chat.run near {} ops).msgs = (Chat.run near {} ops).said ∧
      (Chat.run near {} ops).journal = (Chat.run near {} ops).said) ∧
    (Chat.run near {} ops).said.Sublist (Chat.run near {} ops).journal ∧
    (Chat.run near {} ops).said.Sublist (Chat.run near {} ops).msgs ∧
    (∀ m, m ∈ (Chat.run near {} ops).msgs ↔ m ∈ (Chat.run near {} ops).said) ∧
    (∀ m, m ∈ (Chat.run near {} ops).journal ↔ m ∈ (Chat.run near {} ops).said) := by
    induction ops using snoc_induction with
    | nil => exact ⟨fun _ => ⟨rfl, rfl⟩, List.Sublist.refl _, List.Sublist.refl _, fun _ => Iff.rfl, fun _ => Iff.rfl⟩
    | snoc l x ih =>
      rw [chat_snoc]
      obtain ⟨hj, hms⟩ := store_step near (Chat.run near {} l) x
      have hs := said_step near (Chat.run near {} l) x
      obtain ⟨i1, i2, i3, i4, i5⟩ := ih
      generalize Chat.run near {} l = σ at *
      rw [hj, hms, hs]
      cases x with
      | say m e =>
        simp only [Op.word, Option.toList]
        refine ⟨?_, ?_, i3.append (List.Sublist.refl _), ?_, ?_⟩
        · intro h
          rw [List.all_append, Bool.and_eq_true] at h
          obtain ⟨a, b⟩ := i1 h.1
          have he : e = 0 := by simpa [Op.repeats] using h.2
          subst he
          rw [a, b]
          exact ⟨rfl, rfl⟩
        · refine i2.append ?_
          rw [List.replicate_succ]
          exact List.Sublist.cons_cons _ (List.nil_sublist _)
        · intro k; simp [i4 k]
        · intro k; simp [i5 k, List.mem_replicate]
      | restart =>
        simp only [Op.word, Option.toList, List.append_nil]
        refine ⟨?_, i2, i2, i5, i5⟩
        intro h
        rw [List.all_append, Bool.and_eq_true] at h
        exact ⟨(i1 h.1).2, (i1 h.1).2⟩
      | _ =>
        simp only [Op.word, Option.toList, List.append_nil]
        refine ⟨?_, i2, i3, i4, i5⟩
        intro h
        rw [List.all_append, Bool.and_eq_true] at h
        exact i1 h.1
  exact ⟨hall.1, hall.2.1, hall.2.2.1, hall.2.2.2.1⟩

/-- **C87.** What a member is shown, exactly: the history as it was when the stream answered, the welcome, and then, one
after the other, the messages that arrived since the subscription. For a peer on the node of the stream these are the
messages said since, in order; for a peer on another node they are, with those under way, the messages said since and the
ones that were under way when it subscribed. -/
theorem C87_shown (near : Bool) (σ : Chat) (h1 : σ.dead = false) (h2 : σ.at_ = .out) (hq : σ.queue = [])
    (hf : near = true → σ.flying = []) (mid ops : List Op) (hmid : ∀ op ∈ mid, op.moves = false)
    (hops : ∀ op ∈ ops, op.moves = false) :
    ∃ arrived shown,
      (σ.run near (.join :: mid ++ .subscribe :: ops)).seen =
        σ.seen ++ σ.msgs.map .history ++ [.welcome] ++ shown.map .live ∧
      shown ++ (σ.run near (.join :: mid ++ .subscribe :: ops)).queue = arrived ∧
      (near = true → arrived = ops.filterMap Op.word) ∧
      (near = false → (arrived ++ (σ.run near (.join :: mid ++ .subscribe :: ops)).flying).Perm
        ((σ.run near (.join :: mid)).flying ++ ops.filterMap Op.word)) := by
  -- up to the subscription nothing reaches the peer
  have hm : ∀ mid : List Op, (∀ op ∈ mid, op.moves = false) →
      (σ.run near (.join :: mid)).at_ = .joining σ.msgs false ∧ (σ.run near (.join :: mid)).seen = σ.seen ∧
      (σ.run near (.join :: mid)).queue = [] ∧ (σ.run near (.join :: mid)).dead = false ∧
      (near = true → (σ.run near (.join :: mid)).flying = []) := by
    intro mid
    induction mid using snoc_induction with
    | nil =>
      intro _
      have : σ.run near [.join] = { σ with at_ := .joining σ.msgs false } := by
        simp [Chat.run, Chat.step, Chat.join, h1, h2]
      rw [this]
      exact ⟨rfl, rfl, hq, h1, hf⟩
    | snoc l x ih =>
      intro hx
      obtain ⟨a, b, c, d, e⟩ := ih fun op h => hx op (by simp [h])
      have : σ.run near (.join :: (l ++ [x])) = (σ.run near (.join :: l)).step near x := by
        rw [← List.cons_append, chat_snoc]
      rw [this]
      have hmv := hx x (by simp)
      generalize σ.run near (.join :: l) = τ at *
      cases x with
      | join => cases hmv
      | subscribe => cases hmv
      | leave => cases hmv
      | sendFails => cases hmv
      | restart => exact ⟨a, b, c, d, e⟩
      | say m k =>
        cases near with
        | true =>
          have hs : τ.step true (.say m k) = { τ with
              journal := τ.journal ++ List.replicate (k + 1) m, msgs := τ.msgs ++ [m], said := τ.said ++ [m] } := by
            simp [Chat.step, Chat.say, Chat.publish, Chat.broadcast, Chat.subscribed, a]
          rw [hs]; exact ⟨a, b, c, d, e⟩
        | false =>
          have hs : τ.step false (.say m k) = { τ with
              journal := τ.journal ++ List.replicate (k + 1) m, msgs := τ.msgs ++ [m], said := τ.said ++ [m]
              flying := τ.flying ++ [m] } := by simp [Chat.step, Chat.say, Chat.publish]
          rw [hs]; exact ⟨a, b, c, d, (by intro hn; cases hn)⟩
      | deliver i =>
        simp only [Chat.step]
        split
        · exact ⟨a, b, c, d, e⟩
        · rename_i m hi
          have hs : ({ τ with flying := τ.flying.eraseIdx i } : Chat).broadcast m = { τ with flying := τ.flying.eraseIdx i } := by
            simp [Chat.broadcast, Chat.subscribed, a]
          rw [hs]
          refine ⟨a, b, c, d, ?_⟩
          intro hn
          rw [e hn] at hi
          simp at hi
      | receive =>
        have hs : τ.step near .receive = τ := by simp [Chat.step, Chat.receive, a]
        rw [hs]; exact ⟨a, b, c, d, e⟩
  obtain ⟨a, b, c, d, e⟩ := hm mid hmid
  have hrun : σ.run near (.join :: mid ++ .subscribe :: ops) = ((σ.run near (.join :: mid)).step near .subscribe).run near ops := by
    rw [chat_append]; rfl
  rw [hrun]
  generalize σ.run near (.join :: mid) = τ at *
  have hs : τ.step near .subscribe = { τ with at_ := .member, seen := τ.seen ++ σ.msgs.map .history ++ [.welcome] } := by
    simp [Chat.step, Chat.subscribe, a, d]
  rw [hs]
  obtain ⟨-, -, -, arrived, shown, r1, r2, r3, r4⟩ := Account.run (near := near)
    (σ := { τ with at_ := .member, seen := τ.seen ++ σ.msgs.map .history ++ [.welcome] }) d rfl ops hops e
  refine ⟨arrived, shown, ?_, ?_, r3, r4⟩
  · rw [r1]
    show τ.seen ++ _ ++ _ ++ _ = _
    rw [b]
  · rw [r2]
    show τ.queue ++ arrived = arrived
    rw [c, List.nil_append]

/-- **C87 (joining while all is quiet).** If nothing is under way when the peer asks to join and nothing is said until it
has subscribed, every message of the stream is shown to it, waits for it or is under way to it, exactly once; and for a
peer on the node of the stream also in order. -/
theorem C87_once_partial (near : Bool) (pre ops : List Op) (h1 : (Chat.run near {} pre).dead = false)
    (h2 : (Chat.run near {} pre).at_ = .out) (hq : (Chat.run near {} pre).queue = [])
    (hf : (Chat.run near {} pre).flying = []) (hr : (pre.all fun op => !op.repeats) = true)
    (hops : ∀ op ∈ ops, op.moves = false) (end_ : Chat) (he : end_ = Chat.run near {} (pre ++ .join :: .subscribe :: ops))
    (new : List Out) (hnew : end_.seen = (Chat.run near {} pre).seen ++ new) :
    (new.filterMap Out.msg ++ end_.queue ++ end_.flying).Perm end_.said ∧
    (near = true → new.filterMap Out.msg ++ end_.queue = end_.said) := by
  have hmsgs := ((C87_history near pre).1 hr).1
  obtain ⟨arrived, shown, r1, r2, r3, r4⟩ := C87_shown near (Chat.run near {} pre) h1 h2 hq (fun _ => hf) [] ops
    (by simp) hops
  have hrun : (Chat.run near {} pre).run near ([.join] ++ .subscribe :: ops) = end_ := by
    rw [he, ← chat_append]
    rfl
  rw [hrun] at r1 r2 r4
  have hsaid : end_.said = (Chat.run near {} pre).said ++ ops.filterMap Op.word := by
    rw [he, chat_append, said_run]
    rfl
  have hfly : ((Chat.run near {} pre).run near [.join]).flying = [] := by
    have : (Chat.run near {} pre).run near [.join] = { Chat.run near {} pre with at_ := .joining (Chat.run near {} pre).msgs false } := by
      exact run_join near _ h1 h2
    rw [this]; exact hf
  rw [r1, List.append_assoc, List.append_assoc, List.append_cancel_left_eq] at hnew
  have hfm : new.filterMap Out.msg = (Chat.run near {} pre).said ++ shown := by
    rw [← hnew, hmsgs]
    have f1 : ∀ l : List Nat, (l.map Out.history).filterMap Out.msg = l := by
      intro l; induction l with
      | nil => rfl
      | cons a l ih => simp only [List.map_cons, List.filterMap_cons, Out.msg, ih]
    have f2 : ∀ l : List Nat, (l.map Out.live).filterMap Out.msg = l := by
      intro l; induction l with
      | nil => rfl
      | cons a l ih => simp only [List.map_cons, List.filterMap_cons, Out.msg, ih]
    rw [List.filterMap_append, List.filterMap_append, f1, f2]
    rfl
  have hfin : near = true → new.filterMap Out.msg ++ end_.queue = end_.said := by
    intro hn
    rw [hfm, hsaid, List.append_assoc, r2, r3 hn]
  refine ⟨?_, hfin⟩
  cases hn : near with
  | true =>
    have hfe : end_.flying = [] := by
      have hmem : (((Chat.run near {} pre).run near [.join]).step near .subscribe).at_ = .member := by
        rw [run_join near _ h1 h2]
        simp [Chat.step, Chat.subscribe, h1]
      have hal : (((Chat.run near {} pre).run near [.join]).step near .subscribe).dead = false := by
        rw [run_join near _ h1 h2]
        simp [Chat.step, Chat.subscribe, h1]
      have hfl : (((Chat.run near {} pre).run near [.join]).step near .subscribe).flying = [] := by
        refine Eq.trans ?_ hfly
        simp only [Chat.step, Chat.subscribe]
        split
        · rfl
        · split <;> rfl
      have := (Account.run (near := near) hal hmem ops hops fun _ => hfl).near_empty hn
      rw [hfl] at this
      have e2 : end_ = (((Chat.run near {} pre).run near [.join]).step near .subscribe).run near ops := by
        rw [he, chat_append]; rfl
      rw [e2]; exact this
    rw [hfe, List.append_nil, hfin hn]
  | false =>
    rw [hfm, hsaid, List.append_assoc, List.append_assoc, ← List.append_assoc shown, r2]
    have := r4 hn
    rw [hfly, List.nil_append] at this
    exact this.append_left _

/-- Refuted: a member is shown every message. What is said between the answer of the stream and the subscription is
neither in the history nor received. -/
theorem C87_gap_refuted : ∃ ops, (Chat.run true {} ops).said = [1, 2, 3] ∧ (Chat.run true {} ops).queue = [] ∧
    (Chat.run true {} ops).seen = [.history 1, .welcome, .live 3] :=
  ⟨[.say 1 0, .join, .say 2 0, .subscribe, .say 3 0, .receive], by decide, by decide, by decide⟩

/-- Refuted: a member is shown each message once. A message that is in the history and still under way to the node of the
peer is shown twice. -/
theorem C87_twice_refuted : ∃ ops, (Chat.run false {} ops).said = [1] ∧
    (Chat.run false {} ops).seen = [.history 1, .welcome, .live 1] :=
  ⟨[.say 1 0, .join, .subscribe, .deliver 0, .receive], by decide, by decide⟩

/-- Refuted: members on another node are shown the messages in the order in which they were said. -/
theorem C87_order_refuted : ∃ ops, (Chat.run false {} ops).said = [1, 2] ∧
    (Chat.run false {} ops).seen = [.welcome, .live 2, .live 1] :=
  ⟨[.join, .subscribe, .say 1 0, .say 2 0, .deliver 1, .deliver 0, .receive, .receive], by decide, by decide⟩

/-- Refuted: the history has each message once. A message stored by an attempt that seemed to fail is repeated after the
stream has been started again. -/
theorem C87_repeated_refuted : ∃ ops, (Chat.run true {} ops).said = [1] ∧ (Chat.run true {} ops).msgs = [1, 1] :=
  ⟨[.say 1 1, .restart], by decide, by decide⟩

/-- Refuted: who has left is shown nothing more. -/
theorem C87_after_leaving_refuted : ∃ ops, (Chat.run true {} ops).at_ = .out ∧
    (Chat.run true {} (ops ++ [.receive])).seen ≠ (Chat.run true {} ops).seen :=
  ⟨[.join, .subscribe, .say 1 0, .leave], by decide, by decide⟩

/-- Refuted: joining twice does no harm. The whole history is shown again. -/
theorem C87_joined_twice_refuted (near : Bool) (σ : Chat) (h1 : σ.dead = false) (h2 : σ.at_ = .member) :
    (σ.run near [.join, .subscribe]).seen = σ.seen ++ σ.msgs.map .history ++ [.welcome] := by
  simp [Chat.run, Chat.step, Chat.join, Chat.subscribe, h1, h2]

/-- **C87.** A member that joins again misses nothing in between: what is said on its node while it waits for the stream
is kept for it, in order. -/
theorem C87_rejoin_keeps (σ : Chat) (h1 : σ.dead = false) (h2 : σ.at_ = .member) (hf : σ.flying = []) (mid : List Op)
    (hmid : ∀ op ∈ mid, op.moves = false) :
    (σ.run true (.join :: mid)).queue = σ.queue ++ mid.filterMap Op.word ∧
    (σ.run true (.join :: mid)).seen = σ.seen := by
  have key : ∀ mid : List Op, (∀ op ∈ mid, op.moves = false) →
      (σ.run true (.join :: mid)).at_ = .joining σ.msgs true ∧ (σ.run true (.join :: mid)).dead = false ∧
      (σ.run true (.join :: mid)).flying = [] ∧
      (σ.run true (.join :: mid)).queue = σ.queue ++ mid.filterMap Op.word ∧
      (σ.run true (.join :: mid)).seen = σ.seen := by
    intro mid
    induction mid using snoc_induction with
    | nil =>
      intro _
      have : σ.run true [.join] = { σ with at_ := .joining σ.msgs true } := by
        simp [Chat.run, Chat.step, Chat.join, h1, h2]
      rw [this]
      exact ⟨rfl, h1, hf, by simp, rfl⟩
    | snoc l x ih =>
      intro hx
      obtain ⟨a, d, f, q, s⟩ := ih fun op h => hx op (by simp [h])
      have : σ.run true (.join :: (l ++ [x])) = (σ.run true (.join :: l)).step true x := by
        rw [← List.cons_append, chat_snoc]
      rw [this]
      have hmv := hx x (by simp)
      generalize σ.run true (.join :: l) = τ at *
      rw [List.filterMap_append]
      cases x <;> simp_all [Op.moves, Op.word, Chat.step, Chat.say, Chat.publish, Chat.broadcast, Chat.subscribed,
        Chat.restart, Chat.receive]
  exact ⟨(key mid hmid).2.2.2.1, (key mid hmid).2.2.2.2⟩

example : (({ at_ := .member } : Chat).run true [.join, .say 1 0, .receive, .say 2 0]).queue = [1, 2] := by decide

/-- Refuted: a request that fails is reported to the user. It ends the peer, whatever it does afterwards. -/
theorem C87_failed_send_refuted (near : Bool) (σ : Chat) (h1 : σ.dead = false) (h2 : σ.at_ = .member) (ops : List Op) :
    (σ.run near (.sendFails :: ops)).dead = true ∧ (σ.run near (.sendFails :: ops)).seen = σ.seen := by
  have h0 : σ.run near [.sendFails] = { σ with dead := true } := by simp [Chat.run, Chat.step, Chat.sendFails, h1, h2]
  have : σ.run near (.sendFails :: ops) = (σ.run near [.sendFails]).run near ops := rfl
  rw [this, h0]
  clear this h0
  induction ops using snoc_induction with
  | nil => exact ⟨rfl, rfl⟩
  | snoc l x ih =>
    rw [chat_snoc]
    generalize Chat.run near { σ with dead := true } l = τ at *
    obtain ⟨i1, i2⟩ := ih
    cases x with
    | say m e =>
      cases near <;> simp [Chat.step, Chat.say, Chat.publish, Chat.broadcast, i1, i2]
    | deliver i =>
      simp only [Chat.step]
      split
      · exact ⟨i1, i2⟩
      · simp [Chat.broadcast, i1, i2]
    | restart => exact ⟨i1, i2⟩
    | join => simp [Chat.step, i1, i2]
    | subscribe => simp [Chat.step, i1, i2]
    | receive => simp [Chat.step, i1, i2]
    | leave => simp [Chat.step, i1, i2]
    | sendFails => simp [Chat.step, i1, i2]

/-! ## Cases -/

-- a peer elsewhere that joins while all is quiet
example : (Chat.run false {} ([.say 1 0, .deliver 0, .say 2 0, .deliver 0, .restart] ++ .join :: .subscribe ::
    [.say 3 0, .deliver 0, .receive, .say 4 0])).seen = [.history 1, .history 2, .welcome, .live 3] ∧
    (Chat.run false {} ([.say 1 0, .deliver 0, .say 2 0, .deliver 0, .restart] ++ .join :: .subscribe ::
    [.say 3 0, .deliver 0, .receive, .say 4 0])).flying = [4] := by decide
example : (Chat.run true {} [.say 1 0, .say 2 0]).at_ = .out ∧ (Chat.run true {} [.say 1 0, .say 2 0]).flying = [] := by decide

end Verif.Chat
