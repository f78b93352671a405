import Verif.Remote.PubSubModel

/-!
# C33: publish/subscribe
-/

namespace Verif.Remote

variable {M : Type}

/-! ### Specification -/

/-- what an operation publishes to a topic name and key. -/
def post1 (name key : String) : MedOp M → List M
  | .publish t m => if t.name = name ∧ t.key = key then [m] else []
  | .publishRaw n k (some m) => if n = name ∧ k = key then [m] else []
  | _ => []

/-- everything published to a topic name and key, in order. -/
def posts (name key : String) (ops : List (MedOp M)) : List M := ops.flatMap (post1 name key)

/-- the operation starts a subscription `id`. -/
def subscribes (id : Nat) : MedOp M → Bool
  | .subscribe i _ => i = id
  | _ => false

/-- the operation is a turn of the task of subscription `id`. -/
def pumps (id : Nat) : MedOp M → Bool
  | .pump i => i = id
  | _ => false

/-- the operation ends subscription `id`. -/
def unsubscribes (id : Nat) : MedOp M → Bool
  | .unsubscribe i => i = id
  | _ => false

/-! ### Lemmas -/

theorem posts_snoc (name key : String) (ops : List (MedOp M)) (op : MedOp M) :
    posts name key (ops ++ [op]) = posts name key ops ++ post1 name key op := by
  simp [posts]

theorem med_run_snoc (cap : Nat) (σ : Med M) (ops : List (MedOp M)) (op : MedOp M) :
    σ.run cap (ops ++ [op]) = (σ.run cap ops).step cap op := by simp [Med.run]

theorem med_run_append (cap : Nat) (σ : Med M) (a b : List (MedOp M)) :
    σ.run cap (a ++ b) = (σ.run cap a).run cap b := by simp [Med.run]

theorem log_insert (σ : Med M) (n n' k : String) (s : TStore M) (b : Bool) (su : Assoc Nat (Sub M)) :
    Med.log { topics := σ.topics.insert n s, subs := su, dead := b } n' k =
      if n' = n then s.chans.get k else σ.log n' k := by
  simp only [Med.log, Assoc.get_insert]
  by_cases h : n' = n <;> simp [h]

theorem get_broadcast (s : TStore M) (k k' : String) (m : M) :
    (s.broadcast k m).chans.get k' = if k' = k then (s.chans.get k').map (· ++ [m]) else s.chans.get k' := by
  simp [TStore.broadcast, Assoc.get_update]

/-- a channel only grows by what is published to it, unless the mediator has died. -/
theorem log_step (cap : Nat) (σ : Med M) (op : MedOp M) (n k : String) (l : List M)
    (h : σ.log n k = some l) :
    (σ.step cap op).log n k = some (l ++ bif (σ.step cap op).dead then [] else post1 n k op) := by
  have hget : ∃ s, σ.topics.get n = some s ∧ s.chans.get k = some l := by
    simpa [Med.log, Option.bind_eq_some_iff] using h
  obtain ⟨s, hs, hl⟩ := hget
  cases op with
  | subscribe id t =>
    simp only [Med.step]
    by_cases hd : σ.dead = true
    · simp [hd, h]
    · simp only [hd, Bool.false_eq_true, if_false]
      simp only [Med.subscribe, post1]
      by_cases ht : ((σ.topics.get t.name).getD { ty := t.ty, msgTy := t.msgTy }).ty = t.ty
      · simp only [ht, if_true]
        simp only [log_insert]
        by_cases hn : n = t.name
        · subst hn
          simp only [if_true, hs, Option.getD_some, Bool.cond_self, List.append_nil]
          unfold TStore.receiver
          rcases Option.eq_none_or_eq_some (s.chans.get t.key) with hk | ⟨x, hk⟩
          · simp only [hk, Assoc.get_insert]
            by_cases hkk : k = t.key
            · subst hkk; rw [hk] at hl; cases hl
            · simp [hkk, hl]
          · simp [hk, hl]
        · simp [hn, h]
      · simp only [ht, if_false]
        simp only [log_insert]
        by_cases hn : n = t.name
        · subst hn; simp [hs, hl]
        · simp [hn, h]
  | publish t m =>
    simp only [Med.step]
    by_cases hd : σ.dead = true
    · simp [hd, h]
    · simp only [hd, Bool.false_eq_true, if_false]
      simp only [Med.publish]
      rcases Option.eq_none_or_eq_some (σ.topics.get t.name) with ht | ⟨u, ht⟩
      · have hn : n ≠ t.name := by rintro rfl; rw [hs] at ht; cases ht
        simp [ht, h, post1, Ne.symm hn]
      · simp only [ht]
        by_cases hm : u.msgTy = t.msgTy
        · simp only [hm, if_true, hd, log_insert]
          by_cases hn : n = t.name
          · subst hn
            rw [hs] at ht; cases ht
            simp only [if_true, get_broadcast, post1]
            by_cases hk : k = t.key
            · subst hk; simp [hl]
            · simp [hk, Ne.symm hk, hl]
          · simp [hn, Ne.symm hn, h, post1]
        · simp only [hm, if_false]
          simpa [Med.log] using h
  | publishRaw n' k' m =>
    simp only [Med.step]
    by_cases hd : σ.dead = true
    · simp [hd, h]
    · simp only [hd, Bool.false_eq_true, if_false]
      cases m with
      | none => simp [Med.publishRaw, post1, h]
      | some m =>
        simp only [Med.publishRaw]
        rcases Option.eq_none_or_eq_some (σ.topics.get n') with ht | ⟨u, ht⟩
        · have hn : n ≠ n' := by rintro rfl; rw [hs] at ht; cases ht
          simp [ht, h, post1, Ne.symm hn]
        · simp only [ht, hd, log_insert]
          by_cases hn : n = n'
          · subst hn
            rw [hs] at ht; cases ht
            simp only [if_true, get_broadcast, post1]
            by_cases hk : k = k'
            · subst hk; simp [hl]
            · simp [hk, Ne.symm hk, hl]
          · simp [hn, Ne.symm hn, h, post1]
  | pump id => simpa [Med.step, Med.log, post1] using h
  | unsubscribe id => simpa [Med.step, Med.log, post1] using h

theorem dead_mono (cap : Nat) (σ : Med M) (op : MedOp M) (h : σ.dead = true) :
    (σ.step cap op).dead = true := by
  cases op <;> simp [Med.step, h]

/-- what happens to a subscription that is not started anew. -/
theorem sub_step (cap : Nat) (σ : Med M) (op : MedOp M) (id : Nat) (s : Sub M)
    (h : σ.subs.get id = some s) (hn : subscribes id op = false) :
    (σ.step cap op).subs.get id = some (if pumps id op then s.pump cap ((σ.log s.name s.key).getD [])
      else if unsubscribes id op then { s with alive := false } else s) := by
  cases op with
  | subscribe i t =>
    simp only [subscribes, decide_eq_false_iff_not] at hn
    simp only [Med.step, pumps, if_false, unsubscribes, Bool.false_eq_true]
    by_cases hd : σ.dead = true
    · simp [hd, h]
    · simp only [hd, Bool.false_eq_true, if_false, Med.subscribe]
      split
      · simp [Assoc.get_insert, Ne.symm hn, h]
      · simp [h]
  | publish t m =>
    simp only [Med.step, pumps, if_false, unsubscribes, Bool.false_eq_true, Med.publish]
    split
    · exact h
    · split
      · exact h
      · split <;> exact h
  | publishRaw n k m =>
    simp only [Med.step, pumps, if_false, unsubscribes, Bool.false_eq_true]
    split
    · exact h
    · cases m with
      | none => exact h
      | some m => simp only [Med.publishRaw]; split <;> exact h
  | pump i =>
    simp only [Med.step, Assoc.get_update, unsubscribes, pumps, decide_eq_true_eq, Bool.false_eq_true, if_false]
    by_cases hi : i = id
    · subst hi; simp [h]
    · simp [Ne.symm hi, h, hi]
  | unsubscribe i =>
    simp only [Med.step, Assoc.get_update, pumps, Bool.false_eq_true, if_false, unsubscribes, decide_eq_true_eq]
    by_cases hi : i = id
    · subst hi; simp [h]
    · simp [Ne.symm hi, h, hi]

/-- the state of a subscription relative to what was published since it started. -/
structure Follows (σ : Med M) (id : Nat) (name key : String) (p0 : Nat) (ps : List M) (L : List M) (s : Sub M) :
    Prop where
  log : σ.log name key = some L
  sub : σ.subs.get id = some s
  name : s.name = name
  key : s.key = key
  le : p0 ≤ L.length
  pos : s.pos = p0 + s.got.length
  got : s.got <+: L.drop p0
  pre : L.drop p0 <+: ps
  eq : σ.dead = false → L.drop p0 = ps

theorem prefix_snoc_of_get {α : Type} {a b : List α} {x : α} (h : a <+: b) (hx : b[a.length]? = some x) :
    a ++ [x] <+: b := by
  obtain ⟨t, rfl⟩ := h
  rw [List.getElem?_append_right (Nat.le_refl _), Nat.sub_self] at hx
  cases t with
  | nil => simp at hx
  | cons y t =>
    simp at hx; subst hx
    exact ⟨t, by simp⟩

theorem Follows.step {cap : Nat} {σ : Med M} {id : Nat} {name key : String} {p0 : Nat} {ps L : List M}
    {s : Sub M} (h : Follows σ id name key p0 ps L s) (op : MedOp M) (hn : subscribes id op = false) :
    ∃ L' s', Follows (σ.step cap op) id name key p0 (ps ++ post1 name key op) L' s' ∧
      (s'.alive = false → s.alive = false ∨ unsubscribes id op = true ∨
        (pumps id op = true ∧ s.pos + cap < L.length)) ∧ s.got <+: s'.got ∧
      (pumps id op = true → s.alive = true → s.pos + cap ≥ L.length → s'.got.length = s.got.length +
        (if s.got.length < (L.drop p0).length then 1 else 0)) := by
  have hl := log_step cap σ op name key L h.log
  have hs := sub_step cap σ op id s h.sub hn
  have hpre : ∀ x : List M, L.drop p0 <+: x → L.drop p0 <+: x ++ post1 name key op :=
    fun x hx => hx.trans (List.prefix_append _ _)
  have hlogs : ∃ L', (σ.step cap op).log name key = some L' ∧ p0 ≤ L'.length ∧
      L.drop p0 <+: L'.drop p0 ∧ L'.drop p0 <+: ps ++ post1 name key op ∧
      ((σ.step cap op).dead = false → L'.drop p0 = ps ++ post1 name key op) := by
    have hle := h.le
    have hdrop : ∀ e : List M, (L ++ e).drop p0 = L.drop p0 ++ e := fun e => by
      rw [List.drop_append_of_le_length hle]
    by_cases hd : (σ.step cap op).dead = true
    · refine ⟨L, by simpa [hd] using hl, hle, List.prefix_refl _, hpre _ h.pre, ?_⟩
      intro e; rw [hd] at e; cases e
    · have hd' : σ.dead = false := by
        cases e : σ.dead with
        | false => rfl
        | true => exact absurd (dead_mono cap σ op e) hd
      refine ⟨L ++ post1 name key op, by simpa [hd] using hl, by simp; omega, ?_, ?_, ?_⟩
      · rw [hdrop]; exact List.prefix_append _ _
      · rw [hdrop, h.eq hd']
        exact List.prefix_refl _
      · intro _; rw [hdrop, h.eq hd']
  obtain ⟨L', hL1, hL2, hL3, hL4, hL5⟩ := hlogs
  have hsame : ∀ s' : Sub M, s'.name = s.name → s'.key = s.key → s'.pos = s.pos → s'.got = s.got →
      (σ.step cap op).subs.get id = some s' →
      Follows (σ.step cap op) id name key p0 (ps ++ post1 name key op) L' s' := by
    intro s' e1 e2 e3 e4 e5
    exact ⟨hL1, e5, e1.trans h.name, e2.trans h.key, hL2, by rw [e3, e4]; exact h.pos,
      by rw [e4]; exact h.got.trans hL3, hL4, hL5⟩
  by_cases hop : pumps id op = true
  · have hop' : op = .pump id := by
      cases op <;> simp [pumps] at hop
      rw [hop]
    simp only [hop, if_true, h.name, h.key, h.log, Option.getD_some] at hs
    have hgl : s.got.length ≤ (L.drop p0).length := h.got.length_le
    by_cases ha : s.alive = true
    · by_cases hlag : s.pos + cap < L.length
      · have : s.pump cap L = { s with alive := false } := by simp [Sub.pump, ha, hlag]
        rw [this] at hs
        exact ⟨L', { s with alive := false }, hsame { s with alive := false } rfl rfl rfl rfl hs, fun _ => .inr (.inr ⟨hop, hlag⟩), List.prefix_refl _,
          fun _ _ hc => absurd hlag (by omega)⟩
      · rcases Option.eq_none_or_eq_some (L[s.pos]?) with hg | ⟨m, hg⟩
        · have : s.pump cap L = s := by simp [Sub.pump, ha, hlag, hg]
          rw [this] at hs
          refine ⟨L', _, hsame _ rfl rfl rfl rfl hs, fun e => .inl e, List.prefix_refl _, ?_⟩
          intro _ _ _
          rw [List.getElem?_eq_none_iff, h.pos] at hg
          simp only [List.length_drop]
          split
          · omega
          · omega
        · have : s.pump cap L = { s with pos := s.pos + 1, got := s.got ++ [m] } := by
            simp [Sub.pump, ha, hlag, hg]
          rw [this] at hs
          have hg' : (L.drop p0)[s.got.length]? = some m := by
            rw [List.getElem?_drop, ← h.pos]; exact hg
          refine ⟨L', _, ⟨hL1, hs, h.name, h.key, hL2, ?_, ?_, hL4, hL5⟩, ?_, ?_, ?_⟩
          · simp only [List.length_append, List.length_singleton]; rw [h.pos]; omega
          · exact (prefix_snoc_of_get h.got hg').trans hL3
          · intro e; exact .inl e
          · exact List.prefix_append _ _
          · intro _ _ _
            have : s.got.length < (L.drop p0).length := by
              rcases List.getElem?_eq_some_iff.1 hg' with ⟨hlt, _⟩; exact hlt
            simp only [this, if_true, List.length_append, List.length_singleton]
    · have : s.pump cap L = s := by simp [Sub.pump, ha]
      rw [this] at hs
      exact ⟨L', _, hsame _ rfl rfl rfl rfl hs, fun e => .inl e, List.prefix_refl _, fun _ e => absurd e ha⟩
  · simp only [hop, Bool.false_eq_true, if_false] at hs
    by_cases hu : unsubscribes id op = true
    · simp only [hu, if_true] at hs
      exact ⟨L', { s with alive := false }, hsame { s with alive := false } rfl rfl rfl rfl hs, fun _ => .inr (.inl hu), List.prefix_refl _, fun e => absurd e hop⟩
    · simp only [hu, Bool.false_eq_true, if_false] at hs
      exact ⟨L', _, hsame _ rfl rfl rfl rfl hs, fun e => .inl e, List.prefix_refl _, fun e => absurd e hop⟩

/-- a subscription that is accepted. -/
theorem Follows.start {σ : Med M} {id : Nat} {t : TopicRef} (hd : σ.dead = false) (cap : Nat)
    (hok : (σ.subscribe id t).2 = true) :
    ∃ p0 L, Follows (σ.step cap (.subscribe id t)) id t.name t.key p0 [] L
      { name := t.name, key := t.key, pos := p0 } := by
  have hstep : σ.step cap (.subscribe id t) = (σ.subscribe id t).1 := by simp [Med.step, hd]
  rw [hstep]
  unfold Med.subscribe at hok ⊢
  by_cases ht : ((σ.topics.get t.name).getD { ty := t.ty, msgTy := t.msgTy }).ty = t.ty
  · simp only [ht, if_true]
    generalize hs : (σ.topics.get t.name).getD { ty := t.ty, msgTy := t.msgTy } = s
    unfold TStore.receiver
    rcases Option.eq_none_or_eq_some (s.chans.get t.key) with hk | ⟨l, hk⟩
    · simp only [hk]
      refine ⟨0, [], ⟨?_, by simp [Assoc.get_insert], rfl, rfl, by simp, by simp, by simp, by simp, by simp⟩⟩
      rw [log_insert]; simp [Assoc.get_insert]
    · simp only [hk]
      refine ⟨l.length, l, ⟨?_, by simp [Assoc.get_insert], rfl, rfl, by simp, by simp, by simp, by simp, by simp⟩⟩
      rw [log_insert]; simp [hk]
  · simp [ht] at hok

theorem Follows.run {cap : Nat} {σ : Med M} {id : Nat} {name key : String} {p0 : Nat} {L : List M}
    {s : Sub M} (h : Follows σ id name key p0 [] L s) (ops : List (MedOp M))
    (hn : ∀ op ∈ ops, subscribes id op = false) :
    ∃ L' s', Follows (σ.run cap ops) id name key p0 (posts name key ops) L' s' := by
  induction ops using snoc_induction with
  | nil => exact ⟨L, s, h⟩
  | snoc ops op ih =>
    obtain ⟨L', s', h'⟩ := ih (fun o ho => hn o (by simp [ho]))
    obtain ⟨L'', s'', h'', _⟩ := h'.step (cap := cap) op (hn op (by simp))
    rw [med_run_snoc, posts_snoc]
    exact ⟨L'', s'', h''⟩

/-! ### Theorems -/

/-- **C33 (safety).** What a subscriber has received is a prefix of what was published to its topic
and key since it subscribed: in order, nothing twice, nothing left out in between, nothing of another
topic - whatever else happens, and however fast it receives. -/
theorem C33_prefix (cap : Nat) (σ : Med M) (id : Nat) (t : TopicRef) (ops : List (MedOp M))
    (hd : σ.dead = false) (hok : (σ.subscribe id t).2 = true) (hn : ∀ op ∈ ops, subscribes id op = false) :
    ∃ s, (σ.run cap (.subscribe id t :: ops)).subs.get id = some s ∧ s.got <+: posts t.name t.key ops := by
  obtain ⟨p0, L, h⟩ := Follows.start hd cap hok
  obtain ⟨L', s', h'⟩ := h.run (cap := cap) ops hn
  exact ⟨s', h'.sub, h'.got.trans h'.pre⟩

/-- **C33.** A subscription is accepted if all topics of that name have the same type. -/
theorem C33_accepted (σ : Med M) (id : Nat) (t : TopicRef) :
    (σ.subscribe id t).2 = true ↔ ∀ s, σ.topics.get t.name = some s → s.ty = t.ty := by
  unfold Med.subscribe
  rcases Option.eq_none_or_eq_some (σ.topics.get t.name) with ht | ⟨s, ht⟩
  · simp [ht]
  · simp only [ht, Option.getD_some, Option.some.injEq]
    by_cases h : s.ty = t.ty <;> simp [h]

/-- what the subscriber `id` has received. -/
def Med.received (σ : Med M) (id : Nat) : List M := ((σ.subs.get id).map (·.got)).getD []

/-- **C33 (completeness).** A subscriber that never falls more than `cap` (1024) messages behind, and
stays subscribed, receives everything: after enough further turns of its task it has received exactly
what was published. -/
theorem C33_complete_partial (cap : Nat) (σ : Med M) (id : Nat) (t : TopicRef) (ops : List (MedOp M))
    (hok : (σ.subscribe id t).2 = true)
    (hn : ∀ op ∈ ops, subscribes id op = false) (hu : ∀ op ∈ ops, unsubscribes id op = false)
    (hd : (σ.run cap (.subscribe id t :: ops)).dead = false)
    (hlag : ∀ a b, ops = a ++ b →
      (posts t.name t.key a).length ≤ ((σ.run cap (.subscribe id t :: a)).received id).length + cap) :
    ∃ k, ∀ k' ≥ k, (σ.run cap (.subscribe id t :: ops ++ List.replicate k' (.pump id))).received id =
      posts t.name t.key ops := by
  have hd0 : σ.dead = false := by
    cases e : σ.dead with
    | false => rfl
    | true =>
      have : ∀ (l : List (MedOp M)) (τ : Med M), τ.dead = true → (τ.run cap l).dead = true := by
        intro l
        induction l with
        | nil => intro τ h; exact h
        | cons o l ih => intro τ h; exact ih _ (dead_mono cap τ o h)
      rw [this _ σ e] at hd; cases hd
  obtain ⟨p0, L0, h0⟩ := Follows.start hd0 cap hok
  -- the subscription is alive after `ops`
  have halive : ∃ L s, Follows (σ.run cap (.subscribe id t :: ops)) id t.name t.key p0
      (posts t.name t.key ops) L s ∧ s.alive = true := by
    clear hd
    induction ops using snoc_induction with
    | nil => exact ⟨L0, _, h0, rfl⟩
    | snoc ops op ih =>
      obtain ⟨L, s, h, ha⟩ := ih (fun o ho => hn o (by simp [ho])) (fun o ho => hu o (by simp [ho]))
        (fun a b e => hlag a (b ++ [op]) (by rw [e]; simp))
      obtain ⟨L', s', h', hx, _⟩ := h.step (cap := cap) op (hn op (by simp))
      refine ⟨L', s', ?_, ?_⟩
      · rw [← List.cons_append, med_run_snoc, posts_snoc]; exact h'
      · cases e : s'.alive with
        | true => rfl
        | false =>
          rcases hx e with hx | hx | ⟨_, hx⟩
          · rw [ha] at hx; cases hx
          · rw [hu op (by simp)] at hx; cases hx
          · have h1 := hlag ops [op] rfl
            have h2 := h.pre.length_le
            have h3 := h.le
            have h4 := h.pos
            simp only [Med.received, h.sub, Option.map_some, Option.getD_some] at h1
            rw [List.length_drop] at h2
            omega
  obtain ⟨L, s, h, ha⟩ := halive
  have hfin := hlag ops [] (by simp)
  simp only [Med.received, h.sub, Option.map_some, Option.getD_some] at hfin
  -- pumping from here
  have key : ∀ k, ∃ s', Follows (σ.run cap (.subscribe id t :: ops ++ List.replicate k (.pump id))) id t.name t.key p0
      (posts t.name t.key ops) L s' ∧ s'.alive = true ∧
      s'.got.length = min (s.got.length + k) (posts t.name t.key ops).length ∧
      (σ.run cap (.subscribe id t :: ops ++ List.replicate k (.pump id))).dead = false := by
    intro k
    have hLe : L.drop p0 = posts t.name t.key ops := h.eq hd
    induction k with
    | zero =>
      refine ⟨s, by simpa using h, ha, ?_, by simpa using hd⟩
      have := h.got.length_le
      rw [hLe] at this
      omega
    | succ k ih =>
      obtain ⟨s1, h1, ha1, hl1, hd1⟩ := ih
      obtain ⟨L', s', h', hx, _, hcount⟩ := h1.step (cap := cap) (.pump id) rfl
      have hpump : pumps id (MedOp.pump id : MedOp M) = true := by simp [pumps]
      rw [List.replicate_succ', ← List.append_assoc, med_run_snoc]
      have hdd : ((σ.run cap (.subscribe id t :: ops ++ List.replicate k (.pump id))).step cap (.pump id)).dead = false := by
        simpa [Med.step] using hd1
      have hlogeq : ((σ.run cap (.subscribe id t :: ops ++ List.replicate k (.pump id))).step cap
          (.pump id)).log t.name t.key = some L := by
        have := h1.log
        simpa [Med.step, Med.log] using this
      have hLL : L' = L := by
        have := h'.log
        rw [hlogeq] at this; cases this; rfl
      subst hLL
      have hlagk : s1.pos + cap ≥ L'.length := by
        have h3 := h.le
        have h4 := h1.pos
        have h5 := congrArg List.length hLe
        rw [List.length_drop] at h5
        have := h.got.length_le
        omega
      have hgl := h1.got.length_le
      have hc := hcount hpump ha1 hlagk
      rw [hLe] at hc hgl
      refine ⟨s', by simpa [post1] using h', ?_, ?_, hdd⟩
      · cases e : s'.alive with
        | true => rfl
        | false =>
          rcases hx e with hx | hx | ⟨_, hx⟩
          · rw [ha1] at hx; cases hx
          · simp [unsubscribes] at hx
          · omega
      · rw [hc, hl1]
        split <;> omega
  refine ⟨(posts t.name t.key ops).length, ?_⟩
  intro k' hk'
  obtain ⟨s', h', _, hl, hdd⟩ := key k'
  simp only [Med.received, h'.sub, Option.map_some, Option.getD_some]
  have hp : s'.got <+: posts t.name t.key ops := h'.got.trans h'.pre
  exact hp.eq_of_length (by omega)

/-- topics of the same name have the same types. -/
def refsOf : MedOp M → List TopicRef
  | .subscribe _ t => [t]
  | .publish t _ => [t]
  | _ => []

/-- **C33.** The mediator does not die if topics of the same name have the same message type. -/
theorem C33_alive (cap : Nat) (ops : List (MedOp M))
    (hc : ∀ t ∈ ops.flatMap refsOf, ∀ t' ∈ ops.flatMap refsOf, t.name = t'.name → t.msgTy = t'.msgTy) :
    (({} : Med M).run cap ops).dead = false := by
  suffices h : (({} : Med M).run cap ops).dead = false ∧ ∀ n s, (({} : Med M).run cap ops).topics.get n = some s →
      ∃ t ∈ ops.flatMap refsOf, t.name = n ∧ t.msgTy = s.msgTy from h.1
  induction ops using snoc_induction with
  | nil => exact ⟨rfl, by simp [Med.run]⟩
  | snoc ops op ih =>
    have ih := ih (fun t ht t' ht' => hc t (by simp at ht ⊢; exact .inl ht) t' (by simp at ht' ⊢; exact .inl ht'))
    obtain ⟨hd, ht⟩ := ih
    rw [med_run_snoc]
    generalize ({} : Med M).run cap ops = σ at *
    have hkeep : ∀ n (s : TStore M), σ.topics.get n = some s →
        ∃ t ∈ (ops ++ [op]).flatMap refsOf, t.name = n ∧ t.msgTy = s.msgTy := by
      intro n s hs
      obtain ⟨t, h1, h2⟩ := ht n s hs
      exact ⟨t, by rw [List.flatMap_append]; exact List.mem_append_left _ h1, h2⟩
    cases op with
    | subscribe id t =>
      simp only [Med.step, hd, Bool.false_eq_true, if_false, Med.subscribe]
      have hrec : ∀ (s : TStore M) (k : String), (s.receiver k).1.msgTy = s.msgTy := by
        intro s k; unfold TStore.receiver; split <;> rfl
      have hmine : ∀ s : TStore M, s.msgTy = ((σ.topics.get t.name).getD ⟨t.ty, t.msgTy, []⟩).msgTy →
          ∃ t' ∈ (ops ++ [MedOp.subscribe id t]).flatMap refsOf, t'.name = t.name ∧ t'.msgTy = s.msgTy := by
        intro s hs
        rcases Option.eq_none_or_eq_some (σ.topics.get t.name) with hg | ⟨u, hg⟩
        · refine ⟨t, by simp [refsOf], rfl, ?_⟩
          rw [hs, hg]; rfl
        · obtain ⟨t', h1, h2, h3⟩ := hkeep _ u hg
          refine ⟨t', h1, h2, ?_⟩
          rw [hs, hg, h3]; rfl
      split
      · refine ⟨rfl, ?_⟩
        intro n s hs
        simp only [Assoc.get_insert] at hs
        by_cases hn : n = t.name
        · subst hn
          simp only [if_true, Option.some.injEq] at hs
          exact hmine s (by rw [← hs, hrec])
        · simp only [hn, if_false] at hs
          exact hkeep n s hs
      · refine ⟨rfl, ?_⟩
        intro n s hs
        simp only [Assoc.get_insert] at hs
        by_cases hn : n = t.name
        · subst hn
          simp only [if_true, Option.some.injEq] at hs
          exact hmine s (by rw [← hs])
        · simp only [hn, if_false] at hs
          exact hkeep n s hs
    | publish t m =>
      simp only [Med.step, hd, Bool.false_eq_true, if_false, Med.publish]
      split
      · exact ⟨hd, hkeep⟩
      · rename_i s hs
        have : s.msgTy = t.msgTy := by
          obtain ⟨t', h1, h2, h3⟩ := hkeep _ s hs
          rw [← h3]
          exact hc t' h1 t (by simp [refsOf]) h2
        simp only [this, if_true]
        refine ⟨trivial, ?_⟩
        intro n u hu
        simp only [Assoc.get_insert] at hu
        by_cases hn : n = t.name
        · subst hn
          simp only [if_true, Option.some.injEq] at hu
          obtain ⟨t', h1, h2, h3⟩ := hkeep _ s hs
          exact ⟨t', h1, h2, by rw [h3, ← hu]; rfl⟩
        · simp only [hn, if_false] at hu
          exact hkeep n u hu
    | publishRaw n' k' m =>
      simp only [Med.step, hd, Bool.false_eq_true, if_false]
      cases m with
      | none => exact ⟨hd, hkeep⟩
      | some m =>
        simp only [Med.publishRaw]
        split
        · exact ⟨hd, hkeep⟩
        · rename_i s hs
          refine ⟨hd, ?_⟩
          intro n u hu
          simp only [Assoc.get_insert] at hu
          by_cases hn : n = n'
          · subst hn
            simp only [if_true, Option.some.injEq] at hu
            obtain ⟨t', h1, h2, h3⟩ := hkeep _ s hs
            exact ⟨t', h1, h2, by rw [h3, ← hu]; rfl⟩
          · simp only [hn, if_false] at hu
            exact hkeep n u hu
    | pump id => exact ⟨hd, hkeep⟩
    | unsubscribe id => exact ⟨hd, hkeep⟩

/-- **C33.** Nothing is received after unsubscribing. -/
theorem C33_unsubscribed (cap : Nat) (σ : Med M) (id : Nat) (ops : List (MedOp M))
    (hn : ∀ op ∈ ops, subscribes id op = false) :
    (σ.run cap (.unsubscribe id :: ops)).received id = σ.received id := by
  suffices h : ∀ s, σ.subs.get id = some s → ∃ s', (σ.run cap (.unsubscribe id :: ops)).subs.get id = some s' ∧
      s'.alive = false ∧ s'.got = s.got by
    rcases Option.eq_none_or_eq_some (σ.subs.get id) with hg | ⟨s, hg⟩
    · have : (σ.run cap (.unsubscribe id :: ops)).subs.get id = none := by
        clear h
        induction ops using snoc_induction with
        | nil => simp [Med.run, Med.step, Assoc.get_update, hg]
        | snoc ops op ih =>
          have ih := ih (fun o ho => hn o (by simp [ho]))
          have := hn op (by simp)
          rw [← List.cons_append, med_run_snoc]
          generalize σ.run cap (.unsubscribe id :: ops) = τ at *
          cases op with
          | subscribe i t =>
            simp only [subscribes, decide_eq_false_iff_not] at this
            simp only [Med.step, Med.subscribe]
            split
            · exact ih
            · split <;> simp [Assoc.get_insert, Ne.symm this, ih]
          | publish t m => simp only [Med.step, Med.publish]; (repeat' split) <;> exact ih
          | publishRaw n k m =>
            simp only [Med.step]
            split
            · exact ih
            · cases m with
              | none => exact ih
              | some m => simp only [Med.publishRaw]; split <;> exact ih
          | pump i => simp [Med.step, Assoc.get_update, ih]
          | unsubscribe i => simp [Med.step, Assoc.get_update, ih]
      simp [Med.received, this, hg]
    · obtain ⟨s', h1, _, h2⟩ := h s hg
      simp [Med.received, h1, hg, h2]
  intro s hg
  induction ops using snoc_induction with
  | nil => exact ⟨{ s with alive := false }, by simp [Med.run, Med.step, Assoc.get_update, hg], rfl, rfl⟩
  | snoc ops op ih =>
    obtain ⟨s', h1, h2, h3⟩ := ih (fun o ho => hn o (by simp [ho]))
    have hstep := sub_step cap (σ.run cap (.unsubscribe id :: ops)) op id s' h1 (hn op (by simp))
    rw [← List.cons_append, med_run_snoc, hstep]
    refine ⟨_, rfl, ?_⟩
    split
    · simp [Sub.pump, h2, h3]
    · split
      · exact ⟨rfl, h3⟩
      · exact ⟨h2, h3⟩

/-! ### What goes wrong -/

/-- The claim without a limit on how far a subscriber may fall behind: once published, everything is
received after enough turns. The code has `cap = 1024`. -/
def C33_full (cap : Nat) : Prop := ∀ (ops : List (MedOp Nat)) (t : TopicRef),
  (∀ op ∈ ops, subscribes 0 op = false) → (∀ op ∈ ops, unsubscribes 0 op = false) →
  (({} : Med Nat).run cap (.subscribe 0 t :: ops)).dead = false →
  ∃ k, (({} : Med Nat).run cap (.subscribe 0 t :: ops ++ List.replicate k (.pump 0))).received 0 =
    posts t.name t.key ops

/-- what many publications do. -/
theorem run_publish_many (cap : Nat) (σ : Med M) (t : TopicRef) (m : M) (k : Nat) (s : TStore M) (l : List M)
    (hd : σ.dead = false) (hs : σ.topics.get t.name = some s) (hm : s.msgTy = t.msgTy)
    (hl : s.chans.get t.key = some l) :
    (σ.run cap (List.replicate k (.publish t m))).log t.name t.key = some (l ++ List.replicate k m) ∧
    (σ.run cap (List.replicate k (.publish t m))).subs = σ.subs ∧
    (σ.run cap (List.replicate k (.publish t m))).dead = false ∧
    ∃ s', (σ.run cap (List.replicate k (.publish t m))).topics.get t.name = some s' ∧ s'.msgTy = t.msgTy := by
  induction k with
  | zero => exact ⟨by simp [Med.run, Med.log, hs, hl], rfl, hd, s, hs, hm⟩
  | succ k ih =>
    obtain ⟨h1, h2, h3, s', h4, h5⟩ := ih
    rw [List.replicate_succ', med_run_snoc]
    generalize σ.run cap (List.replicate k (.publish t m)) = τ at *
    have hstep : τ.step cap (.publish t m) =
        { τ with topics := τ.topics.insert t.name (s'.broadcast t.key m) } := by
      simp [Med.step, h3, Med.publish, h4, h5]
    have hdead : (τ.step cap (.publish t m)).dead = false := by rw [hstep]; exact h3
    refine ⟨?_, ?_, hdead, ?_⟩
    · rw [log_step cap τ _ _ _ _ h1, hdead]
      simp [post1, List.replicate_succ']
    · rw [hstep]; exact h2
    · rw [hstep]
      exact ⟨s'.broadcast t.key m, by simp [Assoc.get_insert], h5⟩

/-- **C33 refuted (slow subscribers).** A subscriber that falls more than `cap` behind receives nothing
of it, and nothing ever again: its task has ended without notice. -/
theorem C33_lag_refuted (cap k : Nat) (t : TopicRef) (m : M) (hk : cap < k) (ops : List (MedOp M))
    (hn : ∀ op ∈ ops, subscribes 0 op = false) :
    (({} : Med M).run cap (.subscribe 0 t :: List.replicate k (.publish t m) ++ .pump 0 :: ops)).received 0 = [] := by
  have hsub : ({} : Med M).step cap (.subscribe 0 t) =
      { topics := [(t.name, { ty := t.ty, msgTy := t.msgTy, chans := [(t.key, [])] })]
        subs := [(0, { name := t.name, key := t.key, pos := 0 })], dead := false } := by
    simp [Med.step, Med.subscribe, TStore.receiver, Assoc.insert, Assoc.erase]
  obtain ⟨h1, h2, h3, _⟩ := run_publish_many cap (({} : Med M).step cap (.subscribe 0 t)) t m k
    { ty := t.ty, msgTy := t.msgTy, chans := [(t.key, [])] } [] (by rw [hsub]) (by rw [hsub]; simp [Assoc.get])
    rfl (by simp [Assoc.get])
  have e : (({} : Med M).run cap (.subscribe 0 t :: List.replicate k (.publish t m) ++ .pump 0 :: ops)) =
      (((({} : Med M).step cap (.subscribe 0 t)).run cap (List.replicate k (.publish t m))).step cap (.pump 0)).run cap ops := by
    simp [Med.run]
  rw [e]
  generalize (({} : Med M).step cap (.subscribe 0 t)).run cap (List.replicate k (.publish t m)) = τ at *
  have hs : τ.subs.get 0 = some { name := t.name, key := t.key, pos := 0 } := by
    rw [h2, hsub]; simp [Assoc.get]
  have hp : (τ.step cap (.pump 0)) = τ.step cap (.unsubscribe 0) := by
    have h2' : τ.subs = [(0, { name := t.name, key := t.key, pos := 0 })] := by rw [h2, hsub]
    simp only [Med.step, h2', Assoc.update, List.map_cons, List.map_nil, if_true]
    simp [h1, Sub.pump, hk]
  rw [hp]
  have := C33_unsubscribed cap τ 0 ops hn
  have e2 : (τ.step cap (.unsubscribe 0)).run cap ops = τ.run cap (.unsubscribe 0 :: ops) := rfl
  rw [e2, this]
  simp [Med.received, hs]

theorem C33_refuted (cap : Nat) : ¬ C33_full cap := by
  intro hf
  let t : TopicRef := ⟨0, "t", 0, ""⟩
  have hrep : ∀ op ∈ List.replicate (cap + 1) (MedOp.publish t 7), op = MedOp.publish t 7 :=
    fun op ho => (List.mem_replicate.1 ho).2
  have hstart : ({} : Med Nat).step cap (.subscribe 0 t) =
      { topics := [("t", { ty := 0, msgTy := 0, chans := [("", [])] })]
        subs := [(0, { name := "t", key := "", pos := 0 })], dead := false } := rfl
  obtain ⟨_, h2, h3, _⟩ := run_publish_many cap (({} : Med Nat).step cap (.subscribe 0 t)) t 7 (cap + 1)
    { ty := 0, msgTy := 0, chans := [("", [])] } [] rfl rfl rfl rfl
  obtain ⟨k, hk⟩ := hf (List.replicate (cap + 1) (.publish t 7)) t
    (fun op ho => by rw [hrep op ho]; rfl) (fun op ho => by rw [hrep op ho]; rfl) h3
  have hposts : posts t.name t.key (List.replicate (cap + 1) (MedOp.publish t 7)) ≠ [] := by
    rw [List.replicate_succ]
    simp [posts, post1]
  apply hposts
  rw [← hk]
  cases k with
  | zero =>
    have e : ({} : Med Nat).run cap (.subscribe 0 t :: List.replicate (cap + 1) (.publish t 7) ++
        List.replicate 0 (.pump 0)) = (({} : Med Nat).step cap (.subscribe 0 t)).run cap
          (List.replicate (cap + 1) (.publish t 7)) := by
      rw [List.replicate_zero, List.append_nil]; rfl
    rw [e]
    unfold Med.received
    rw [h2]
    rfl
  | succ k =>
    have hp := C33_lag_refuted (M := Nat) cap (cap + 1) t 7 (by omega) (List.replicate k (.pump 0))
      (by intro op ho; rw [List.mem_replicate] at ho; rw [ho.2]; rfl)
    rw [List.replicate_succ (n := k)]
    exact hp

/-- **C33 refuted (unsubscribing).** What was published before unsubscribing is lost if the task has not
passed it on yet. -/
theorem C33_unsubscribe_refuted :
    let t : TopicRef := ⟨0, "t", 0, ""⟩
    (({} : Med Nat).run 1024 [.subscribe 0 t, .publish t 7, .unsubscribe 0, .pump 0]).received 0 = [] := by decide

/-- **C33 refuted (same name).** Publishing to a topic whose name is also used by a topic with another
message type ends the mediator; nothing is delivered to anyone from then on. -/
theorem C33_name_clash_refuted :
    let t : TopicRef := ⟨0, "t", 0, ""⟩
    let u : TopicRef := ⟨1, "t", 1, ""⟩
    let σ := ({} : Med Nat).run 1024 [.subscribe 0 t, .publish u 7, .publish t 8, .pump 0]
    σ.dead = true ∧ σ.received 0 = [] := by decide

/-! ### Across nodes -/

/-- what a mesh operation sends to the other node. -/
def Mesh.sent (σ : Mesh M) : MeshOp M → List (String × String × M)
  | .publish t m => if !σ.here.dead && !(σ.here.publish t m).dead && σ.knows then [(t.name, t.key, m)] else []
  | _ => []

/-- what a mesh operation hands to the other mediator. -/
def Mesh.handed (σ : Mesh M) : MeshOp M → List (String × String × M)
  | .deliver i => σ.flying[i]?.toList
  | _ => []

def Mesh.sentAll (cap : Nat) : Mesh M → List (MeshOp M) → List (String × String × M)
  | _, [] => []
  | σ, op :: ops => σ.sent op ++ (σ.step cap op).sentAll cap ops

def Mesh.handedAll (cap : Nat) : Mesh M → List (MeshOp M) → List (String × String × M)
  | _, [] => []
  | σ, op :: ops => σ.handed op ++ (σ.step cap op).handedAll cap ops

theorem eraseIdx_perm {α : Type} (l : List α) (i : Nat) (h : i < l.length) : (l[i] :: l.eraseIdx i).Perm l := by
  induction l generalizing i with
  | nil => simp at h
  | cons a l ih =>
    cases i with
    | zero => simp
    | succ i =>
      simp only [List.length_cons, Nat.add_lt_add_iff_right] at h
      simp only [List.getElem_cons_succ, List.eraseIdx_cons_succ]
      exact (List.Perm.swap _ _ _).trans ((ih i h).cons a)

/-- **C33 (cluster).** Every message published to the cluster while the other node is known is handed to
that node exactly once (or is still under way), in some order. -/
theorem C33_cluster_once_partial (cap : Nat) (σ : Mesh M) (ops : List (MeshOp M)) :
    (σ.handedAll cap ops ++ (σ.run cap ops).flying).Perm (σ.flying ++ σ.sentAll cap ops) := by
  induction ops generalizing σ with
  | nil => simp [Mesh.handedAll, Mesh.sentAll, Mesh.run]
  | cons op ops ih =>
    have ih := ih (σ.step cap op)
    have hrun : σ.run cap (op :: ops) = (σ.step cap op).run cap ops := rfl
    rw [hrun]
    simp only [Mesh.handedAll, Mesh.sentAll, List.append_assoc]
    have hstep : (σ.handed op ++ (σ.step cap op).flying).Perm (σ.flying ++ σ.sent op) := by
      cases op with
      | here o => simp [Mesh.handed, Mesh.sent, Mesh.step]
      | there o => simp [Mesh.handed, Mesh.sent, Mesh.step]
      | publish t m =>
        simp only [Mesh.handed, Mesh.sent, Mesh.step, List.nil_append]
        by_cases h1 : σ.here.dead = true
        · simp [h1]
        · by_cases h2 : (σ.here.publish t m).dead = true
          · simp [h1, h2]
          · by_cases h3 : σ.knows = true
            · simp [h1, h2, h3]
            · simp [h1, h2, h3]
      | deliver i =>
        simp only [Mesh.handed, Mesh.sent, Mesh.step, List.append_nil]
        rcases Option.eq_none_or_eq_some (σ.flying[i]?) with hi | ⟨⟨n, k, m⟩, hi⟩
        · simp [hi]
        · simp only [hi, Option.toList_some, List.singleton_append]
          obtain ⟨hlt, he⟩ := List.getElem?_eq_some_iff.1 hi
          rw [← he]
          exact eraseIdx_perm _ _ hlt
      | added => simp [Mesh.handed, Mesh.sent, Mesh.step]
      | removed => simp [Mesh.handed, Mesh.sent, Mesh.step]
    calc σ.handed op ++ ((σ.step cap op).handedAll cap ops ++ ((σ.step cap op).run cap ops).flying)
        |>.Perm (σ.handed op ++ ((σ.step cap op).flying ++ (σ.step cap op).sentAll cap ops)) := ih.append_left _
      _ |>.Perm ((σ.flying ++ σ.sent op) ++ (σ.step cap op).sentAll cap ops) := by
        rw [← List.append_assoc]; exact hstep.append_right _
      _ = _ := by rw [List.append_assoc]

/-- **C33 refuted (cluster order).** Each publication is sent by its own task: a subscriber on another
node may receive two messages of one publisher in the wrong order. -/
theorem C33_cluster_order_refuted :
    let t : TopicRef := ⟨0, "t", 0, ""⟩
    let σ := ({} : Mesh Nat).run 1024 [.added, .there (.subscribe 0 t), .publish t 1, .publish t 2,
      .deliver 1, .deliver 0, .there (.pump 0), .there (.pump 0)]
    σ.there.received 0 = [2, 1] := by decide

/-! Concrete cases. -/
example : let t : TopicRef := ⟨0, "t", 0, ""⟩
    let u : TopicRef := ⟨0, "t", 0, "k"⟩
    let ops : List (MedOp Nat) := [.publish t 1, .pump 0, .publish u 9, .publish t 2, .publish t 3, .pump 0, .pump 0]
    (({} : Med Nat).run 2 (.publish t 0 :: .subscribe 0 t :: ops)).received 0 = [1, 2, 3] ∧
    posts "t" "" ops = [1, 2, 3] := by decide

/-- what a mesh operation is on the publishing node itself. -/
def MeshOp.atHere : MeshOp M → Option (MedOp M)
  | .here op => some op
  | .publish t m => some (.publish t m)
  | _ => none

/-- what a mesh operation is on the other node. -/
def Mesh.atThere (σ : Mesh M) : MeshOp M → Option (MedOp M)
  | .there op => some op
  | .deliver i => σ.flying[i]?.map fun f => .publishRaw f.1 f.2.1 (some f.2.2)
  | _ => none

def Mesh.atThereAll (cap : Nat) : Mesh M → List (MeshOp M) → List (MedOp M)
  | _, [] => []
  | σ, op :: ops => (σ.atThere op).toList ++ (σ.step cap op).atThereAll cap ops

/-- **C33 (cluster).** Publishing to the cluster is, on the publishing node, publishing there: nothing the
other node does or fails to do changes what subscribers on the publishing node see. -/
theorem C33_cluster_here (cap : Nat) (σ : Mesh M) (ops : List (MeshOp M)) :
    (σ.run cap ops).here = σ.here.run cap (ops.filterMap MeshOp.atHere) := by
  induction ops generalizing σ with
  | nil => rfl
  | cons op ops ih =>
    show ((σ.step cap op).run cap ops).here = _
    rw [ih]
    have hs : (σ.step cap op).here = σ.here.run cap op.atHere.toList := by
      cases op with
      | here o => rfl
      | there o => rfl
      | publish t m =>
        simp only [Mesh.step, MeshOp.atHere, Option.toList_some, Med.run, List.foldl_cons, List.foldl_nil, Med.step]
        by_cases h : σ.here.dead = true
        · simp [h]
        · simp only [h]
          simp only [Bool.false_eq_true, if_false]
          split
          · rfl
          · split <;> rfl
      | deliver i => simp only [Mesh.step]; split <;> rfl
      | added => rfl
      | removed => rfl
    rw [hs]
    cases ho : op.atHere <;> simp [List.filterMap_cons, ho, Med.run]

/-- **C33 (cluster).** The other node sees its own operations and the messages handed to it, as if they
had been published there, and nothing else. -/
theorem C33_cluster_there (cap : Nat) (σ : Mesh M) (ops : List (MeshOp M)) :
    (σ.run cap ops).there = σ.there.run cap (σ.atThereAll cap ops) := by
  induction ops generalizing σ with
  | nil => rfl
  | cons op ops ih =>
    show ((σ.step cap op).run cap ops).there = _
    rw [ih]
    have hs : (σ.step cap op).there = σ.there.run cap (σ.atThere op).toList := by
      cases op with
      | here o => rfl
      | there o => rfl
      | publish t m =>
        simp only [Mesh.step]
        split
        · rfl
        · split
          · rfl
          · split <;> rfl
      | deliver i =>
        simp only [Mesh.step, Mesh.atThere]
        rcases Option.eq_none_or_eq_some (σ.flying[i]?) with hi | ⟨⟨n, k, m⟩, hi⟩ <;> simp [hi, Med.run]
      | added => rfl
      | removed => rfl
    simp [Mesh.atThereAll, Med.run, List.foldl_append, hs]

example : let t : TopicRef := ⟨0, "t", 0, ""⟩
    let ops : List (MeshOp Nat) := [.here (.subscribe 0 t), .there (.subscribe 1 t), .added, .publish t 5, .deliver 0,
      .here (.pump 0), .there (.pump 1)]
    (({} : Mesh Nat).run 8 ops).here.received 0 = [5] ∧ (({} : Mesh Nat).run 8 ops).there.received 1 = [5] ∧
      ({} : Mesh Nat).atThereAll 8 ops = [.subscribe 1 t, .publishRaw "t" "" (some 5), .pump 1] := by decide

end Verif.Remote
