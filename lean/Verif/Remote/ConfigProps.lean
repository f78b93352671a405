import Verif.Remote.ConfigModel
import Verif.Util

/-!
# C77: names of registered types
-/

namespace Verif.Remote

/-! ## Specification -/

/-- the last handler registered under a name. -/
def lastHandler (name : String) : List CfgOp → Option (Nat × Nat)
  | [] => none
  | op :: ops => match lastHandler name ops with
    | some h => some h
    | none => match op with
      | .handler a m n => if n = name then some (a, m) else none
      | .actor .. => none

/-- the last factory registered for an actor type of this name. -/
def lastFactory (typeName : Nat → String) (name : String) : List CfgOp → Option (Nat × Nat)
  | [] => none
  | op :: ops => match lastFactory typeName name ops with
    | some h => some h
    | none => match op with
      | .actor a f => if typeName a = name then some (a, f) else none
      | .handler .. => none

/-- the configurations a sequence of registrations can give: the maps are iterated in any order. -/
inductive Built (typeName : Nat → String) (ops : List CfgOp) : Config → Prop where
  | mk (hs as : List (String × (Nat × Nat)))
      (hh : hs.Perm (CfgBuilder.addAll typeName ops).handlers)
      (ha : as.Perm (CfgBuilder.addAll typeName ops).actors) :
      Built typeName ops ((CfgBuilder.addAll typeName ops).build hs as)

/-! ## Lemmas -/

theorem lastHandler_snoc (name : String) (ops : List CfgOp) (op : CfgOp) :
    lastHandler name (ops ++ [op]) = match op with
      | .handler a m n => if n = name then some (a, m) else lastHandler name ops
      | .actor .. => lastHandler name ops := by
  induction ops with
  | nil => cases op <;> simp [lastHandler]
  | cons o ops ih =>
    simp only [List.cons_append, lastHandler, ih]
    cases op with
    | handler a m n => by_cases h : n = name <;> simp [h]
    | actor => rfl

theorem lastFactory_snoc (tn : Nat → String) (name : String) (ops : List CfgOp) (op : CfgOp) :
    lastFactory tn name (ops ++ [op]) = match op with
      | .actor a f => if tn a = name then some (a, f) else lastFactory tn name ops
      | .handler .. => lastFactory tn name ops := by
  induction ops with
  | nil => cases op <;> simp [lastFactory]
  | cons o ops ih =>
    simp only [List.cons_append, lastFactory, ih]
    cases op with
    | actor a f => by_cases h : tn a = name <;> simp [h]
    | handler => rfl

theorem addAll_snoc (tn : Nat → String) (ops : List CfgOp) (op : CfgOp) :
    CfgBuilder.addAll tn (ops ++ [op]) = (CfgBuilder.addAll tn ops).add tn op := by
  simp [CfgBuilder.addAll]

theorem addAll_handlers (tn : Nat → String) (ops : List CfgOp) (name : String) :
    (CfgBuilder.addAll tn ops).handlers.get name = lastHandler name ops := by
  induction ops using snoc_induction with
  | nil => rfl
  | snoc ops op ih =>
    rw [addAll_snoc, lastHandler_snoc]
    cases op with
    | handler a m n =>
      simp only [CfgBuilder.add, Assoc.get_insert, ih]
      by_cases h : n = name
      · simp [h]
      · simp [h, show ¬ name = n from fun e => h e.symm]
    | actor => exact ih

theorem addAll_actors (tn : Nat → String) (ops : List CfgOp) (name : String) :
    (CfgBuilder.addAll tn ops).actors.get name = lastFactory tn name ops := by
  induction ops using snoc_induction with
  | nil => rfl
  | snoc ops op ih =>
    rw [addAll_snoc, lastFactory_snoc]
    cases op with
    | actor a f =>
      simp only [CfgBuilder.add, Assoc.get_insert, ih]
      by_cases h : tn a = name
      · simp [h]
      · simp [h, show ¬ name = tn a from fun e => h e.symm]
    | handler => exact ih

theorem addAll_uniq (tn : Nat → String) (ops : List CfgOp) :
    Assoc.Uniq (CfgBuilder.addAll tn ops).handlers ∧ Assoc.Uniq (CfgBuilder.addAll tn ops).actors := by
  induction ops using snoc_induction with
  | nil => exact ⟨.nil, .nil⟩
  | snoc ops op ih =>
    rw [addAll_snoc]
    cases op with
    | handler a m n => exact ⟨ih.1.insert _ _, ih.2⟩
    | actor a f => exact ⟨ih.1, ih.2.insert _ _⟩

theorem typeTable_snoc (id : Nat × Nat → TyId) (l : List (String × (Nat × Nat))) (e : String × (Nat × Nat)) :
    typeTable id (l ++ [e]) = (typeTable id l).insert (id e.2) e.1 := by
  simp [typeTable]

theorem typeTable_uniq (id : Nat × Nat → TyId) (l : List (String × (Nat × Nat))) :
    Assoc.Uniq (typeTable id l) := by
  induction l using snoc_induction with
  | nil => exact .nil
  | snoc l e ih => rw [typeTable_snoc]; exact ih.insert _ _

theorem typeTable_mem (id : Nat × Nat → TyId) (l : List (String × (Nat × Nat))) {t : TyId} {n : String}
    (h : (typeTable id l).get t = some n) : ∃ h, (n, h) ∈ l ∧ id h = t := by
  induction l using snoc_induction with
  | nil => simp [typeTable] at h
  | snoc l e ih =>
    rw [typeTable_snoc, Assoc.get_insert] at h
    by_cases ht : t = id e.2
    · rw [if_pos ht] at h
      exact ⟨e.2, by rw [← Option.some.inj h]; simp, ht.symm⟩
    · rw [if_neg ht] at h
      obtain ⟨x, hx, hid⟩ := ih h
      exact ⟨x, by simp [hx], hid⟩

theorem typeTable_some (id : Nat × Nat → TyId) (l : List (String × (Nat × Nat))) {n : String} {x : Nat × Nat}
    (h : (n, x) ∈ l) : ((typeTable id l).get (id x)).isSome = true := by
  induction l using snoc_induction with
  | nil => simp at h
  | snoc l e ih =>
    rw [typeTable_snoc, Assoc.get_insert]
    by_cases ht : id x = id e.2
    · simp [ht]
    · rw [if_neg ht]
      rcases List.mem_append.1 h with h | h
      · exact ih h
      · simp only [List.mem_singleton] at h
        subst h; exact absurd rfl ht

theorem messageHandlerId_inj {x y : Nat × Nat} (h : messageHandlerId x = messageHandlerId y) : x = y := by
  injection h with h1 h2
  exact Prod.ext h1 h2

/-! ## Properties -/

/-- A message named with a key is given to the handler registered last under that key, and to no other. -/
theorem C77_handler_exact (tn : Nat → String) (ops : List CfgOp) (c : Config) (hc : Built tn ops c)
    (name : String) : c.messageHandler name = lastHandler name ops := by
  cases hc with
  | mk hs as hh ha => exact addAll_handlers tn ops name

/-- An actor type's name leads to the factory registered last for it. -/
theorem C77_factory_exact (tn : Nat → String) (ops : List CfgOp) (c : Config) (hc : Built tn ops c)
    (name : String) : c.actorHandler name = lastFactory tn name ops := by
  cases hc with
  | mk hs as hh ha => exact addAll_actors tn ops name

/-- The name under which one node sends a message leads, on every node with the same registrations, back to the
handler for exactly this actor and message type, whatever the two nodes chose as iteration orders. -/
theorem C77_name_leads_back (tn : Nat → String) (ops : List CfgOp) (c c' : Config)
    (hc : Built tn ops c) (hc' : Built tn ops c') (a m : Nat) (name : String)
    (h : c.handlerName a m = some name) : c'.messageHandler name = some (a, m) := by
  rw [C77_handler_exact tn ops c' hc' name, ← addAll_handlers tn]
  cases hc with
  | mk hs as hh ha =>
    obtain ⟨x, hx, hid⟩ := typeTable_mem _ _ (show (typeTable messageHandlerId hs).get _ = some name from h)
    have : x = (a, m) := messageHandlerId_inj (y := (a, m)) hid
    subst this
    exact Assoc.get_of_mem (addAll_uniq tn ops).1 (hh.mem_iff.1 hx)

/-- A type has a name exactly when some name was registered for it last. -/
theorem C77_named_iff (tn : Nat → String) (ops : List CfgOp) (c : Config) (hc : Built tn ops c) (a m : Nat) :
    (c.handlerName a m).isSome = true ↔ ∃ name, lastHandler name ops = some (a, m) := by
  constructor
  · intro h
    obtain ⟨n, hn⟩ := Option.isSome_iff_exists.1 h
    exact ⟨n, by rw [← C77_handler_exact tn ops c hc]; exact C77_name_leads_back tn ops c c hc hc a m n hn⟩
  · rintro ⟨n, hn⟩
    cases hc with
    | mk hs as hh ha =>
      rw [← addAll_handlers tn] at hn
      exact typeTable_some messageHandlerId hs (hh.mem_iff.2 (Assoc.mem_of_get hn))

/-- When no name is used twice, every registered type can be sent and is handled as itself. -/
theorem C77_all_sendable (tn : Nat → String) (ops : List CfgOp) (c c' : Config)
    (hc : Built tn ops c) (hc' : Built tn ops c') (a m : Nat) (name : String)
    (hmem : CfgOp.handler a m name ∈ ops)
    (hone : ∀ a' m', CfgOp.handler a' m' name ∈ ops → (a', m') = (a, m)) :
    ∃ n, c.handlerName a m = some n ∧ c'.messageHandler n = some (a, m) := by
  have hl : lastHandler name ops = some (a, m) := by
    clear hc hc'
    induction ops with
    | nil => simp at hmem
    | cons o ops ih =>
      simp only [lastHandler]
      rcases hr : lastHandler name ops with _ | x
      · rcases List.mem_cons.1 hmem with rfl | hm
        · simp
        · rw [ih hm (fun a' m' h => hone a' m' (List.mem_cons_of_mem _ h))] at hr
          exact absurd hr (by simp)
      · have key : ∀ (os : List CfgOp) x, lastHandler name os = some x → CfgOp.handler x.1 x.2 name ∈ os := by
          intro os
          induction os with
          | nil => intro x h; simp [lastHandler] at h
          | cons o os ih =>
            intro x h
            simp only [lastHandler] at h
            rcases hr : lastHandler name os with _ | y
            · rw [hr] at h
              cases o with
              | actor => simp at h
              | handler a' m' n' =>
                by_cases hn : n' = name
                · simp only [hn, if_true, Option.some.injEq] at h
                  subst h; subst hn; simp
                · simp [hn] at h
            · rw [hr] at h
              exact List.mem_cons_of_mem _ (ih x (by rw [hr]; exact h))
        exact congrArg some (hone x.1 x.2 (List.mem_cons_of_mem _ (key ops x hr)))
  obtain ⟨n, hn⟩ := Option.isSome_iff_exists.1 ((C77_named_iff tn ops c hc a m).2 ⟨name, hl⟩)
  exact ⟨n, hn, C77_name_leads_back tn ops c c' hc hc' a m n hn⟩

/-- The capabilities of a node: in order of the lower-case names; every message listed has a handler that is sent
under this very name; every type that can be sent is listed; nothing is listed twice. -/
theorem C77_capabilities (tn : Nat → String) (lower : String → String) (ops : List CfgOp) (c : Config)
    (hc : Built tn ops c) :
    (c.capabilities lower).2.Pairwise (fun x y => lower x ≤ lower y) ∧
    (c.capabilities lower).1.Pairwise (fun x y => lower x ≤ lower y) ∧
    (∀ n, n ∈ (c.capabilities lower).2 ↔ ∃ a m, c.handlerName a m = some n) ∧
    (c.capabilities lower).2.Nodup := by
  have htr : ∀ x y z, lowerLe lower x y = true → lowerLe lower y z = true → lowerLe lower x z = true := by
    intro x y z h1 h2
    simp only [lowerLe, decide_eq_true_eq] at *
    exact String.le_trans h1 h2
  have hto : ∀ x y, lowerLe lower x y = true ∨ lowerLe lower y x = true := by
    intro x y
    simp only [lowerLe, decide_eq_true_eq]
    exact String.le_total _ _
  have hs : ∀ l, (isort (lowerLe lower) l).Pairwise (fun x y => lower x ≤ lower y) := fun l =>
    (isort_sorted htr hto l).imp (by simp [lowerLe])
  refine ⟨hs _, hs _, ?_, ?_⟩
  · intro n
    simp only [Config.capabilities, mem_isort, Assoc.vals, List.mem_map]
    constructor
    · rintro ⟨⟨t, n'⟩, hmem, rfl⟩
      cases hc with
      | mk hs as hh ha =>
        have hg := Assoc.get_of_mem (typeTable_uniq messageHandlerId hs) hmem
        obtain ⟨x, _, hid⟩ := typeTable_mem _ _ hg
        subst hid
        exact ⟨x.1, x.2, hg⟩
    · rintro ⟨a, m, h⟩
      exact ⟨_, Assoc.mem_of_get h, rfl⟩
  · refine (isort_perm _ _).nodup_iff.2 ?_
    have hu : Assoc.Uniq c.handlerTypes := by
      cases hc with
      | mk hs as hh ha => exact typeTable_uniq _ _
    refine List.pairwise_map.2 (hu.imp_of_mem ?_)
    rintro ⟨t, n⟩ ⟨t', n'⟩ h1 h2 hne rfl
    have h1 := Assoc.get_of_mem hu h1
    have h2 := Assoc.get_of_mem hu h2
    apply hne
    cases hc with
    | mk hs as hh ha =>
      obtain ⟨x, hx, hid⟩ := typeTable_mem _ _ h1
      obtain ⟨y, hy, hid'⟩ := typeTable_mem _ _ h2
      have e1 := Assoc.get_of_mem (addAll_uniq tn ops).1 (hh.mem_iff.1 hx)
      have e2 := Assoc.get_of_mem (addAll_uniq tn ops).1 (hh.mem_iff.1 hy)
      rw [e1] at e2
      rw [← hid, ← hid', Option.some.inj e2]

/-- Everything the framework sends to its own actors keeps working, whatever a program registers under other names. -/
theorem C77_builtin (tn : Nat → String) (user : List CfgOp) (c c' : Config)
    (hc : Built tn (shardingOps ++ user) c) (hc' : Built tn (shardingOps ++ user) c')
    (a m : Nat) (name : String) (hb : CfgOp.handler a m name ∈ shardingOps)
    (huser : ∀ a' m', CfgOp.handler a' m' name ∉ user) :
    ∃ n, c.handlerName a m = some n ∧ c'.messageHandler n = some (a, m) := by
  refine C77_all_sendable tn _ c c' hc hc' a m name (List.mem_append_left _ hb) ?_
  intro a' m' h
  rcases List.mem_append.1 h with h | h
  · have hn : (shardingOps.map fun o => match o with | .handler _ _ n => n | .actor .. => "").Nodup := by decide
    generalize shardingOps = l at *
    clear huser hc hc'
    induction l with
    | nil => simp at h
    | cons o l ih =>
      rw [List.map_cons, List.nodup_cons] at hn
      rcases List.mem_cons.1 h with h1 | h1 <;> rcases List.mem_cons.1 hb with h2 | h2
      · rw [← h2] at h1; injection h1 with e1 e2; rw [e1, e2]
      · subst h1; exact absurd (List.mem_map_of_mem (f := fun o => match o with | CfgOp.handler _ _ n => n | .actor .. => "") h2) hn.1
      · subst h2; exact absurd (List.mem_map_of_mem (f := fun o => match o with | CfgOp.handler _ _ n => n | .actor .. => "") h1) hn.1
      · exact ih h2 (by simp [h1]) h1 hn.2
  · exact absurd h (huser a' m')

theorem sfx_ne {t t' x y : String} (n : Nat) (hx : n ≤ x.toList.length) (hy : n ≤ y.toList.length)
    (hxy : x.toList.reverse.take n ≠ y.toList.reverse.take n) : t ++ x ≠ t' ++ y := by
  intro h
  apply hxy
  have h := congrArg (fun s : String => s.toList.reverse.take n) h
  simp only [String.toList_append, List.reverse_append] at h
  rwa [List.take_append_of_le_length (by simpa using hx), List.take_append_of_le_length (by simpa using hy)] at h

theorem append_right_cancel' {t t' x : String} (h : t ++ x = t' ++ x) : t = t' := by
  rw [← String.toList_inj] at h ⊢
  simp only [String.toList_append] at h
  exact List.append_cancel_right h

theorem append_left_cancel' {t t' x : String} (h : x ++ t = x ++ t') : t = t' := by
  rw [← String.toList_inj] at h ⊢
  simp only [String.toList_append] at h
  exact List.append_cancel_left h

theorem singleton_names {t t' : String} {g g' a m a' m' : Nat} {name : String}
    (h : CfgOp.handler a m name ∈ singletonOps t g) (h' : CfgOp.handler a' m' name ∈ singletonOps t' g') :
    t = t' ∧ m = m' ∧ a = g ∧ a' = g' := by
  simp only [singletonOps, List.mem_cons, CfgOp.handler.injEq, List.not_mem_nil, or_false] at h h'
  obtain ⟨x, hx, h1, h2⟩ : ∃ x, (m, x) ∈ [(0, ">.RequestLease"), (1, ">.LeaseAck"), (2, ">.SingletonStarted"),
      (3, ">.SingletonStopped")] ∧ a = g ∧ name = "SingletonManager<" ++ t ++ x := by
    rcases h with ⟨h1, h2, h3⟩ | ⟨h1, h2, h3⟩ | ⟨h1, h2, h3⟩ | ⟨h1, h2, h3⟩ <;>
      exact ⟨_, by rw [h2]; simp, h1, h3⟩
  obtain ⟨x', hx', h1', h2'⟩ : ∃ x, (m', x) ∈ [(0, ">.RequestLease"), (1, ">.LeaseAck"), (2, ">.SingletonStarted"),
      (3, ">.SingletonStopped")] ∧ a' = g' ∧ name = "SingletonManager<" ++ t' ++ x := by
    rcases h' with ⟨h1, h2, h3⟩ | ⟨h1, h2, h3⟩ | ⟨h1, h2, h3⟩ | ⟨h1, h2, h3⟩ <;>
      exact ⟨_, by rw [h2]; simp, h1, h3⟩
  rw [h2] at h2'
  have key : ∀ p ∈ [(0, ">.RequestLease"), (1, ">.LeaseAck"), (2, ">.SingletonStarted"), (3, ">.SingletonStopped")],
      ∀ q ∈ [(0, ">.RequestLease"), (1, ">.LeaseAck"), (2, ">.SingletonStarted"), (3, ">.SingletonStopped")],
      p = q ∨ (4 ≤ p.2.toList.length ∧ 4 ≤ q.2.toList.length ∧
        p.2.toList.reverse.take 4 ≠ q.2.toList.reverse.take 4) := by decide
  rcases key _ hx _ hx' with e | ⟨e1, e2, e3⟩
  · injection e with e1 e2
    subst e1 e2
    exact ⟨append_left_cancel' (append_right_cancel' h2'), rfl, h1, h1'⟩
  · exact absurd h2' (sfx_ne 4 e1 e2 e3)

theorem pairwise_ne_of_mem {α : Type} {R : α → α → Prop} {l : List α} (h : l.Pairwise R) {x y : α} (hx : x ∈ l)
    (hy : y ∈ l) (hne : x ≠ y) : R x y ∨ R y x := by
  induction h with
  | nil => simp at hx
  | cons h1 _ ih =>
    rcases List.mem_cons.1 hx with rfl | hx' <;> rcases List.mem_cons.1 hy with rfl | hy'
    · exact absurd rfl hne
    · exact .inl (h1 _ hy')
    · exact .inr (h1 _ hx')
    · exact ih hx' hy'

/-- Every singleton of a program, and the framework's own, has its messages to itself as long as no two of them have the
same actor type. -/
theorem C77_singletons (tn : Nat → String) (l : List (String × Nat)) (user : List CfgOp) (c c' : Config)
    (hl : l.Pairwise (fun x y => x.1 ≠ y.1))
    (hc : Built tn (l.flatMap (fun x => singletonOps x.1 x.2) ++ user) c)
    (hc' : Built tn (l.flatMap (fun x => singletonOps x.1 x.2) ++ user) c')
    (t : String) (g : Nat) (ht : (t, g) ∈ l)
    (a m : Nat) (name : String) (hm : CfgOp.handler a m name ∈ singletonOps t g)
    (huser : ∀ a' m', CfgOp.handler a' m' name ∉ user) :
    ∃ n, c.handlerName g m = some n ∧ c'.messageHandler n = some (g, m) := by
  obtain ⟨-, -, rfl, -⟩ := singleton_names hm hm
  refine C77_all_sendable tn _ c c' hc hc' a m name
    (List.mem_append_left _ (List.mem_flatMap.2 ⟨_, ht, hm⟩)) ?_
  intro a' m' h
  rcases List.mem_append.1 h with h | h
  · obtain ⟨⟨t', g'⟩, hx, h⟩ := List.mem_flatMap.1 h
    obtain ⟨h1, h2, h3, -⟩ := singleton_names h hm
    simp only at h1 h3
    subst h1 h2
    have hg : g' = a := by
      refine Classical.byContradiction fun hne => ?_
      have h0 : (t', g') ≠ (t', a) := fun e => hne (congrArg Prod.snd e)
      exact (pairwise_ne_of_mem hl hx ht h0).elim (fun f => f rfl) (fun f => f rfl)
    rw [h3, hg]
  · exact absurd h (huser a' m')

/-- Refuted: a registered type can be sent. A later registration under the same name takes it over silently: messages
of the first type can no longer be sent, and messages already on the way under this name are decoded as the
second type. -/
theorem C77_shared_name_refuted :
    ∃ ops c, Built (fun _ => "A") ops c ∧ CfgOp.handler 0 0 "Echo" ∈ ops ∧ c.handlerName 0 0 = none ∧
      c.messageHandler "Echo" = some (1, 1) :=
  ⟨[.handler 0 0 "Echo", .handler 1 1 "Echo"], _,
    .mk (CfgBuilder.addAll (fun _ => "A") [.handler 0 0 "Echo", .handler 1 1 "Echo"]).handlers
        (CfgBuilder.addAll (fun _ => "A") [.handler 0 0 "Echo", .handler 1 1 "Echo"]).actors (.refl _) (.refl _),
    by simp, by decide, by decide⟩

/-- Refuted: `actor_name` gives the name of a registered actor type. The table is filled with the ids of the handler
types and searched with the ids of the markers, so nothing is ever found. -/
theorem C77_actor_name_refuted (tn : Nat → String) (ops : List CfgOp) (c : Config) (hc : Built tn ops c) (a : Nat) :
    c.actorName a = none := by
  cases hc with
  | mk hs as hh ha =>
    refine Option.eq_none_iff_forall_ne_some.2 fun n h => ?_
    obtain ⟨x, _, hid⟩ := typeTable_mem _ _ (show (typeTable actorHandlerId as).get _ = some n from h)
    exact absurd hid (by simp [actorHandlerId])

/-! ## Examples -/

/-- two user types beside the built-in ones, one of them with two names. -/
example : ∃ c, Built (fun _ => "chat") (shardingOps ++ [.handler 7 20 "Chat.Join", .handler 7 20 "Chat.Enter", .actor 7 1]) c ∧
    c.handlerName 7 20 = some "Chat.Join" ∧ c.messageHandler "Chat.Enter" = some (7, 20) ∧
    c.actorHandler "chat" = some (7, 1) ∧ c.handlerName 3 9 = some "Shard.RemoteEntityRequest" :=
  ⟨_, .mk _ _ (.refl _) (.refl _), by decide, by decide, by decide, by decide⟩

example : CfgOp.handler 7 20 "Chat.Join" ∈ [CfgOp.handler 7 20 "Chat.Join", .handler 8 20 "X"] ∧
    ∀ a' m', CfgOp.handler a' m' "Chat.Join" ∈ [CfgOp.handler 7 20 "Chat.Join", .handler 8 20 "X"] → (a', m') = (7, 20) :=
  ⟨by simp, by intro a m h; simpa using h⟩

example : [("chat", 5), ("billing", 6)].Pairwise (fun x y => x.1 ≠ y.1) ∧ ("billing", 6) ∈ [("chat", 5), ("billing", 6)] ∧
    CfgOp.handler 6 1 "SingletonManager<billing>.LeaseAck" ∈ singletonOps "billing" 6 := by
  refine ⟨by decide, by decide, by decide⟩

end Verif.Remote
