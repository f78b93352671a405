import Verif.Sharding.IdsModel
import Verif.Util

/-!
# C78: sharded entity types keep to themselves
-/

namespace Verif.Sharding.Ids

/-! ## Specification -/

/-- an entity type whose name cannot be mistaken for the beginning of a host's id. -/
def Plain (e : String) : Prop := ¬ "shard-host".toList <+: e.toList

/-- the entity types an operation is about. -/
def Op.entity : Op → String
  | .start e | .coordinator e | .shard e _ => e

/-! ## Lemmas -/

theorem digits_no_dash (n : Nat) : '-' ∉ (toString n).toList := by
  rw [Nat.toString_eq_repr, Nat.toList_repr]
  intro h
  exact absurd (Nat.isDigit_of_mem_toDigits (by decide) (by decide) h) (by decide)

theorem digits_inj {n m : Nat} (h : (toString n).toList = (toString m).toList) : n = m := by
  rw [Nat.toString_eq_repr, Nat.toString_eq_repr, Nat.toList_repr, Nat.toList_repr] at h
  have h' := congrArg (fun l => Nat.ofDigitChars 10 l 0) h
  simpa only [Nat.ofDigitChars_toDigits (b := 10) (by decide) (by decide)] using h'

theorem split_last {α : Type} {c : α} {a b l r : List α} (hl : c ∉ l) (hr : c ∉ r)
    (h : a ++ c :: l = b ++ c :: r) : a = b ∧ l = r := by
  rcases List.append_eq_append_iff.1 h with ⟨as, hb, hx⟩ | ⟨bs, ha, hx⟩
  · cases as with
    | nil => simp at hb hx; exact ⟨hb.symm, hx⟩
    | cons x as =>
      simp only [List.cons_append, List.cons.injEq] at hx
      exact absurd (hx.2 ▸ by simp : c ∈ l) hl
  · cases bs with
    | nil => simp at ha hx; exact ⟨ha, hx.symm⟩
    | cons x bs =>
      simp only [List.cons_append, List.cons.injEq] at hx
      exact absurd (hx.2 ▸ by simp : c ∈ r) hr

/-- `<text>-<number>` determines both. -/
theorem dash_number_inj {a b : List Char} {n m : Nat}
    (h : a ++ '-' :: (toString n).toList = b ++ '-' :: (toString m).toList) : a = b ∧ n = m := by
  obtain ⟨h1, h2⟩ := split_last (digits_no_dash n) (digits_no_dash m) h
  exact ⟨h1, digits_inj h2⟩

theorem hostId_toList (e : String) (n : Nat) :
    (hostId e n).toList = ("shard-host-".toList ++ e.toList) ++ '-' :: (toString n).toList := by
  have : "-".toList = ['-'] := by decide
  simp only [hostId, String.toList_append, List.append_assoc, this, List.cons_append, List.nil_append]

theorem shardId_toList (e : String) (s : Nat) :
    (shardId e s).toList = (e.toList ++ "-Shard".toList) ++ '-' :: (toString s).toList := by
  have : "-Shard-".toList = "-Shard".toList ++ ['-'] := by decide
  simp only [shardId, String.toList_append, List.append_assoc, this, List.cons_append, List.nil_append]

theorem managerId_toList (e : String) (n : Nat) :
    (managerId e n).toList = ("singleton-manager<" ++ coordType ++ ">").toList ++ '-' :: (toString n).toList := by
  unfold managerId
  generalize coordType = t
  have : ">-".toList = ">".toList ++ ['-'] := by decide
  simp only [String.toList_append, List.append_assoc, this, List.cons_append, List.nil_append]

theorem proxyId_toList (e : String) (n : Nat) :
    (proxyId e n).toList = ("singleton-proxy<" ++ coordType ++ ">").toList ++ '-' :: (toString n).toList := by
  unfold proxyId
  generalize coordType = t
  have : ">-".toList = ">".toList ++ ['-'] := by decide
  simp only [String.toList_append, List.append_assoc, this, List.cons_append, List.nil_append]

theorem managerId_last : ("singleton-manager<" ++ coordType ++ ">").toList.getLast? = some '>' := by
  rw [String.toList_append, List.getLast?_append]; decide

theorem proxyId_last : ("singleton-proxy<" ++ coordType ++ ">").toList.getLast? = some '>' := by
  rw [String.toList_append, List.getLast?_append]; decide

theorem shardId_last (e : String) : (e.toList ++ "-Shard".toList).getLast? = some 'd' := by
  rw [List.getLast?_append, show "-Shard".toList.getLast? = some 'd' by decide]; rfl

theorem shardId_ne_managerId (e e' : String) (s n : Nat) : shardId e s ≠ managerId e' n := by
  intro h
  have h := congrArg String.toList h
  rw [shardId_toList, managerId_toList] at h
  have h := congrArg List.getLast? (dash_number_inj h).1
  rw [shardId_last, managerId_last] at h
  exact absurd h (by decide)

theorem shardId_ne_proxyId (e e' : String) (s n : Nat) : shardId e s ≠ proxyId e' n := by
  intro h
  have h := congrArg String.toList h
  rw [shardId_toList, proxyId_toList] at h
  have h := congrArg List.getLast? (dash_number_inj h).1
  rw [shardId_last, proxyId_last] at h
  exact absurd h (by decide)

theorem coordId_no_dash (e : String) : '-' ∉ (coordId e).toList := by
  simp only [coordId]; decide

theorem shardId_ne_coordId (e e' : String) (s : Nat) : shardId e s ≠ coordId e' := by
  intro h
  refine coordId_no_dash e' ?_
  rw [← h, shardId_toList]; simp

theorem hostId_ne_coordId (e e' : String) (n : Nat) : hostId e n ≠ coordId e' := by
  intro h
  refine coordId_no_dash e' ?_
  rw [← h, hostId_toList]; simp

theorem hostId_take (e : String) (n : Nat) : (hostId e n).toList.take 2 = ['s', 'h'] := by
  rw [hostId_toList, show "shard-host-".toList = 's' :: 'h' :: "ard-host-".toList by decide]
  rfl

theorem hostId_ne_managerId (e e' : String) (n m : Nat) : hostId e n ≠ managerId e' m := by
  intro h
  have h1 := hostId_take e n
  rw [h, managerId_toList, String.toList_append, String.toList_append,
    show "singleton-manager<".toList = 's' :: 'i' :: "ngleton-manager<".toList by decide] at h1
  exact absurd h1 (by simp)

theorem hostId_ne_proxyId (e e' : String) (n m : Nat) : hostId e n ≠ proxyId e' m := by
  intro h
  have h1 := hostId_take e n
  rw [h, proxyId_toList, String.toList_append, String.toList_append,
    show "singleton-proxy<".toList = 's' :: 'i' :: "ngleton-proxy<".toList by decide] at h1
  exact absurd h1 (by simp)

theorem managerId_ne_proxyId (e e' : String) (n m : Nat) : managerId e n ≠ proxyId e' m := by
  intro h
  have h := congrArg String.toList h
  rw [managerId_toList, proxyId_toList] at h
  have h := (dash_number_inj h).1
  generalize coordType = t at h
  have h := congrArg (fun l : List Char => l.take 11) h
  simp only [String.toList_append, List.append_assoc,
    show "singleton-manager<".toList = "singleton-m".toList ++ "anager<".toList by decide,
    show "singleton-proxy<".toList = "singleton-p".toList ++ "roxy<".toList by decide] at h
  rw [List.take_append_of_le_length (by decide), List.take_append_of_le_length (by decide)] at h
  exact absurd h (by decide)

theorem managerId_ne_coordId (e e' : String) (n : Nat) : managerId e n ≠ coordId e' := by
  intro h
  refine coordId_no_dash e' ?_
  rw [← h, managerId_toList]; simp

theorem proxyId_ne_coordId (e e' : String) (n : Nat) : proxyId e n ≠ coordId e' := by
  intro h
  refine coordId_no_dash e' ?_
  rw [← h, proxyId_toList]; simp

/-- a shard of a plainly named entity type never has a host's id. -/
theorem shardId_ne_hostId {e : String} (he : Plain e) (e' : String) (s n : Nat) : shardId e s ≠ hostId e' n := by
  intro h
  have h := congrArg String.toList h
  rw [shardId_toList, hostId_toList] at h
  have h := (dash_number_inj h).1
  rcases List.append_eq_append_iff.1 h with ⟨as, hb, hx⟩ | ⟨bs, ha, hx⟩
  · have hp : as <+: "-Shard".toList := ⟨_, hx.symm⟩
    have hs : as <:+ "shard-host-".toList := ⟨_, hb.symm⟩
    have hk : as.length ≤ 1 := by
      have hle : as.length ≤ 6 := hp.length_le
      rw [List.prefix_iff_eq_take] at hp
      generalize as.length = k at *
      subst hp
      rcases k with _ | _ | _ | _ | _ | _ | _ | k
      any_goals omega
      all_goals exact absurd hs (by decide)
    refine he (List.prefix_of_prefix_length_le (l₃ := "shard-host-".toList) ⟨['-'], by decide⟩ ⟨as, hb.symm⟩ ?_)
    have := congrArg List.length hb
    rw [List.length_append] at this
    have h11 : "shard-host-".toList.length = 11 := by decide
    have h10 : "shard-host".toList.length = 10 := by decide
    omega
  · refine he ?_
    rw [ha]
    exact ⟨'-' :: bs, by simp⟩

theorem coordId_const (e e' : String) : coordId e = coordId e' := rfl

theorem managerId_const (e e' : String) (n : Nat) : managerId e n = managerId e' n := rfl

attribute [local irreducible] coordId managerId proxyId hostId shardId

theorem run_snoc (node : Nat) (ops : List Op) (op : Op) : run node (ops ++ [op]) = step node (run node ops) op := by
  simp [run]

theorem hostId_inj {e e' : String} {n n' : Nat} (h : hostId e n = hostId e' n') : e = e' ∧ n = n' := by
  have h := congrArg String.toList h
  rw [hostId_toList, hostId_toList] at h
  obtain ⟨h1, h2⟩ := dash_number_inj h
  exact ⟨String.toList_inj.1 (List.append_cancel_left h1), h2⟩

theorem shardId_inj {e e' : String} {n n' : Nat} (h : shardId e n = shardId e' n') : e = e' ∧ n = n' := by
  have h := congrArg String.toList h
  rw [shardId_toList, shardId_toList] at h
  obtain ⟨h1, h2⟩ := dash_number_inj h
  exact ⟨String.toList_inj.1 (List.append_cancel_right h1), h2⟩

/-! ## Properties -/

/-- Host ids are different for different entity types and nodes. -/
theorem C78_host_ids (e e' : String) (n n' : Nat) : hostId e n = hostId e' n' ↔ e = e' ∧ n = n' :=
  ⟨hostId_inj, by rintro ⟨rfl, rfl⟩; rfl⟩

/-- Shard ids are different for different entity types and shards. -/
theorem C78_shard_ids (e e' : String) (s s' : Nat) : shardId e s = shardId e' s' ↔ e = e' ∧ s = s' :=
  ⟨shardId_inj, by rintro ⟨rfl, rfl⟩; rfl⟩

/-- The journals of shards and coordinators are all different. -/
theorem C78_journal_keys (e e' : String) (s s' : Nat) :
    (shardKey e s = shardKey e' s' ↔ e = e' ∧ s = s') ∧ (coordKey e = coordKey e' ↔ e = e') ∧
    shardKey e s ≠ coordKey e' := by
  refine ⟨C78_shard_ids e e' s s', ⟨fun h => ?_, fun h => by rw [h]⟩, fun h => ?_⟩
  · have h := congrArg String.toList h
    rw [coordKey, coordKey, String.toList_append, String.toList_append] at h
    exact String.toList_inj.1 (List.append_cancel_right h)
  · have h := congrArg String.toList h
    rw [shardKey, shardId_toList, coordKey, String.toList_append] at h
    rw [show "-ShardCoordinator".toList = [] ++ '-' :: "ShardCoordinator".toList by decide, List.nil_append] at h
    have h := (split_last (digits_no_dash s) (by decide) h).2
    have hd : 'S' ∈ (toString s).toList := by rw [h]; decide
    rw [Nat.toString_eq_repr, Nat.toList_repr] at hd
    exact absurd (Nat.isDigit_of_mem_toDigits (by decide) (by decide) hd) (by decide)

/-- Messages for a host reach the host of their entity type, whatever else is started on the node. -/
theorem C78_reach_host (node : Nat) (ops : List Op) (hplain : ∀ o ∈ ops, Plain o.entity) (e : String) :
    reachedByHostMessage node ops e = if Op.start e ∈ ops then some (.host e) else none := by
  unfold reachedByHostMessage
  induction ops using snoc_induction with
  | nil => rfl
  | snoc ops o ih =>
    have ih := ih fun o h => hplain o (List.mem_append_left _ h)
    have ho := hplain o (by simp)
    rw [run_snoc]
    cases o with
    | start e' =>
      simp only [step, Assoc.get_insert, if_neg (hostId_ne_managerId e e' node node),
        if_neg (hostId_ne_proxyId e e' node node), C78_host_ids, ih, List.mem_append, List.mem_singleton,
        Op.start.injEq, and_true]
      by_cases hee : e = e'
      · simp [hee]
      · simp [hee]
    | coordinator e' =>
      simp only [step, Assoc.get_insert, if_neg (hostId_ne_coordId e e' node), ih]
      simp
    | shard e' s =>
      simp only [step, Assoc.get_insert, if_neg (Ne.symm (shardId_ne_hostId (e := e') ho e s node)), ih]
      simp

/-- Requests for a shard reach the shard of their entity type. -/
theorem C78_reach_shard (node : Nat) (ops : List Op) (e : String) (hplain : Plain e) (s : Nat) :
    reachedByEntityRequest node ops e s = if Op.shard e s ∈ ops then some (.shard e s) else none := by
  unfold reachedByEntityRequest
  induction ops using snoc_induction with
  | nil => rfl
  | snoc ops o ih =>
    rw [run_snoc]
    cases o with
    | start e' =>
      simp only [step, Assoc.get_insert, if_neg (shardId_ne_managerId e e' s node),
        if_neg (shardId_ne_proxyId e e' s node), if_neg (shardId_ne_hostId hplain e' s node), ih]
      simp
    | coordinator e' =>
      simp only [step, Assoc.get_insert, if_neg (shardId_ne_coordId e e' s), ih]
      simp
    | shard e' s' =>
      simp only [step, Assoc.get_insert, C78_shard_ids, ih, List.mem_append, List.mem_singleton, Op.shard.injEq]
      by_cases hee : e = e' ∧ s = s'
      · obtain ⟨rfl, rfl⟩ := hee; simp
      · simp [hee]

/-- While one entity type is sharded, requests for shards and for leases reach its coordinator and its manager. -/
theorem C78_one_entity_partial (node : Nat) (ops : List Op) (e : String) (hone : ∀ o ∈ ops, o.entity = e) :
    reachedByAllocate node ops e = (if Op.coordinator e ∈ ops then some (.coordinator e) else none) ∧
    reachedByLease node ops e = (if Op.start e ∈ ops then some (.manager e) else none) := by
  unfold reachedByAllocate reachedByLease
  induction ops using snoc_induction with
  | nil => exact ⟨rfl, rfl⟩
  | snoc ops o ih =>
    have ih := ih fun o h => hone o (List.mem_append_left _ h)
    have ho := hone o (by simp)
    rw [run_snoc]
    cases o with
    | start e' =>
      have ho : e' = e := ho
      subst ho
      simp only [step, Assoc.get_insert, if_neg (Ne.symm (managerId_ne_coordId e' e' node)),
        if_neg (Ne.symm (proxyId_ne_coordId e' e' node)), if_neg (Ne.symm (hostId_ne_coordId e' e' node)), ih]
      exact ⟨by simp, by simp⟩
    | coordinator e' =>
      have ho : e' = e := ho
      subst ho
      simp only [step, Assoc.get_insert, if_neg (managerId_ne_coordId e' e' node), ih]
      exact ⟨by simp, by simp⟩
    | shard e' s =>
      have ho : e' = e := ho
      subst ho
      simp only [step, Assoc.get_insert, if_neg (Ne.symm (shardId_ne_coordId e' e' s)),
        if_neg (Ne.symm (shardId_ne_managerId e' e' s node)), ih]
      exact ⟨by simp, by simp⟩

/-- Refuted: requests of one entity type reach the coordinator of this type. The id is the same for all; every
request, of any type, reaches the coordinator that was started last. -/
theorem C78_last_coordinator_refuted (node : Nat) (ops rest : List Op) (e e' : String)
    (hrest : ∀ o ∈ rest, ∀ d, o ≠ Op.coordinator d) :
    reachedByAllocate node (ops ++ [.coordinator e'] ++ rest) e = some (.coordinator e') := by
  unfold reachedByAllocate
  induction rest using snoc_induction with
  | nil => rw [List.append_nil, run_snoc, step, Assoc.get_insert]; rw [if_pos (coordId_const e e')]
  | snoc rest o ih =>
    have ih := ih fun o h => hrest o (List.mem_append_left _ h)
    rw [← List.append_assoc, run_snoc]
    cases o with
    | start d =>
      simp only [step, Assoc.get_insert, if_neg (Ne.symm (managerId_ne_coordId d e node)),
        if_neg (Ne.symm (proxyId_ne_coordId d e node)), if_neg (Ne.symm (hostId_ne_coordId d e node)), ih]
    | coordinator d => exact absurd rfl (hrest _ (by simp) d)
    | shard d s => simp only [step, Assoc.get_insert, if_neg (Ne.symm (shardId_ne_coordId d e s)), ih]

/-- Refuted: lease requests reach the manager of their entity type. They reach that of the type started last. -/
theorem C78_last_manager_refuted (node : Nat) (ops rest : List Op) (e e' : String)
    (hrest : ∀ o ∈ rest, ∀ d, o ≠ Op.start d) :
    reachedByLease node (ops ++ [.start e'] ++ rest) e = some (.manager e') := by
  unfold reachedByLease
  induction rest using snoc_induction with
  | nil => rw [List.append_nil, run_snoc, step, Assoc.get_insert]; rw [if_pos (managerId_const e e' node)]
  | snoc rest o ih =>
    have ih := ih fun o h => hrest o (List.mem_append_left _ h)
    rw [← List.append_assoc, run_snoc]
    cases o with
    | start d => exact absurd rfl (hrest _ (by simp) d)
    | coordinator d => simp only [step, Assoc.get_insert, if_neg (managerId_ne_coordId e d node), ih]
    | shard d s => simp only [step, Assoc.get_insert, if_neg (Ne.symm (shardId_ne_managerId d e s node)), ih]

/-- Refuted for odd names: the host of entity type `Shard` on node 1 and shard 1 of entity type `shard-host` have the
same id, so starting the shard makes the host unreachable. -/
theorem C78_odd_names_refuted :
    hostId "Shard" 1 = shardId "shard-host" 1 ∧
    reachedByHostMessage 1 [.start "Shard", .start "shard-host", .shard "shard-host" 1] "Shard" =
      some (.shard "shard-host" 1) := by
  decide +kernel

/-! ## Examples -/

example : Plain "chat" ∧ Plain "game" := by constructor <;> (unfold Plain; decide)

example : reachedByHostMessage 1 [.start "chat", .start "game", .shard "game" 3] "chat" = some (.host "chat") := by
  decide +kernel

/-- two sharded entity types: shard requests for `chat` go to the coordinator of `game`. -/
example : reachedByAllocate 1 [.start "chat", .coordinator "chat", .start "game", .coordinator "game"] "chat" =
    some (.coordinator "game") := by decide +kernel

example : ∀ o ∈ [Op.start "chat", .coordinator "chat", .shard "chat" 0], o.entity = "chat" := by decide

end Verif.Sharding.Ids
