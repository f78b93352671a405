import Verif.Proto.Sharding

/-! Round trips of the messages of `Verif.Proto.Sharding`: a message whose encoding is below 2^32 bytes
(the generated code stores lengths in a `u32`) is read back unchanged. -/

set_option linter.unusedSimpArgs false

namespace Verif.Proto.Sharding
open Verif.Proto

theorem AllocateShard.fields_pre (m : AllocateShard) : FieldsPre m.fields :=
  (fieldsPre_append (pre_fVarint (by decide) (Nat.lt_trans (UInt32.toNat_lt _) (by decide)))
    (pre_fBool (by decide)))

theorem AllocateShard.read_write (m : AllocateShard) (hs : m.write.length < 2 ^ 32) :
    AllocateShard.read m.write = some m := by
  unfold AllocateShard.read
  rw [show parseFields m.write = some m.fields from parse_of_small m.fields_pre hs]
  rw [Option.bind_some]
  obtain ⟨a0, a1⟩ := m
  simp only [AllocateShard.fields, List.foldlM_append, Option.bind_eq_bind]
  rw [fold_fVarint (merge := AllocateShard.merge) (no := 1) ⟨a0, false⟩
    (fun h => by have h := UInt32.toNat_inj.1 (h.trans (UInt32.toNat_zero).symm); subst h; rfl)
    (by simp [AllocateShard.merge])]
  simp only [Option.bind_some]
  rw [fold_fBool (merge := AllocateShard.merge) (no := 2) ⟨a0, a1⟩ (fun h => by subst h; rfl)
    (fun h => by subst h; rfl)]

theorem RemoteShard.fields_pre (m : RemoteShard) : FieldsPre m.fields :=
  (fieldsPre_append (pre_fVarint (by decide) (Nat.lt_trans (UInt32.toNat_lt _) (by decide)))
    (pre_fVarint (by decide) (UInt64.toNat_lt _)))

theorem RemoteShard.read_write (m : RemoteShard) (hs : m.write.length < 2 ^ 32) :
    RemoteShard.read m.write = some m := by
  unfold RemoteShard.read
  rw [show parseFields m.write = some m.fields from parse_of_small m.fields_pre hs]
  rw [Option.bind_some]
  obtain ⟨a0, a1⟩ := m
  simp only [RemoteShard.fields, List.foldlM_append, Option.bind_eq_bind]
  rw [fold_fVarint (merge := RemoteShard.merge) (no := 1) ⟨a0, 0⟩
    (fun h => by have h := UInt32.toNat_inj.1 (h.trans (UInt32.toNat_zero).symm); subst h; rfl)
    (by simp [RemoteShard.merge])]
  simp only [Option.bind_some]
  rw [fold_fVarint (merge := RemoteShard.merge) (no := 2) ⟨a0, a1⟩
    (fun h => by have h := UInt64.toNat_inj.1 (h.trans (UInt64.toNat_zero).symm); subst h; rfl)
    (by simp [RemoteShard.merge])]

theorem ShardAllocated.fields_pre (m : ShardAllocated) : FieldsPre m.fields :=
  (pre_fMsg (by decide))

theorem ShardAllocated.read_write (m : ShardAllocated) (hs : m.write.length < 2 ^ 32) :
    ShardAllocated.read m.write = some m := by
  unfold ShardAllocated.read
  rw [show parseFields m.write = some m.fields from parse_of_small m.fields_pre hs]
  rw [Option.bind_some]
  have hs0 : ∀ x, m.shard = some x → (RemoteShard.write x).length < 2 ^ 32 := by
    intro x hx
    refine Nat.lt_of_le_of_lt (length_le_encodeFields (no := 1) (fs := m.fields) ?_) hs
    have hx' : fMsg 1 (m.shard.map RemoteShard.write) = [(1, .len (RemoteShard.write x))] := by rw [hx]; rfl
    simp only [ShardAllocated.fields, List.mem_append]
    grind
  obtain ⟨a0⟩ := m
  simp only [] at hs0
  simp only [ShardAllocated.fields, List.foldlM_append, Option.bind_eq_bind]
  rw [fold_fMsg (merge := ShardAllocated.merge) (no := 1) ⟨a0⟩ (fun h => by subst h; rfl)
    (fun x hx => by simp [ShardAllocated.merge, RemoteShard.read_write x (hs0 x hx), hx])]

theorem ShardReallocating.fields_pre (m : ShardReallocating) : FieldsPre m.fields :=
  (pre_fVarint (by decide) (Nat.lt_trans (UInt32.toNat_lt _) (by decide)))

theorem ShardReallocating.read_write (m : ShardReallocating) (hs : m.write.length < 2 ^ 32) :
    ShardReallocating.read m.write = some m := by
  unfold ShardReallocating.read
  rw [show parseFields m.write = some m.fields from parse_of_small m.fields_pre hs]
  rw [Option.bind_some]
  obtain ⟨a0⟩ := m
  simp only [ShardReallocating.fields, List.foldlM_append, Option.bind_eq_bind]
  rw [fold_fVarint (merge := ShardReallocating.merge) (no := 1) ⟨a0⟩
    (fun h => by have h := UInt32.toNat_inj.1 (h.trans (UInt32.toNat_zero).symm); subst h; rfl)
    (by simp [ShardReallocating.merge])]

theorem StopShard.fields_pre (m : StopShard) : FieldsPre m.fields :=
  (fieldsPre_append (fieldsPre_append (pre_fVarint (by decide) (Nat.lt_trans (UInt32.toNat_lt _) (by decide)))
    (pre_fVarint (by decide) (UInt64.toNat_lt _)))
    (pre_fString (by decide)))

theorem StopShard.read_write (m : StopShard) (hs : m.write.length < 2 ^ 32) :
    StopShard.read m.write = some m := by
  unfold StopShard.read
  rw [show parseFields m.write = some m.fields from parse_of_small m.fields_pre hs]
  rw [Option.bind_some]
  obtain ⟨a0, a1, a2⟩ := m
  simp only [StopShard.fields, List.foldlM_append, Option.bind_eq_bind]
  rw [fold_fVarint (merge := StopShard.merge) (no := 1) ⟨a0, 0, ""⟩
    (fun h => by have h := UInt32.toNat_inj.1 (h.trans (UInt32.toNat_zero).symm); subst h; rfl)
    (by simp [StopShard.merge])]
  simp only [Option.bind_some]
  rw [fold_fVarint (merge := StopShard.merge) (no := 2) ⟨a0, a1, ""⟩
    (fun h => by have h := UInt64.toNat_inj.1 (h.trans (UInt64.toNat_zero).symm); subst h; rfl)
    (by simp [StopShard.merge])]
  simp only [Option.bind_some]
  rw [fold_fString (merge := StopShard.merge) (no := 3) ⟨a0, a1, a2⟩ (fun h => by subst h; rfl)
    (by simp [StopShard.merge, bytesStr_strBytes])]

theorem ShardStopped.fields_pre (m : ShardStopped) : FieldsPre m.fields :=
  (fieldsPre_append (fieldsPre_append (pre_fVarint (by decide) (Nat.lt_trans (UInt32.toNat_lt _) (by decide)))
    (pre_fVarint (by decide) (UInt64.toNat_lt _)))
    (pre_fBool (by decide)))

theorem ShardStopped.read_write (m : ShardStopped) (hs : m.write.length < 2 ^ 32) :
    ShardStopped.read m.write = some m := by
  unfold ShardStopped.read
  rw [show parseFields m.write = some m.fields from parse_of_small m.fields_pre hs]
  rw [Option.bind_some]
  obtain ⟨a0, a1, a2⟩ := m
  simp only [ShardStopped.fields, List.foldlM_append, Option.bind_eq_bind]
  rw [fold_fVarint (merge := ShardStopped.merge) (no := 1) ⟨a0, 0, false⟩
    (fun h => by have h := UInt32.toNat_inj.1 (h.trans (UInt32.toNat_zero).symm); subst h; rfl)
    (by simp [ShardStopped.merge])]
  simp only [Option.bind_some]
  rw [fold_fVarint (merge := ShardStopped.merge) (no := 2) ⟨a0, a1, false⟩
    (fun h => by have h := UInt64.toNat_inj.1 (h.trans (UInt64.toNat_zero).symm); subst h; rfl)
    (by simp [ShardStopped.merge])]
  simp only [Option.bind_some]
  rw [fold_fBool (merge := ShardStopped.merge) (no := 3) ⟨a0, a1, a2⟩ (fun h => by subst h; rfl)
    (fun h => by subst h; rfl)]

theorem AllocateShardResult.fields_pre (m : AllocateShardResult) : FieldsPre m.fields :=
  (fieldsPre_append (fieldsPre_append (pre_fEnum (by decide))
    (pre_fMsg (by decide)))
    (pre_fEnum (by decide)))

theorem AllocateShardResult.read_write (m : AllocateShardResult) (hs : m.write.length < 2 ^ 32) :
    AllocateShardResult.read m.write = some m := by
  unfold AllocateShardResult.read
  rw [show parseFields m.write = some m.fields from parse_of_small m.fields_pre hs]
  rw [Option.bind_some]
  have hs1 : ∀ x, m.allocation = some x → (RemoteShard.write x).length < 2 ^ 32 := by
    intro x hx
    refine Nat.lt_of_le_of_lt (length_le_encodeFields (no := 2) (fs := m.fields) ?_) hs
    have hx' : fMsg 2 (m.allocation.map RemoteShard.write) = [(2, .len (RemoteShard.write x))] := by rw [hx]; rfl
    simp only [AllocateShardResult.fields, List.mem_append]
    grind
  obtain ⟨a0, a1, a2⟩ := m
  simp only [] at hs1
  simp only [AllocateShardResult.fields, List.foldlM_append, Option.bind_eq_bind]
  rw [fold_fEnum (merge := AllocateShardResult.merge) (no := 1) ⟨a0, none, 0⟩ (fun h => by subst h; rfl)
    (by simp [AllocateShardResult.merge, readEnum_ofInt64])]
  simp only [Option.bind_some]
  rw [fold_fMsg (merge := AllocateShardResult.merge) (no := 2) ⟨a0, a1, 0⟩ (fun h => by subst h; rfl)
    (fun x hx => by simp [AllocateShardResult.merge, RemoteShard.read_write x (hs1 x hx), hx])]
  simp only [Option.bind_some]
  rw [fold_fEnum (merge := AllocateShardResult.merge) (no := 3) ⟨a0, a1, a2⟩ (fun h => by subst h; rfl)
    (by simp [AllocateShardResult.merge, readEnum_ofInt64])]

theorem RemoteEntityRequestRecipe.fields_pre (m : RemoteEntityRequestRecipe) : FieldsPre m.fields :=
  (pre_fBytes (by decide))

theorem RemoteEntityRequestRecipe.read_write (m : RemoteEntityRequestRecipe) (hs : m.write.length < 2 ^ 32) :
    RemoteEntityRequestRecipe.read m.write = some m := by
  unfold RemoteEntityRequestRecipe.read
  rw [show parseFields m.write = some m.fields from parse_of_small m.fields_pre hs]
  rw [Option.bind_some]
  obtain ⟨a0⟩ := m
  simp only [RemoteEntityRequestRecipe.fields, List.foldlM_append, Option.bind_eq_bind]
  rw [fold_fBytes (merge := RemoteEntityRequestRecipe.merge) (no := 1) ⟨a0⟩ (fun h => by subst h; rfl) rfl]

theorem RemoteEntityRequest.fields_pre (m : RemoteEntityRequest) : FieldsPre m.fields :=
  (fieldsPre_append (fieldsPre_append (fieldsPre_append (fieldsPre_append (fieldsPre_append (pre_fString (by decide))
    (pre_fString (by decide)))
    (pre_fString (by decide)))
    (pre_fBytes (by decide)))
    (pre_fMsg (by decide)))
    (pre_fVarint (by decide) (UInt64.toNat_lt _)))

theorem RemoteEntityRequest.read_write (m : RemoteEntityRequest) (hs : m.write.length < 2 ^ 32) :
    RemoteEntityRequest.read m.write = some m := by
  unfold RemoteEntityRequest.read
  rw [show parseFields m.write = some m.fields from parse_of_small m.fields_pre hs]
  rw [Option.bind_some]
  have hs4 : ∀ x, m.recipe = some x → (RemoteEntityRequestRecipe.write x).length < 2 ^ 32 := by
    intro x hx
    refine Nat.lt_of_le_of_lt (length_le_encodeFields (no := 5) (fs := m.fields) ?_) hs
    have hx' : fMsg 5 (m.recipe.map RemoteEntityRequestRecipe.write) = [(5, .len (RemoteEntityRequestRecipe.write x))] := by rw [hx]; rfl
    simp only [RemoteEntityRequest.fields, List.mem_append]
    grind
  obtain ⟨a0, a1, a2, a3, a4, a5⟩ := m
  simp only [] at hs4
  simp only [RemoteEntityRequest.fields, List.foldlM_append, Option.bind_eq_bind]
  rw [fold_fString (merge := RemoteEntityRequest.merge) (no := 1) ⟨a0, "", "", [], none, 0⟩ (fun h => by subst h; rfl)
    (by simp [RemoteEntityRequest.merge, bytesStr_strBytes])]
  simp only [Option.bind_some]
  rw [fold_fString (merge := RemoteEntityRequest.merge) (no := 2) ⟨a0, a1, "", [], none, 0⟩ (fun h => by subst h; rfl)
    (by simp [RemoteEntityRequest.merge, bytesStr_strBytes])]
  simp only [Option.bind_some]
  rw [fold_fString (merge := RemoteEntityRequest.merge) (no := 3) ⟨a0, a1, a2, [], none, 0⟩ (fun h => by subst h; rfl)
    (by simp [RemoteEntityRequest.merge, bytesStr_strBytes])]
  simp only [Option.bind_some]
  rw [fold_fBytes (merge := RemoteEntityRequest.merge) (no := 4) ⟨a0, a1, a2, a3, none, 0⟩ (fun h => by subst h; rfl) rfl]
  simp only [Option.bind_some]
  rw [fold_fMsg (merge := RemoteEntityRequest.merge) (no := 5) ⟨a0, a1, a2, a3, a4, 0⟩ (fun h => by subst h; rfl)
    (fun x hx => by simp [RemoteEntityRequest.merge, RemoteEntityRequestRecipe.read_write x (hs4 x hx), hx])]
  simp only [Option.bind_some]
  rw [fold_fVarint (merge := RemoteEntityRequest.merge) (no := 6) ⟨a0, a1, a2, a3, a4, a5⟩
    (fun h => by have h := UInt64.toNat_inj.1 (h.trans (UInt64.toNat_zero).symm); subst h; rfl)
    (by simp [RemoteEntityRequest.merge])]

theorem StartEntity.fields_pre (m : StartEntity) : FieldsPre m.fields :=
  (fieldsPre_append (pre_fString (by decide))
    (pre_fBytes (by decide)))

theorem StartEntity.read_write (m : StartEntity) (hs : m.write.length < 2 ^ 32) :
    StartEntity.read m.write = some m := by
  unfold StartEntity.read
  rw [show parseFields m.write = some m.fields from parse_of_small m.fields_pre hs]
  rw [Option.bind_some]
  obtain ⟨a0, a1⟩ := m
  simp only [StartEntity.fields, List.foldlM_append, Option.bind_eq_bind]
  rw [fold_fString (merge := StartEntity.merge) (no := 1) ⟨a0, []⟩ (fun h => by subst h; rfl)
    (by simp [StartEntity.merge, bytesStr_strBytes])]
  simp only [Option.bind_some]
  rw [fold_fBytes (merge := StartEntity.merge) (no := 2) ⟨a0, a1⟩ (fun h => by subst h; rfl) rfl]

theorem PassivateEntity.fields_pre (m : PassivateEntity) : FieldsPre m.fields :=
  (pre_fString (by decide))

theorem PassivateEntity.read_write (m : PassivateEntity) (hs : m.write.length < 2 ^ 32) :
    PassivateEntity.read m.write = some m := by
  unfold PassivateEntity.read
  rw [show parseFields m.write = some m.fields from parse_of_small m.fields_pre hs]
  rw [Option.bind_some]
  obtain ⟨a0⟩ := m
  simp only [PassivateEntity.fields, List.foldlM_append, Option.bind_eq_bind]
  rw [fold_fString (merge := PassivateEntity.merge) (no := 1) ⟨a0⟩ (fun h => by subst h; rfl)
    (by simp [PassivateEntity.merge, bytesStr_strBytes])]

theorem RemoveEntity.fields_pre (m : RemoveEntity) : FieldsPre m.fields :=
  (pre_fString (by decide))

theorem RemoveEntity.read_write (m : RemoveEntity) (hs : m.write.length < 2 ^ 32) :
    RemoveEntity.read m.write = some m := by
  unfold RemoveEntity.read
  rw [show parseFields m.write = some m.fields from parse_of_small m.fields_pre hs]
  rw [Option.bind_some]
  obtain ⟨a0⟩ := m
  simp only [RemoveEntity.fields, List.foldlM_append, Option.bind_eq_bind]
  rw [fold_fString (merge := RemoveEntity.merge) (no := 1) ⟨a0⟩ (fun h => by subst h; rfl)
    (by simp [RemoveEntity.merge, bytesStr_strBytes])]

theorem ShardStateSnapshotEntity.fields_pre (m : ShardStateSnapshotEntity) : FieldsPre m.fields :=
  (fieldsPre_append (fieldsPre_append (pre_fString (by decide))
    (pre_fBytes (by decide)))
    (pre_fEnum (by decide)))

theorem ShardStateSnapshotEntity.read_write (m : ShardStateSnapshotEntity) (hs : m.write.length < 2 ^ 32) :
    ShardStateSnapshotEntity.read m.write = some m := by
  unfold ShardStateSnapshotEntity.read
  rw [show parseFields m.write = some m.fields from parse_of_small m.fields_pre hs]
  rw [Option.bind_some]
  obtain ⟨a0, a1, a2⟩ := m
  simp only [ShardStateSnapshotEntity.fields, List.foldlM_append, Option.bind_eq_bind]
  rw [fold_fString (merge := ShardStateSnapshotEntity.merge) (no := 1) ⟨a0, [], 0⟩ (fun h => by subst h; rfl)
    (by simp [ShardStateSnapshotEntity.merge, bytesStr_strBytes])]
  simp only [Option.bind_some]
  rw [fold_fBytes (merge := ShardStateSnapshotEntity.merge) (no := 2) ⟨a0, a1, 0⟩ (fun h => by subst h; rfl) rfl]
  simp only [Option.bind_some]
  rw [fold_fEnum (merge := ShardStateSnapshotEntity.merge) (no := 3) ⟨a0, a1, a2⟩ (fun h => by subst h; rfl)
    (by simp [ShardStateSnapshotEntity.merge, readEnum_ofInt64])]

theorem ShardStateSnapshot.fields_pre (m : ShardStateSnapshot) : FieldsPre m.fields :=
  (fieldsPre_append (fieldsPre_append (pre_fVarint (by decide) (Nat.lt_trans (UInt32.toNat_lt _) (by decide)))
    (pre_fVarint (by decide) (UInt64.toNat_lt _)))
    (pre_fRepeated (by decide)))

theorem ShardStateSnapshot.read_write (m : ShardStateSnapshot) (hs : m.write.length < 2 ^ 32) :
    ShardStateSnapshot.read m.write = some m := by
  unfold ShardStateSnapshot.read
  rw [show parseFields m.write = some m.fields from parse_of_small m.fields_pre hs]
  rw [Option.bind_some]
  have hs2 : ∀ x ∈ m.entities, (ShardStateSnapshotEntity.write x).length < 2 ^ 32 := by
    intro x hx
    refine Nat.lt_of_le_of_lt (length_le_encodeFields (no := 3) (fs := m.fields) ?_) hs
    simp only [ShardStateSnapshot.fields, List.mem_append, fRepeated, List.mem_map]
    grind
  obtain ⟨a0, a1, a2⟩ := m
  simp only [] at hs2
  simp only [ShardStateSnapshot.fields, List.foldlM_append, Option.bind_eq_bind]
  rw [fold_fVarint (merge := ShardStateSnapshot.merge) (no := 1) ⟨a0, 0, []⟩
    (fun h => by have h := UInt32.toNat_inj.1 (h.trans (UInt32.toNat_zero).symm); subst h; rfl)
    (by simp [ShardStateSnapshot.merge])]
  simp only [Option.bind_some]
  rw [fold_fVarint (merge := ShardStateSnapshot.merge) (no := 2) ⟨a0, a1, []⟩
    (fun h => by have h := UInt64.toNat_inj.1 (h.trans (UInt64.toNat_zero).symm); subst h; rfl)
    (by simp [ShardStateSnapshot.merge])]
  simp only [Option.bind_some]
  rw [fold_fRepeated (merge := ShardStateSnapshot.merge) (no := 3) (fun l => ⟨a0, a1, l⟩)
    (fun ys x hx => by simp [ShardStateSnapshot.merge, ShardStateSnapshotEntity.read_write x (hs2 x hx)])]

theorem GetShardingStats.fields_pre (m : GetShardingStats) : FieldsPre m.fields :=
  (by intro f hf; simp [GetShardingStats.fields] at hf)

theorem GetShardingStats.read_write (m : GetShardingStats) (hs : m.write.length < 2 ^ 32) :
    GetShardingStats.read m.write = some m := by
  unfold GetShardingStats.read
  rw [show parseFields m.write = some m.fields from parse_of_small m.fields_pre hs]
  rw [Option.bind_some]
  rfl

theorem NodeStats.fields_pre (m : NodeStats) : FieldsPre m.fields :=
  (fieldsPre_append (fieldsPre_append (pre_fVarint (by decide) (UInt64.toNat_lt _))
    (pre_fVarint (by decide) (UInt64.toNat_lt _)))
    (pre_fEnum (by decide)))

theorem NodeStats.read_write (m : NodeStats) (hs : m.write.length < 2 ^ 32) :
    NodeStats.read m.write = some m := by
  unfold NodeStats.read
  rw [show parseFields m.write = some m.fields from parse_of_small m.fields_pre hs]
  rw [Option.bind_some]
  obtain ⟨a0, a1, a2⟩ := m
  simp only [NodeStats.fields, List.foldlM_append, Option.bind_eq_bind]
  rw [fold_fVarint (merge := NodeStats.merge) (no := 1) ⟨a0, 0, 0⟩
    (fun h => by have h := UInt64.toNat_inj.1 (h.trans (UInt64.toNat_zero).symm); subst h; rfl)
    (by simp [NodeStats.merge])]
  simp only [Option.bind_some]
  rw [fold_fVarint (merge := NodeStats.merge) (no := 2) ⟨a0, a1, 0⟩
    (fun h => by have h := UInt64.toNat_inj.1 (h.trans (UInt64.toNat_zero).symm); subst h; rfl)
    (by simp [NodeStats.merge])]
  simp only [Option.bind_some]
  rw [fold_fEnum (merge := NodeStats.merge) (no := 3) ⟨a0, a1, a2⟩ (fun h => by subst h; rfl)
    (by simp [NodeStats.merge, readEnum_ofInt64])]

theorem ShardingStats.fields_pre (m : ShardingStats) : FieldsPre m.fields :=
  (fieldsPre_append (fieldsPre_append (fieldsPre_append (pre_fString (by decide))
    (pre_fVarint (by decide) (UInt64.toNat_lt _)))
    (pre_fRepeated (by decide)))
    (pre_fRepeated (by decide)))

theorem ShardingStats.read_write (m : ShardingStats) (hs : m.write.length < 2 ^ 32) :
    ShardingStats.read m.write = some m := by
  unfold ShardingStats.read
  rw [show parseFields m.write = some m.fields from parse_of_small m.fields_pre hs]
  rw [Option.bind_some]
  have hs2 : ∀ x ∈ m.shards, (RemoteShard.write x).length < 2 ^ 32 := by
    intro x hx
    refine Nat.lt_of_le_of_lt (length_le_encodeFields (no := 3) (fs := m.fields) ?_) hs
    simp only [ShardingStats.fields, List.mem_append, fRepeated, List.mem_map]
    grind
  have hs3 : ∀ x ∈ m.nodes, (NodeStats.write x).length < 2 ^ 32 := by
    intro x hx
    refine Nat.lt_of_le_of_lt (length_le_encodeFields (no := 4) (fs := m.fields) ?_) hs
    simp only [ShardingStats.fields, List.mem_append, fRepeated, List.mem_map]
    grind
  obtain ⟨a0, a1, a2, a3⟩ := m
  simp only [] at hs2 hs3
  simp only [ShardingStats.fields, List.foldlM_append, Option.bind_eq_bind]
  rw [fold_fString (merge := ShardingStats.merge) (no := 1) ⟨a0, 0, [], []⟩ (fun h => by subst h; rfl)
    (by simp [ShardingStats.merge, bytesStr_strBytes])]
  simp only [Option.bind_some]
  rw [fold_fVarint (merge := ShardingStats.merge) (no := 2) ⟨a0, a1, [], []⟩
    (fun h => by have h := UInt64.toNat_inj.1 (h.trans (UInt64.toNat_zero).symm); subst h; rfl)
    (by simp [ShardingStats.merge])]
  simp only [Option.bind_some]
  rw [fold_fRepeated (merge := ShardingStats.merge) (no := 3) (fun l => ⟨a0, a1, l, []⟩)
    (fun ys x hx => by simp [ShardingStats.merge, RemoteShard.read_write x (hs2 x hx)])]
  simp only [Option.bind_some]
  rw [fold_fRepeated (merge := ShardingStats.merge) (no := 4) (fun l => ⟨a0, a1, a2, l⟩)
    (fun ys x hx => by simp [ShardingStats.merge, NodeStats.read_write x (hs3 x hx)])]

theorem GetShardStats.fields_pre (m : GetShardStats) : FieldsPre m.fields :=
  (by intro f hf; simp [GetShardStats.fields] at hf)

theorem GetShardStats.read_write (m : GetShardStats) (hs : m.write.length < 2 ^ 32) :
    GetShardStats.read m.write = some m := by
  unfold GetShardStats.read
  rw [show parseFields m.write = some m.fields from parse_of_small m.fields_pre hs]
  rw [Option.bind_some]
  rfl

theorem ShardStats.fields_pre (m : ShardStats) : FieldsPre m.fields :=
  (fieldsPre_append (fieldsPre_append (pre_fVarint (by decide) (Nat.lt_trans (UInt32.toNat_lt _) (by decide)))
    (pre_fVarint (by decide) (UInt64.toNat_lt _)))
    (pre_fRepeated (by decide)))

theorem ShardStats.read_write (m : ShardStats) (hs : m.write.length < 2 ^ 32) :
    ShardStats.read m.write = some m := by
  unfold ShardStats.read
  rw [show parseFields m.write = some m.fields from parse_of_small m.fields_pre hs]
  rw [Option.bind_some]
  obtain ⟨a0, a1, a2⟩ := m
  simp only [ShardStats.fields, List.foldlM_append, Option.bind_eq_bind]
  rw [fold_fVarint (merge := ShardStats.merge) (no := 1) ⟨a0, 0, []⟩
    (fun h => by have h := UInt32.toNat_inj.1 (h.trans (UInt32.toNat_zero).symm); subst h; rfl)
    (by simp [ShardStats.merge])]
  simp only [Option.bind_some]
  rw [fold_fVarint (merge := ShardStats.merge) (no := 2) ⟨a0, a1, []⟩
    (fun h => by have h := UInt64.toNat_inj.1 (h.trans (UInt64.toNat_zero).symm); subst h; rfl)
    (by simp [ShardStats.merge])]
  simp only [Option.bind_some]
  rw [fold_fRepeated (merge := ShardStats.merge) (no := 3) (fun l => ⟨a0, a1, l⟩)
    (fun ys x hx => by simp [ShardStats.merge, bytesStr_strBytes])]

end Verif.Proto.Sharding
