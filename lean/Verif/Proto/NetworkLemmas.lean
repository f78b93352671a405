import Verif.Proto.Network

/-! Round trips of the messages of `Verif.Proto.Network`: a message whose encoding is below 2^32 bytes
(the generated code stores lengths in a `u32`) is read back unchanged. -/

set_option linter.unusedSimpArgs false

namespace Verif.Proto.Network
open Verif.Proto

theorem Timestamp.fields_pre (m : Timestamp) : FieldsPre m.fields :=
  (fieldsPre_append (pre_fInt64 (by decide))
    (pre_fEnum (by decide)))

theorem Timestamp.read_write (m : Timestamp) (hs : m.write.length < 2 ^ 32) :
    Timestamp.read m.write = some m := by
  unfold Timestamp.read
  rw [show parseFields m.write = some m.fields from parse_of_small m.fields_pre hs]
  rw [Option.bind_some]
  obtain ⟨a0, a1⟩ := m
  simp only [Timestamp.fields, List.foldlM_append, Option.bind_eq_bind]
  rw [fold_fInt64 (merge := Timestamp.merge) (no := 1) ⟨a0, 0⟩
    (fun h => by have h := Int64.toInt.inj (h.trans Int64.toInt_zero.symm); subst h; rfl)
    (by simp [Timestamp.merge, ofInt64_toInt64'])]
  simp only [Option.bind_some]
  rw [fold_fEnum (merge := Timestamp.merge) (no := 2) ⟨a0, a1⟩ (fun h => by subst h; rfl)
    (by simp [Timestamp.merge, readEnum_ofInt64])]

theorem UInt64Value.fields_pre (m : UInt64Value) : FieldsPre m.fields :=
  (pre_fVarint (by decide) (UInt64.toNat_lt _))

theorem UInt64Value.read_write (m : UInt64Value) (hs : m.write.length < 2 ^ 32) :
    UInt64Value.read m.write = some m := by
  unfold UInt64Value.read
  rw [show parseFields m.write = some m.fields from parse_of_small m.fields_pre hs]
  rw [Option.bind_some]
  obtain ⟨a0⟩ := m
  simp only [UInt64Value.fields, List.foldlM_append, Option.bind_eq_bind]
  rw [fold_fVarint (merge := UInt64Value.merge) (no := 1) ⟨a0⟩
    (fun h => by have h := UInt64.toNat_inj.1 (h.trans (UInt64.toNat_zero).symm); subst h; rfl)
    (by simp [UInt64Value.merge])]

theorem RemoteNode.fields_pre (m : RemoteNode) : FieldsPre m.fields :=
  (fieldsPre_append (fieldsPre_append (fieldsPre_append (fieldsPre_append (pre_fVarint (by decide) (UInt64.toNat_lt _))
    (pre_fString (by decide)))
    (pre_fMsg (by decide)))
    (pre_fString (by decide)))
    (pre_fRepeated (by decide)))

theorem RemoteNode.read_write (m : RemoteNode) (hok : m.Ok) (hs : m.write.length < 2 ^ 32) :
    RemoteNode.read m.write = some m := by
  unfold RemoteNode.read
  rw [show parseFields m.write = some m.fields from parse_of_small m.fields_pre hs]
  rw [Option.bind_some]
  have hs2 : ∀ x, m.nodeStartedAt = some x → (Timestamp.write x).length < 2 ^ 32 := by
    intro x hx
    refine Nat.lt_of_le_of_lt (length_le_encodeFields (no := 3) (fs := m.fields) ?_) hs
    have hx' : fMsg 3 (m.nodeStartedAt.map Timestamp.write) = [(3, .len (Timestamp.write x))] := by rw [hx]; rfl
    simp only [RemoteNode.fields, List.mem_append]
    grind
  have hs4 : ∀ x ∈ m.attributes, (mapEntry x).length < 2 ^ 32 := by
    intro x hx
    refine Nat.lt_of_le_of_lt (length_le_encodeFields (no := 5) (fs := m.fields) ?_) hs
    simp only [RemoteNode.fields, List.mem_append, fRepeated, List.mem_map]
    grind
  have hok4 := hok
  unfold RemoteNode.Ok at hok4
  obtain ⟨a0, a1, a2, a3, a4⟩ := m
  simp only [] at hs2 hs4
  simp only [RemoteNode.fields, List.foldlM_append, Option.bind_eq_bind]
  rw [fold_fVarint (merge := RemoteNode.merge) (no := 1) ⟨a0, "", none, "", []⟩
    (fun h => by have h := UInt64.toNat_inj.1 (h.trans (UInt64.toNat_zero).symm); subst h; rfl)
    (by simp [RemoteNode.merge])]
  simp only [Option.bind_some]
  rw [fold_fString (merge := RemoteNode.merge) (no := 2) ⟨a0, a1, none, "", []⟩ (fun h => by subst h; rfl)
    (by simp [RemoteNode.merge, bytesStr_strBytes])]
  simp only [Option.bind_some]
  rw [fold_fMsg (merge := RemoteNode.merge) (no := 3) ⟨a0, a1, a2, "", []⟩ (fun h => by subst h; rfl)
    (fun x hx => by simp [RemoteNode.merge, Timestamp.read_write x (hs2 x hx), hx])]
  simp only [Option.bind_some]
  rw [fold_fString (merge := RemoteNode.merge) (no := 4) ⟨a0, a1, a2, a3, []⟩ (fun h => by subst h; rfl)
    (by simp [RemoteNode.merge, bytesStr_strBytes])]
  simp only [Option.bind_some]
  rw [fold_fMap (merge := RemoteNode.merge) (no := 5) (fun l => ⟨a0, a1, a2, a3, l⟩) hok4
    (fun ys x hx => by simp [RemoteNode.merge, readMapEntry_mapEntry x (hs4 x hx)])]

theorem IdentifyEvent.fields_pre (m : IdentifyEvent) : FieldsPre m.fields :=
  (fieldsPre_append (fieldsPre_append (pre_fVarint (by decide) (UInt64.toNat_lt _))
    (pre_fString (by decide)))
    (pre_fString (by decide)))

theorem IdentifyEvent.read_write (m : IdentifyEvent) (hs : m.write.length < 2 ^ 32) :
    IdentifyEvent.read m.write = some m := by
  unfold IdentifyEvent.read
  rw [show parseFields m.write = some m.fields from parse_of_small m.fields_pre hs]
  rw [Option.bind_some]
  obtain ⟨a0, a1, a2⟩ := m
  simp only [IdentifyEvent.fields, List.foldlM_append, Option.bind_eq_bind]
  rw [fold_fVarint (merge := IdentifyEvent.merge) (no := 1) ⟨a0, "", ""⟩
    (fun h => by have h := UInt64.toNat_inj.1 (h.trans (UInt64.toNat_zero).symm); subst h; rfl)
    (by simp [IdentifyEvent.merge])]
  simp only [Option.bind_some]
  rw [fold_fString (merge := IdentifyEvent.merge) (no := 2) ⟨a0, a1, ""⟩ (fun h => by subst h; rfl)
    (by simp [IdentifyEvent.merge, bytesStr_strBytes])]
  simp only [Option.bind_some]
  rw [fold_fString (merge := IdentifyEvent.merge) (no := 3) ⟨a0, a1, a2⟩ (fun h => by subst h; rfl)
    (by simp [IdentifyEvent.merge, bytesStr_strBytes])]

theorem SystemCapabilities.fields_pre (m : SystemCapabilities) : FieldsPre m.fields :=
  (fieldsPre_append (pre_fRepeated (by decide))
    (pre_fRepeated (by decide)))

theorem SystemCapabilities.read_write (m : SystemCapabilities) (hs : m.write.length < 2 ^ 32) :
    SystemCapabilities.read m.write = some m := by
  unfold SystemCapabilities.read
  rw [show parseFields m.write = some m.fields from parse_of_small m.fields_pre hs]
  rw [Option.bind_some]
  obtain ⟨a0, a1⟩ := m
  simp only [SystemCapabilities.fields, List.foldlM_append, Option.bind_eq_bind]
  rw [fold_fRepeated (merge := SystemCapabilities.merge) (no := 1) (fun l => ⟨l, []⟩)
    (fun ys x hx => by simp [SystemCapabilities.merge, bytesStr_strBytes])]
  simp only [Option.bind_some]
  rw [fold_fRepeated (merge := SystemCapabilities.merge) (no := 2) (fun l => ⟨a0, l⟩)
    (fun ys x hx => by simp [SystemCapabilities.merge, bytesStr_strBytes])]

theorem NodeIdentity.fields_pre (m : NodeIdentity) : FieldsPre m.fields :=
  (fieldsPre_append (fieldsPre_append (fieldsPre_append (fieldsPre_append (fieldsPre_append (fieldsPre_append (fieldsPre_append (fieldsPre_append (pre_fVarint (by decide) (UInt64.toNat_lt _))
    (pre_fString (by decide)))
    (pre_fString (by decide)))
    (pre_fString (by decide)))
    (pre_fString (by decide)))
    (pre_fMsg (by decide)))
    (pre_fRepeated (by decide)))
    (pre_fMsg (by decide)))
    (pre_fRepeated (by decide)))

theorem NodeIdentity.read_write (m : NodeIdentity) (hok : m.Ok) (hs : m.write.length < 2 ^ 32) :
    NodeIdentity.read m.write = some m := by
  unfold NodeIdentity.read
  rw [show parseFields m.write = some m.fields from parse_of_small m.fields_pre hs]
  rw [Option.bind_some]
  have hs5 : ∀ x, m.nodeStartedAt = some x → (Timestamp.write x).length < 2 ^ 32 := by
    intro x hx
    refine Nat.lt_of_le_of_lt (length_le_encodeFields (no := 6) (fs := m.fields) ?_) hs
    have hx' : fMsg 6 (m.nodeStartedAt.map Timestamp.write) = [(6, .len (Timestamp.write x))] := by rw [hx]; rfl
    simp only [NodeIdentity.fields, List.mem_append]
    grind
  have hs6 : ∀ x ∈ m.peers, (RemoteNode.write x).length < 2 ^ 32 := by
    intro x hx
    refine Nat.lt_of_le_of_lt (length_le_encodeFields (no := 7) (fs := m.fields) ?_) hs
    simp only [NodeIdentity.fields, List.mem_append, fRepeated, List.mem_map]
    grind
  have hs7 : ∀ x, m.capabilities = some x → (SystemCapabilities.write x).length < 2 ^ 32 := by
    intro x hx
    refine Nat.lt_of_le_of_lt (length_le_encodeFields (no := 8) (fs := m.fields) ?_) hs
    have hx' : fMsg 8 (m.capabilities.map SystemCapabilities.write) = [(8, .len (SystemCapabilities.write x))] := by rw [hx]; rfl
    simp only [NodeIdentity.fields, List.mem_append]
    grind
  have hs8 : ∀ x ∈ m.attributes, (mapEntry x).length < 2 ^ 32 := by
    intro x hx
    refine Nat.lt_of_le_of_lt (length_le_encodeFields (no := 9) (fs := m.fields) ?_) hs
    simp only [NodeIdentity.fields, List.mem_append, fRepeated, List.mem_map]
    grind
  obtain ⟨hok6, hok8⟩ := hok
  obtain ⟨a0, a1, a2, a3, a4, a5, a6, a7, a8⟩ := m
  simp only [] at hs5 hs6 hs7 hs8
  simp only [NodeIdentity.fields, List.foldlM_append, Option.bind_eq_bind]
  rw [fold_fVarint (merge := NodeIdentity.merge) (no := 1) ⟨a0, "", "", "", "", none, [], none, []⟩
    (fun h => by have h := UInt64.toNat_inj.1 (h.trans (UInt64.toNat_zero).symm); subst h; rfl)
    (by simp [NodeIdentity.merge])]
  simp only [Option.bind_some]
  rw [fold_fString (merge := NodeIdentity.merge) (no := 2) ⟨a0, a1, "", "", "", none, [], none, []⟩ (fun h => by subst h; rfl)
    (by simp [NodeIdentity.merge, bytesStr_strBytes])]
  simp only [Option.bind_some]
  rw [fold_fString (merge := NodeIdentity.merge) (no := 3) ⟨a0, a1, a2, "", "", none, [], none, []⟩ (fun h => by subst h; rfl)
    (by simp [NodeIdentity.merge, bytesStr_strBytes])]
  simp only [Option.bind_some]
  rw [fold_fString (merge := NodeIdentity.merge) (no := 4) ⟨a0, a1, a2, a3, "", none, [], none, []⟩ (fun h => by subst h; rfl)
    (by simp [NodeIdentity.merge, bytesStr_strBytes])]
  simp only [Option.bind_some]
  rw [fold_fString (merge := NodeIdentity.merge) (no := 5) ⟨a0, a1, a2, a3, a4, none, [], none, []⟩ (fun h => by subst h; rfl)
    (by simp [NodeIdentity.merge, bytesStr_strBytes])]
  simp only [Option.bind_some]
  rw [fold_fMsg (merge := NodeIdentity.merge) (no := 6) ⟨a0, a1, a2, a3, a4, a5, [], none, []⟩ (fun h => by subst h; rfl)
    (fun x hx => by simp [NodeIdentity.merge, Timestamp.read_write x (hs5 x hx), hx])]
  simp only [Option.bind_some]
  rw [fold_fRepeated (merge := NodeIdentity.merge) (no := 7) (fun l => ⟨a0, a1, a2, a3, a4, a5, l, none, []⟩)
    (fun ys x hx => by simp [NodeIdentity.merge, RemoteNode.read_write x (hok6 x hx) (hs6 x hx)])]
  simp only [Option.bind_some]
  rw [fold_fMsg (merge := NodeIdentity.merge) (no := 8) ⟨a0, a1, a2, a3, a4, a5, a6, a7, []⟩ (fun h => by subst h; rfl)
    (fun x hx => by simp [NodeIdentity.merge, SystemCapabilities.read_write x (hs7 x hx), hx])]
  simp only [Option.bind_some]
  rw [fold_fMap (merge := NodeIdentity.merge) (no := 9) (fun l => ⟨a0, a1, a2, a3, a4, a5, a6, a7, l⟩) hok8
    (fun ys x hx => by simp [NodeIdentity.merge, readMapEntry_mapEntry x (hs8 x hx)])]

theorem ClientHandshake.fields_pre (m : ClientHandshake) : FieldsPre m.fields :=
  (fieldsPre_append (fieldsPre_append (fieldsPre_append (fieldsPre_append (pre_fVarint (by decide) (UInt64.toNat_lt _))
    (pre_fRepeated (by decide)))
    (pre_fString (by decide)))
    (pre_fString (by decide)))
    (pre_fMsg (by decide)))

theorem ClientHandshake.read_write (m : ClientHandshake) (hok : m.Ok) (hs : m.write.length < 2 ^ 32) :
    ClientHandshake.read m.write = some m := by
  unfold ClientHandshake.read
  rw [show parseFields m.write = some m.fields from parse_of_small m.fields_pre hs]
  rw [Option.bind_some]
  have hs1 : ∀ x ∈ m.nodes, (RemoteNode.write x).length < 2 ^ 32 := by
    intro x hx
    refine Nat.lt_of_le_of_lt (length_le_encodeFields (no := 2) (fs := m.fields) ?_) hs
    simp only [ClientHandshake.fields, List.mem_append, fRepeated, List.mem_map]
    grind
  have hs4 : ∀ x, m.nodeStartedAt = some x → (Timestamp.write x).length < 2 ^ 32 := by
    intro x hx
    refine Nat.lt_of_le_of_lt (length_le_encodeFields (no := 5) (fs := m.fields) ?_) hs
    have hx' : fMsg 5 (m.nodeStartedAt.map Timestamp.write) = [(5, .len (Timestamp.write x))] := by rw [hx]; rfl
    simp only [ClientHandshake.fields, List.mem_append]
    grind
  have hok1 := hok
  unfold ClientHandshake.Ok at hok1
  obtain ⟨a0, a1, a2, a3, a4⟩ := m
  simp only [] at hs1 hs4
  simp only [ClientHandshake.fields, List.foldlM_append, Option.bind_eq_bind]
  rw [fold_fVarint (merge := ClientHandshake.merge) (no := 1) ⟨a0, [], "", "", none⟩
    (fun h => by have h := UInt64.toNat_inj.1 (h.trans (UInt64.toNat_zero).symm); subst h; rfl)
    (by simp [ClientHandshake.merge])]
  simp only [Option.bind_some]
  rw [fold_fRepeated (merge := ClientHandshake.merge) (no := 2) (fun l => ⟨a0, l, "", "", none⟩)
    (fun ys x hx => by simp [ClientHandshake.merge, RemoteNode.read_write x (hok1 x hx) (hs1 x hx)])]
  simp only [Option.bind_some]
  rw [fold_fString (merge := ClientHandshake.merge) (no := 3) ⟨a0, a1, a2, "", none⟩ (fun h => by subst h; rfl)
    (by simp [ClientHandshake.merge, bytesStr_strBytes])]
  simp only [Option.bind_some]
  rw [fold_fString (merge := ClientHandshake.merge) (no := 4) ⟨a0, a1, a2, a3, none⟩ (fun h => by subst h; rfl)
    (by simp [ClientHandshake.merge, bytesStr_strBytes])]
  simp only [Option.bind_some]
  rw [fold_fMsg (merge := ClientHandshake.merge) (no := 5) ⟨a0, a1, a2, a3, a4⟩ (fun h => by subst h; rfl)
    (fun x hx => by simp [ClientHandshake.merge, Timestamp.read_write x (hs4 x hx), hx])]

theorem ClientResult.fields_pre (m : ClientResult) : FieldsPre m.fields :=
  (fieldsPre_append (fieldsPre_append (pre_fString (by decide))
    (pre_fBytes (by decide)))
    (pre_fString (by decide)))

theorem ClientResult.read_write (m : ClientResult) (hs : m.write.length < 2 ^ 32) :
    ClientResult.read m.write = some m := by
  unfold ClientResult.read
  rw [show parseFields m.write = some m.fields from parse_of_small m.fields_pre hs]
  rw [Option.bind_some]
  obtain ⟨a0, a1, a2⟩ := m
  simp only [ClientResult.fields, List.foldlM_append, Option.bind_eq_bind]
  rw [fold_fString (merge := ClientResult.merge) (no := 1) ⟨a0, [], ""⟩ (fun h => by subst h; rfl)
    (by simp [ClientResult.merge, bytesStr_strBytes])]
  simp only [Option.bind_some]
  rw [fold_fBytes (merge := ClientResult.merge) (no := 2) ⟨a0, a1, ""⟩ (fun h => by subst h; rfl) rfl]
  simp only [Option.bind_some]
  rw [fold_fString (merge := ClientResult.merge) (no := 3) ⟨a0, a1, a2⟩ (fun h => by subst h; rfl)
    (by simp [ClientResult.merge, bytesStr_strBytes])]

theorem PingEvent.fields_pre (m : PingEvent) : FieldsPre m.fields :=
  (fieldsPre_append (fieldsPre_append (fieldsPre_append (pre_fString (by decide))
    (pre_fString (by decide)))
    (pre_fVarint (by decide) (UInt64.toNat_lt _)))
    (pre_fBool (by decide)))

theorem PingEvent.read_write (m : PingEvent) (hs : m.write.length < 2 ^ 32) :
    PingEvent.read m.write = some m := by
  unfold PingEvent.read
  rw [show parseFields m.write = some m.fields from parse_of_small m.fields_pre hs]
  rw [Option.bind_some]
  obtain ⟨a0, a1, a2, a3⟩ := m
  simp only [PingEvent.fields, List.foldlM_append, Option.bind_eq_bind]
  rw [fold_fString (merge := PingEvent.merge) (no := 1) ⟨a0, "", 0, false⟩ (fun h => by subst h; rfl)
    (by simp [PingEvent.merge, bytesStr_strBytes])]
  simp only [Option.bind_some]
  rw [fold_fString (merge := PingEvent.merge) (no := 2) ⟨a0, a1, 0, false⟩ (fun h => by subst h; rfl)
    (by simp [PingEvent.merge, bytesStr_strBytes])]
  simp only [Option.bind_some]
  rw [fold_fVarint (merge := PingEvent.merge) (no := 3) ⟨a0, a1, a2, false⟩
    (fun h => by have h := UInt64.toNat_inj.1 (h.trans (UInt64.toNat_zero).symm); subst h; rfl)
    (by simp [PingEvent.merge])]
  simp only [Option.bind_some]
  rw [fold_fBool (merge := PingEvent.merge) (no := 4) ⟨a0, a1, a2, a3⟩ (fun h => by subst h; rfl)
    (fun h => by subst h; rfl)]

theorem PongEvent.fields_pre (m : PongEvent) : FieldsPre m.fields :=
  (fieldsPre_append (pre_fString (by decide))
    (pre_fString (by decide)))

theorem PongEvent.read_write (m : PongEvent) (hs : m.write.length < 2 ^ 32) :
    PongEvent.read m.write = some m := by
  unfold PongEvent.read
  rw [show parseFields m.write = some m.fields from parse_of_small m.fields_pre hs]
  rw [Option.bind_some]
  obtain ⟨a0, a1⟩ := m
  simp only [PongEvent.fields, List.foldlM_append, Option.bind_eq_bind]
  rw [fold_fString (merge := PongEvent.merge) (no := 1) ⟨a0, ""⟩ (fun h => by subst h; rfl)
    (by simp [PongEvent.merge, bytesStr_strBytes])]
  simp only [Option.bind_some]
  rw [fold_fString (merge := PongEvent.merge) (no := 2) ⟨a0, a1⟩ (fun h => by subst h; rfl)
    (by simp [PongEvent.merge, bytesStr_strBytes])]

theorem CreateActorEvent.fields_pre (m : CreateActorEvent) : FieldsPre m.fields :=
  (fieldsPre_append (fieldsPre_append (fieldsPre_append (fieldsPre_append (pre_fString (by decide))
    (pre_fString (by decide)))
    (pre_fString (by decide)))
    (pre_fBytes (by decide)))
    (pre_fString (by decide)))

theorem CreateActorEvent.read_write (m : CreateActorEvent) (hs : m.write.length < 2 ^ 32) :
    CreateActorEvent.read m.write = some m := by
  unfold CreateActorEvent.read
  rw [show parseFields m.write = some m.fields from parse_of_small m.fields_pre hs]
  rw [Option.bind_some]
  obtain ⟨a0, a1, a2, a3, a4⟩ := m
  simp only [CreateActorEvent.fields, List.foldlM_append, Option.bind_eq_bind]
  rw [fold_fString (merge := CreateActorEvent.merge) (no := 1) ⟨a0, "", "", [], ""⟩ (fun h => by subst h; rfl)
    (by simp [CreateActorEvent.merge, bytesStr_strBytes])]
  simp only [Option.bind_some]
  rw [fold_fString (merge := CreateActorEvent.merge) (no := 2) ⟨a0, a1, "", [], ""⟩ (fun h => by subst h; rfl)
    (by simp [CreateActorEvent.merge, bytesStr_strBytes])]
  simp only [Option.bind_some]
  rw [fold_fString (merge := CreateActorEvent.merge) (no := 3) ⟨a0, a1, a2, [], ""⟩ (fun h => by subst h; rfl)
    (by simp [CreateActorEvent.merge, bytesStr_strBytes])]
  simp only [Option.bind_some]
  rw [fold_fBytes (merge := CreateActorEvent.merge) (no := 4) ⟨a0, a1, a2, a3, ""⟩ (fun h => by subst h; rfl) rfl]
  simp only [Option.bind_some]
  rw [fold_fString (merge := CreateActorEvent.merge) (no := 5) ⟨a0, a1, a2, a3, a4⟩ (fun h => by subst h; rfl)
    (by simp [CreateActorEvent.merge, bytesStr_strBytes])]

theorem FindActorEvent.fields_pre (m : FindActorEvent) : FieldsPre m.fields :=
  (fieldsPre_append (fieldsPre_append (pre_fString (by decide))
    (pre_fString (by decide)))
    (pre_fString (by decide)))

theorem FindActorEvent.read_write (m : FindActorEvent) (hs : m.write.length < 2 ^ 32) :
    FindActorEvent.read m.write = some m := by
  unfold FindActorEvent.read
  rw [show parseFields m.write = some m.fields from parse_of_small m.fields_pre hs]
  rw [Option.bind_some]
  obtain ⟨a0, a1, a2⟩ := m
  simp only [FindActorEvent.fields, List.foldlM_append, Option.bind_eq_bind]
  rw [fold_fString (merge := FindActorEvent.merge) (no := 1) ⟨a0, "", ""⟩ (fun h => by subst h; rfl)
    (by simp [FindActorEvent.merge, bytesStr_strBytes])]
  simp only [Option.bind_some]
  rw [fold_fString (merge := FindActorEvent.merge) (no := 2) ⟨a0, a1, ""⟩ (fun h => by subst h; rfl)
    (by simp [FindActorEvent.merge, bytesStr_strBytes])]
  simp only [Option.bind_some]
  rw [fold_fString (merge := FindActorEvent.merge) (no := 3) ⟨a0, a1, a2⟩ (fun h => by subst h; rfl)
    (by simp [FindActorEvent.merge, bytesStr_strBytes])]

theorem ActorAddress.fields_pre (m : ActorAddress) : FieldsPre m.fields :=
  (fieldsPre_append (fieldsPre_append (pre_fString (by decide))
    (pre_fMsg (by decide)))
    (pre_fString (by decide)))

theorem ActorAddress.read_write (m : ActorAddress) (hs : m.write.length < 2 ^ 32) :
    ActorAddress.read m.write = some m := by
  unfold ActorAddress.read
  rw [show parseFields m.write = some m.fields from parse_of_small m.fields_pre hs]
  rw [Option.bind_some]
  have hs1 : ∀ x, m.nodeId = some x → (UInt64Value.write x).length < 2 ^ 32 := by
    intro x hx
    refine Nat.lt_of_le_of_lt (length_le_encodeFields (no := 2) (fs := m.fields) ?_) hs
    have hx' : fMsg 2 (m.nodeId.map UInt64Value.write) = [(2, .len (UInt64Value.write x))] := by rw [hx]; rfl
    simp only [ActorAddress.fields, List.mem_append]
    grind
  obtain ⟨a0, a1, a2⟩ := m
  simp only [] at hs1
  simp only [ActorAddress.fields, List.foldlM_append, Option.bind_eq_bind]
  rw [fold_fString (merge := ActorAddress.merge) (no := 1) ⟨a0, none, ""⟩ (fun h => by subst h; rfl)
    (by simp [ActorAddress.merge, bytesStr_strBytes])]
  simp only [Option.bind_some]
  rw [fold_fMsg (merge := ActorAddress.merge) (no := 2) ⟨a0, a1, ""⟩ (fun h => by subst h; rfl)
    (fun x hx => by simp [ActorAddress.merge, UInt64Value.read_write x (hs1 x hx), hx])]
  simp only [Option.bind_some]
  rw [fold_fString (merge := ActorAddress.merge) (no := 3) ⟨a0, a1, a2⟩ (fun h => by subst h; rfl)
    (by simp [ActorAddress.merge, bytesStr_strBytes])]

theorem MessageRequest.fields_pre (m : MessageRequest) : FieldsPre m.fields :=
  (fieldsPre_append (fieldsPre_append (fieldsPre_append (fieldsPre_append (fieldsPre_append (fieldsPre_append (pre_fString (by decide))
    (pre_fString (by decide)))
    (pre_fString (by decide)))
    (pre_fBytes (by decide)))
    (pre_fString (by decide)))
    (pre_fBool (by decide)))
    (pre_fVarint (by decide) (UInt64.toNat_lt _)))

theorem MessageRequest.read_write (m : MessageRequest) (hs : m.write.length < 2 ^ 32) :
    MessageRequest.read m.write = some m := by
  unfold MessageRequest.read
  rw [show parseFields m.write = some m.fields from parse_of_small m.fields_pre hs]
  rw [Option.bind_some]
  obtain ⟨a0, a1, a2, a3, a4, a5, a6⟩ := m
  simp only [MessageRequest.fields, List.foldlM_append, Option.bind_eq_bind]
  rw [fold_fString (merge := MessageRequest.merge) (no := 1) ⟨a0, "", "", [], "", false, 0⟩ (fun h => by subst h; rfl)
    (by simp [MessageRequest.merge, bytesStr_strBytes])]
  simp only [Option.bind_some]
  rw [fold_fString (merge := MessageRequest.merge) (no := 2) ⟨a0, a1, "", [], "", false, 0⟩ (fun h => by subst h; rfl)
    (by simp [MessageRequest.merge, bytesStr_strBytes])]
  simp only [Option.bind_some]
  rw [fold_fString (merge := MessageRequest.merge) (no := 3) ⟨a0, a1, a2, [], "", false, 0⟩ (fun h => by subst h; rfl)
    (by simp [MessageRequest.merge, bytesStr_strBytes])]
  simp only [Option.bind_some]
  rw [fold_fBytes (merge := MessageRequest.merge) (no := 4) ⟨a0, a1, a2, a3, "", false, 0⟩ (fun h => by subst h; rfl) rfl]
  simp only [Option.bind_some]
  rw [fold_fString (merge := MessageRequest.merge) (no := 5) ⟨a0, a1, a2, a3, a4, false, 0⟩ (fun h => by subst h; rfl)
    (by simp [MessageRequest.merge, bytesStr_strBytes])]
  simp only [Option.bind_some]
  rw [fold_fBool (merge := MessageRequest.merge) (no := 6) ⟨a0, a1, a2, a3, a4, a5, 0⟩ (fun h => by subst h; rfl)
    (fun h => by subst h; rfl)]
  simp only [Option.bind_some]
  rw [fold_fVarint (merge := MessageRequest.merge) (no := 7) ⟨a0, a1, a2, a3, a4, a5, a6⟩
    (fun h => by have h := UInt64.toNat_inj.1 (h.trans (UInt64.toNat_zero).symm); subst h; rfl)
    (by simp [MessageRequest.merge])]

theorem SessionHandshake.fields_pre (m : SessionHandshake) : FieldsPre m.fields :=
  (fieldsPre_append (fieldsPre_append (fieldsPre_append (fieldsPre_append (fieldsPre_append (pre_fVarint (by decide) (UInt64.toNat_lt _))
    (pre_fRepeated (by decide)))
    (pre_fBytes (by decide)))
    (pre_fString (by decide)))
    (pre_fEnum (by decide)))
    (pre_fString (by decide)))

theorem SessionHandshake.read_write (m : SessionHandshake) (hok : m.Ok) (hs : m.write.length < 2 ^ 32) :
    SessionHandshake.read m.write = some m := by
  unfold SessionHandshake.read
  rw [show parseFields m.write = some m.fields from parse_of_small m.fields_pre hs]
  rw [Option.bind_some]
  have hs1 : ∀ x ∈ m.nodes, (RemoteNode.write x).length < 2 ^ 32 := by
    intro x hx
    refine Nat.lt_of_le_of_lt (length_le_encodeFields (no := 2) (fs := m.fields) ?_) hs
    simp only [SessionHandshake.fields, List.mem_append, fRepeated, List.mem_map]
    grind
  have hok1 := hok
  unfold SessionHandshake.Ok at hok1
  obtain ⟨a0, a1, a2, a3, a4, a5⟩ := m
  simp only [] at hs1
  simp only [SessionHandshake.fields, List.foldlM_append, Option.bind_eq_bind]
  rw [fold_fVarint (merge := SessionHandshake.merge) (no := 1) ⟨a0, [], [], "", 0, ""⟩
    (fun h => by have h := UInt64.toNat_inj.1 (h.trans (UInt64.toNat_zero).symm); subst h; rfl)
    (by simp [SessionHandshake.merge])]
  simp only [Option.bind_some]
  rw [fold_fRepeated (merge := SessionHandshake.merge) (no := 2) (fun l => ⟨a0, l, [], "", 0, ""⟩)
    (fun ys x hx => by simp [SessionHandshake.merge, RemoteNode.read_write x (hok1 x hx) (hs1 x hx)])]
  simp only [Option.bind_some]
  rw [fold_fBytes (merge := SessionHandshake.merge) (no := 3) ⟨a0, a1, a2, "", 0, ""⟩ (fun h => by subst h; rfl) rfl]
  simp only [Option.bind_some]
  rw [fold_fString (merge := SessionHandshake.merge) (no := 4) ⟨a0, a1, a2, a3, 0, ""⟩ (fun h => by subst h; rfl)
    (by simp [SessionHandshake.merge, bytesStr_strBytes])]
  simp only [Option.bind_some]
  rw [fold_fEnum (merge := SessionHandshake.merge) (no := 5) ⟨a0, a1, a2, a3, a4, ""⟩ (fun h => by subst h; rfl)
    (by simp [SessionHandshake.merge, readEnum_ofInt64])]
  simp only [Option.bind_some]
  rw [fold_fString (merge := SessionHandshake.merge) (no := 6) ⟨a0, a1, a2, a3, a4, a5⟩ (fun h => by subst h; rfl)
    (by simp [SessionHandshake.merge, bytesStr_strBytes])]

theorem StreamPublishEvent.fields_pre (m : StreamPublishEvent) : FieldsPre m.fields :=
  (fieldsPre_append (fieldsPre_append (fieldsPre_append (pre_fString (by decide))
    (pre_fString (by decide)))
    (pre_fBytes (by decide)))
    (pre_fString (by decide)))

theorem StreamPublishEvent.read_write (m : StreamPublishEvent) (hs : m.write.length < 2 ^ 32) :
    StreamPublishEvent.read m.write = some m := by
  unfold StreamPublishEvent.read
  rw [show parseFields m.write = some m.fields from parse_of_small m.fields_pre hs]
  rw [Option.bind_some]
  obtain ⟨a0, a1, a2, a3⟩ := m
  simp only [StreamPublishEvent.fields, List.foldlM_append, Option.bind_eq_bind]
  rw [fold_fString (merge := StreamPublishEvent.merge) (no := 1) ⟨a0, "", [], ""⟩ (fun h => by subst h; rfl)
    (by simp [StreamPublishEvent.merge, bytesStr_strBytes])]
  simp only [Option.bind_some]
  rw [fold_fString (merge := StreamPublishEvent.merge) (no := 2) ⟨a0, a1, [], ""⟩ (fun h => by subst h; rfl)
    (by simp [StreamPublishEvent.merge, bytesStr_strBytes])]
  simp only [Option.bind_some]
  rw [fold_fBytes (merge := StreamPublishEvent.merge) (no := 3) ⟨a0, a1, a2, ""⟩ (fun h => by subst h; rfl) rfl]
  simp only [Option.bind_some]
  rw [fold_fString (merge := StreamPublishEvent.merge) (no := 4) ⟨a0, a1, a2, a3⟩ (fun h => by subst h; rfl)
    (by simp [StreamPublishEvent.merge, bytesStr_strBytes])]

theorem NewNodeEvent.fields_pre (m : NewNodeEvent) : FieldsPre m.fields :=
  (fieldsPre_append (pre_fMsg (by decide))
    (pre_fString (by decide)))

theorem NewNodeEvent.read_write (m : NewNodeEvent) (hok : m.Ok) (hs : m.write.length < 2 ^ 32) :
    NewNodeEvent.read m.write = some m := by
  unfold NewNodeEvent.read
  rw [show parseFields m.write = some m.fields from parse_of_small m.fields_pre hs]
  rw [Option.bind_some]
  have hs0 : ∀ x, m.node = some x → (RemoteNode.write x).length < 2 ^ 32 := by
    intro x hx
    refine Nat.lt_of_le_of_lt (length_le_encodeFields (no := 1) (fs := m.fields) ?_) hs
    have hx' : fMsg 1 (m.node.map RemoteNode.write) = [(1, .len (RemoteNode.write x))] := by rw [hx]; rfl
    simp only [NewNodeEvent.fields, List.mem_append]
    grind
  have hok0 := hok
  unfold NewNodeEvent.Ok at hok0
  obtain ⟨a0, a1⟩ := m
  simp only [] at hs0
  simp only [NewNodeEvent.fields, List.foldlM_append, Option.bind_eq_bind]
  rw [fold_fMsg (merge := NewNodeEvent.merge) (no := 1) ⟨a0, ""⟩ (fun h => by subst h; rfl)
    (fun x hx => by simp [NewNodeEvent.merge, RemoteNode.read_write x (hok0 x hx) (hs0 x hx), hx])]
  simp only [Option.bind_some]
  rw [fold_fString (merge := NewNodeEvent.merge) (no := 2) ⟨a0, a1⟩ (fun h => by subst h; rfl)
    (by simp [NewNodeEvent.merge, bytesStr_strBytes])]

theorem NodeRemovedEvent.fields_pre (m : NodeRemovedEvent) : FieldsPre m.fields :=
  (fieldsPre_append (pre_fMsg (by decide))
    (pre_fString (by decide)))

theorem NodeRemovedEvent.read_write (m : NodeRemovedEvent) (hok : m.Ok) (hs : m.write.length < 2 ^ 32) :
    NodeRemovedEvent.read m.write = some m := by
  unfold NodeRemovedEvent.read
  rw [show parseFields m.write = some m.fields from parse_of_small m.fields_pre hs]
  rw [Option.bind_some]
  have hs0 : ∀ x, m.node = some x → (RemoteNode.write x).length < 2 ^ 32 := by
    intro x hx
    refine Nat.lt_of_le_of_lt (length_le_encodeFields (no := 1) (fs := m.fields) ?_) hs
    have hx' : fMsg 1 (m.node.map RemoteNode.write) = [(1, .len (RemoteNode.write x))] := by rw [hx]; rfl
    simp only [NodeRemovedEvent.fields, List.mem_append]
    grind
  have hok0 := hok
  unfold NodeRemovedEvent.Ok at hok0
  obtain ⟨a0, a1⟩ := m
  simp only [] at hs0
  simp only [NodeRemovedEvent.fields, List.foldlM_append, Option.bind_eq_bind]
  rw [fold_fMsg (merge := NodeRemovedEvent.merge) (no := 1) ⟨a0, ""⟩ (fun h => by subst h; rfl)
    (fun x hx => by simp [NodeRemovedEvent.merge, RemoteNode.read_write x (hok0 x hx) (hs0 x hx), hx])]
  simp only [Option.bind_some]
  rw [fold_fString (merge := NodeRemovedEvent.merge) (no := 2) ⟨a0, a1⟩ (fun h => by subst h; rfl)
    (by simp [NodeRemovedEvent.merge, bytesStr_strBytes])]

theorem LeaderChangedEvent.fields_pre (m : LeaderChangedEvent) : FieldsPre m.fields :=
  (fieldsPre_append (pre_fVarint (by decide) (UInt64.toNat_lt _))
    (pre_fString (by decide)))

theorem LeaderChangedEvent.read_write (m : LeaderChangedEvent) (hs : m.write.length < 2 ^ 32) :
    LeaderChangedEvent.read m.write = some m := by
  unfold LeaderChangedEvent.read
  rw [show parseFields m.write = some m.fields from parse_of_small m.fields_pre hs]
  rw [Option.bind_some]
  obtain ⟨a0, a1⟩ := m
  simp only [LeaderChangedEvent.fields, List.foldlM_append, Option.bind_eq_bind]
  rw [fold_fVarint (merge := LeaderChangedEvent.merge) (no := 1) ⟨a0, ""⟩
    (fun h => by have h := UInt64.toNat_inj.1 (h.trans (UInt64.toNat_zero).symm); subst h; rfl)
    (by simp [LeaderChangedEvent.merge])]
  simp only [Option.bind_some]
  rw [fold_fString (merge := LeaderChangedEvent.merge) (no := 2) ⟨a0, a1⟩ (fun h => by subst h; rfl)
    (by simp [LeaderChangedEvent.merge, bytesStr_strBytes])]

theorem MemberUpEvent.fields_pre (m : MemberUpEvent) : FieldsPre m.fields :=
  (fieldsPre_append (fieldsPre_append (pre_fVarint (by decide) (UInt64.toNat_lt _))
    (pre_fRepeated (by decide)))
    (pre_fString (by decide)))

theorem MemberUpEvent.read_write (m : MemberUpEvent) (hok : m.Ok) (hs : m.write.length < 2 ^ 32) :
    MemberUpEvent.read m.write = some m := by
  unfold MemberUpEvent.read
  rw [show parseFields m.write = some m.fields from parse_of_small m.fields_pre hs]
  rw [Option.bind_some]
  have hs1 : ∀ x ∈ m.nodes, (RemoteNode.write x).length < 2 ^ 32 := by
    intro x hx
    refine Nat.lt_of_le_of_lt (length_le_encodeFields (no := 2) (fs := m.fields) ?_) hs
    simp only [MemberUpEvent.fields, List.mem_append, fRepeated, List.mem_map]
    grind
  have hok1 := hok
  unfold MemberUpEvent.Ok at hok1
  obtain ⟨a0, a1, a2⟩ := m
  simp only [] at hs1
  simp only [MemberUpEvent.fields, List.foldlM_append, Option.bind_eq_bind]
  rw [fold_fVarint (merge := MemberUpEvent.merge) (no := 1) ⟨a0, [], ""⟩
    (fun h => by have h := UInt64.toNat_inj.1 (h.trans (UInt64.toNat_zero).symm); subst h; rfl)
    (by simp [MemberUpEvent.merge])]
  simp only [Option.bind_some]
  rw [fold_fRepeated (merge := MemberUpEvent.merge) (no := 2) (fun l => ⟨a0, l, ""⟩)
    (fun ys x hx => by simp [MemberUpEvent.merge, RemoteNode.read_write x (hok1 x hx) (hs1 x hx)])]
  simp only [Option.bind_some]
  rw [fold_fString (merge := MemberUpEvent.merge) (no := 3) ⟨a0, a1, a2⟩ (fun h => by subst h; rfl)
    (by simp [MemberUpEvent.merge, bytesStr_strBytes])]

theorem RaftRequest.fields_pre (m : RaftRequest) : FieldsPre m.fields :=
  (fieldsPre_append (fieldsPre_append (pre_fString (by decide))
    (pre_fVarint (by decide) (Nat.lt_trans (UInt32.toNat_lt _) (by decide))))
    (pre_fBytes (by decide)))

theorem RaftRequest.read_write (m : RaftRequest) (hs : m.write.length < 2 ^ 32) :
    RaftRequest.read m.write = some m := by
  unfold RaftRequest.read
  rw [show parseFields m.write = some m.fields from parse_of_small m.fields_pre hs]
  rw [Option.bind_some]
  obtain ⟨a0, a1, a2⟩ := m
  simp only [RaftRequest.fields, List.foldlM_append, Option.bind_eq_bind]
  rw [fold_fString (merge := RaftRequest.merge) (no := 1) ⟨a0, 0, []⟩ (fun h => by subst h; rfl)
    (by simp [RaftRequest.merge, bytesStr_strBytes])]
  simp only [Option.bind_some]
  rw [fold_fVarint (merge := RaftRequest.merge) (no := 2) ⟨a0, a1, []⟩
    (fun h => by have h := UInt32.toNat_inj.1 (h.trans (UInt32.toNat_zero).symm); subst h; rfl)
    (by simp [RaftRequest.merge])]
  simp only [Option.bind_some]
  rw [fold_fBytes (merge := RaftRequest.merge) (no := 3) ⟨a0, a1, a2⟩ (fun h => by subst h; rfl) rfl]

theorem ActorRefErr.fields_pre (m : ActorRefErr) : FieldsPre m.fields :=
  (fieldsPre_append (fieldsPre_append (fieldsPre_append (fieldsPre_append (fieldsPre_append (fieldsPre_append (pre_fEnum (by decide))
    (pre_fString (by decide)))
    (pre_fString (by decide)))
    (pre_fString (by decide)))
    (pre_fVarint (by decide) (UInt64.toNat_lt _)))
    (pre_fEnum (by decide)))
    (pre_fEnum (by decide)))

theorem ActorRefErr.read_write (m : ActorRefErr) (hs : m.write.length < 2 ^ 32) :
    ActorRefErr.read m.write = some m := by
  unfold ActorRefErr.read
  rw [show parseFields m.write = some m.fields from parse_of_small m.fields_pre hs]
  rw [Option.bind_some]
  obtain ⟨a0, a1, a2, a3, a4, a5, a6⟩ := m
  simp only [ActorRefErr.fields, List.foldlM_append, Option.bind_eq_bind]
  rw [fold_fEnum (merge := ActorRefErr.merge) (no := 1) ⟨a0, "", "", "", 0, 0, 0⟩ (fun h => by subst h; rfl)
    (by simp [ActorRefErr.merge, readEnum_ofInt64])]
  simp only [Option.bind_some]
  rw [fold_fString (merge := ActorRefErr.merge) (no := 2) ⟨a0, a1, "", "", 0, 0, 0⟩ (fun h => by subst h; rfl)
    (by simp [ActorRefErr.merge, bytesStr_strBytes])]
  simp only [Option.bind_some]
  rw [fold_fString (merge := ActorRefErr.merge) (no := 3) ⟨a0, a1, a2, "", 0, 0, 0⟩ (fun h => by subst h; rfl)
    (by simp [ActorRefErr.merge, bytesStr_strBytes])]
  simp only [Option.bind_some]
  rw [fold_fString (merge := ActorRefErr.merge) (no := 4) ⟨a0, a1, a2, a3, 0, 0, 0⟩ (fun h => by subst h; rfl)
    (by simp [ActorRefErr.merge, bytesStr_strBytes])]
  simp only [Option.bind_some]
  rw [fold_fVarint (merge := ActorRefErr.merge) (no := 5) ⟨a0, a1, a2, a3, a4, 0, 0⟩
    (fun h => by have h := UInt64.toNat_inj.1 (h.trans (UInt64.toNat_zero).symm); subst h; rfl)
    (by simp [ActorRefErr.merge])]
  simp only [Option.bind_some]
  rw [fold_fEnum (merge := ActorRefErr.merge) (no := 6) ⟨a0, a1, a2, a3, a4, a5, 0⟩ (fun h => by subst h; rfl)
    (by simp [ActorRefErr.merge, readEnum_ofInt64])]
  simp only [Option.bind_some]
  rw [fold_fEnum (merge := ActorRefErr.merge) (no := 7) ⟨a0, a1, a2, a3, a4, a5, a6⟩ (fun h => by subst h; rfl)
    (by simp [ActorRefErr.merge, readEnum_ofInt64])]

theorem ClientErr.fields_pre (m : ClientErr) : FieldsPre m.fields :=
  (fieldsPre_append (fieldsPre_append (pre_fString (by decide))
    (pre_fMsg (by decide)))
    (pre_fString (by decide)))

theorem ClientErr.read_write (m : ClientErr) (hs : m.write.length < 2 ^ 32) :
    ClientErr.read m.write = some m := by
  unfold ClientErr.read
  rw [show parseFields m.write = some m.fields from parse_of_small m.fields_pre hs]
  rw [Option.bind_some]
  have hs1 : ∀ x, m.error = some x → (ActorRefErr.write x).length < 2 ^ 32 := by
    intro x hx
    refine Nat.lt_of_le_of_lt (length_le_encodeFields (no := 2) (fs := m.fields) ?_) hs
    have hx' : fMsg 2 (m.error.map ActorRefErr.write) = [(2, .len (ActorRefErr.write x))] := by rw [hx]; rfl
    simp only [ClientErr.fields, List.mem_append]
    grind
  obtain ⟨a0, a1, a2⟩ := m
  simp only [] at hs1
  simp only [ClientErr.fields, List.foldlM_append, Option.bind_eq_bind]
  rw [fold_fString (merge := ClientErr.merge) (no := 1) ⟨a0, none, ""⟩ (fun h => by subst h; rfl)
    (by simp [ClientErr.merge, bytesStr_strBytes])]
  simp only [Option.bind_some]
  rw [fold_fMsg (merge := ClientErr.merge) (no := 2) ⟨a0, a1, ""⟩ (fun h => by subst h; rfl)
    (fun x hx => by simp [ClientErr.merge, ActorRefErr.read_write x (hs1 x hx), hx])]
  simp only [Option.bind_some]
  rw [fold_fString (merge := ClientErr.merge) (no := 3) ⟨a0, a1, a2⟩ (fun h => by subst h; rfl)
    (by simp [ClientErr.merge, bytesStr_strBytes])]

end Verif.Proto.Network
