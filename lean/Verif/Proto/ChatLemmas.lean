import Verif.Proto.Chat

/-! Round trips of the messages of `Verif.Proto.Chat`: a message whose encoding is below 2^32 bytes
(the generated code stores lengths in a `u32`) is read back unchanged. -/

set_option linter.unusedSimpArgs false

namespace Verif.Proto.Chat
open Verif.Proto

theorem UInt64Value.fields_pre (m : UInt64Value) : FieldsPre m.fields :=
  (pre_fVarint (by decide) (UInt64.toNat_lt _))

theorem UInt64Value.read_write (m : UInt64Value) (hs : m.write.length < 2 ^ 32) :
    UInt64Value.read m.write = some m := by
  unfold UInt64Value.read
  rw [show parseFields m.write = some m.fields from parse_of_small m.fields_pre hs]
  rw [Option.bind_some]
  obtain ⟨a0⟩ := m
  simp only [UInt64Value.fields, List.foldlM_append, Option.bind_eq_bind]
  rw [fold_fVarint (merge := UInt64Value.merge) (no := 1) ⟨a0⟩
    (fun h => by have h := UInt64.toNat_inj.1 (h.trans (UInt64.toNat_zero).symm); subst h; rfl)
    (by simp [UInt64Value.merge])]

theorem StringValue.fields_pre (m : StringValue) : FieldsPre m.fields :=
  (pre_fString (by decide))

theorem StringValue.read_write (m : StringValue) (hs : m.write.length < 2 ^ 32) :
    StringValue.read m.write = some m := by
  unfold StringValue.read
  rw [show parseFields m.write = some m.fields from parse_of_small m.fields_pre hs]
  rw [Option.bind_some]
  obtain ⟨a0⟩ := m
  simp only [StringValue.fields, List.foldlM_append, Option.bind_eq_bind]
  rw [fold_fString (merge := StringValue.merge) (no := 1) ⟨a0⟩ (fun h => by subst h; rfl)
    (by simp [StringValue.merge, bytesStr_strBytes])]

theorem Handshake.fields_pre (m : Handshake) : FieldsPre m.fields :=
  (pre_fString (by decide))

theorem Handshake.read_write (m : Handshake) (hs : m.write.length < 2 ^ 32) :
    Handshake.read m.write = some m := by
  unfold Handshake.read
  rw [show parseFields m.write = some m.fields from parse_of_small m.fields_pre hs]
  rw [Option.bind_some]
  obtain ⟨a0⟩ := m
  simp only [Handshake.fields, List.foldlM_append, Option.bind_eq_bind]
  rw [fold_fString (merge := Handshake.merge) (no := 1) ⟨a0⟩ (fun h => by subst h; rfl)
    (by simp [Handshake.merge, bytesStr_strBytes])]

theorem JoinChat.fields_pre (m : JoinChat) : FieldsPre m.fields :=
  (fieldsPre_append (pre_fString (by decide))
    (pre_fMsg (by decide)))

theorem JoinChat.read_write (m : JoinChat) (hs : m.write.length < 2 ^ 32) :
    JoinChat.read m.write = some m := by
  unfold JoinChat.read
  rw [show parseFields m.write = some m.fields from parse_of_small m.fields_pre hs]
  rw [Option.bind_some]
  have hs1 : ∀ x, m.joinToken = some x → (StringValue.write x).length < 2 ^ 32 := by
    intro x hx
    refine Nat.lt_of_le_of_lt (length_le_encodeFields (no := 2) (fs := m.fields) ?_) hs
    have hx' : fMsg 2 (m.joinToken.map StringValue.write) = [(2, .len (StringValue.write x))] := by rw [hx]; rfl
    simp only [JoinChat.fields, List.mem_append]
    grind
  obtain ⟨a0, a1⟩ := m
  simp only [] at hs1
  simp only [JoinChat.fields, List.foldlM_append, Option.bind_eq_bind]
  rw [fold_fString (merge := JoinChat.merge) (no := 1) ⟨a0, none⟩ (fun h => by subst h; rfl)
    (by simp [JoinChat.merge, bytesStr_strBytes])]
  simp only [Option.bind_some]
  rw [fold_fMsg (merge := JoinChat.merge) (no := 2) ⟨a0, a1⟩ (fun h => by subst h; rfl)
    (fun x hx => by simp [JoinChat.merge, StringValue.read_write x (hs1 x hx), hx])]

theorem LeaveChat.fields_pre (m : LeaveChat) : FieldsPre m.fields :=
  (pre_fString (by decide))

theorem LeaveChat.read_write (m : LeaveChat) (hs : m.write.length < 2 ^ 32) :
    LeaveChat.read m.write = some m := by
  unfold LeaveChat.read
  rw [show parseFields m.write = some m.fields from parse_of_small m.fields_pre hs]
  rw [Option.bind_some]
  obtain ⟨a0⟩ := m
  simp only [LeaveChat.fields, List.foldlM_append, Option.bind_eq_bind]
  rw [fold_fString (merge := LeaveChat.merge) (no := 1) ⟨a0⟩ (fun h => by subst h; rfl)
    (by simp [LeaveChat.merge, bytesStr_strBytes])]

theorem ChatMessage.fields_pre (m : ChatMessage) : FieldsPre m.fields :=
  (fieldsPre_append (fieldsPre_append (fieldsPre_append (pre_fString (by decide))
    (pre_fMsg (by decide)))
    (pre_fMsg (by decide)))
    (pre_fString (by decide)))

theorem ChatMessage.read_write (m : ChatMessage) (hs : m.write.length < 2 ^ 32) :
    ChatMessage.read m.write = some m := by
  unfold ChatMessage.read
  rw [show parseFields m.write = some m.fields from parse_of_small m.fields_pre hs]
  rw [Option.bind_some]
  have hs1 : ∀ x, m.messageId = some x → (UInt64Value.write x).length < 2 ^ 32 := by
    intro x hx
    refine Nat.lt_of_le_of_lt (length_le_encodeFields (no := 2) (fs := m.fields) ?_) hs
    have hx' : fMsg 2 (m.messageId.map UInt64Value.write) = [(2, .len (UInt64Value.write x))] := by rw [hx]; rfl
    simp only [ChatMessage.fields, List.mem_append]
    grind
  have hs2 : ∀ x, m.sender = some x → (StringValue.write x).length < 2 ^ 32 := by
    intro x hx
    refine Nat.lt_of_le_of_lt (length_le_encodeFields (no := 3) (fs := m.fields) ?_) hs
    have hx' : fMsg 3 (m.sender.map StringValue.write) = [(3, .len (StringValue.write x))] := by rw [hx]; rfl
    simp only [ChatMessage.fields, List.mem_append]
    grind
  obtain ⟨a0, a1, a2, a3⟩ := m
  simp only [] at hs1 hs2
  simp only [ChatMessage.fields, List.foldlM_append, Option.bind_eq_bind]
  rw [fold_fString (merge := ChatMessage.merge) (no := 1) ⟨a0, none, none, ""⟩ (fun h => by subst h; rfl)
    (by simp [ChatMessage.merge, bytesStr_strBytes])]
  simp only [Option.bind_some]
  rw [fold_fMsg (merge := ChatMessage.merge) (no := 2) ⟨a0, a1, none, ""⟩ (fun h => by subst h; rfl)
    (fun x hx => by simp [ChatMessage.merge, UInt64Value.read_write x (hs1 x hx), hx])]
  simp only [Option.bind_some]
  rw [fold_fMsg (merge := ChatMessage.merge) (no := 3) ⟨a0, a1, a2, ""⟩ (fun h => by subst h; rfl)
    (fun x hx => by simp [ChatMessage.merge, StringValue.read_write x (hs2 x hx), hx])]
  simp only [Option.bind_some]
  rw [fold_fString (merge := ChatMessage.merge) (no := 4) ⟨a0, a1, a2, a3⟩ (fun h => by subst h; rfl)
    (by simp [ChatMessage.merge, bytesStr_strBytes])]

theorem SendChatMessage.fields_pre (m : SendChatMessage) : FieldsPre m.fields :=
  (pre_fMsg (by decide))

theorem SendChatMessage.read_write (m : SendChatMessage) (hs : m.write.length < 2 ^ 32) :
    SendChatMessage.read m.write = some m := by
  unfold SendChatMessage.read
  rw [show parseFields m.write = some m.fields from parse_of_small m.fields_pre hs]
  rw [Option.bind_some]
  have hs0 : ∀ x, m.message = some x → (ChatMessage.write x).length < 2 ^ 32 := by
    intro x hx
    refine Nat.lt_of_le_of_lt (length_le_encodeFields (no := 1) (fs := m.fields) ?_) hs
    have hx' : fMsg 1 (m.message.map ChatMessage.write) = [(1, .len (ChatMessage.write x))] := by rw [hx]; rfl
    simp only [SendChatMessage.fields, List.mem_append]
    grind
  obtain ⟨a0⟩ := m
  simp only [] at hs0
  simp only [SendChatMessage.fields, List.foldlM_append, Option.bind_eq_bind]
  rw [fold_fMsg (merge := SendChatMessage.merge) (no := 1) ⟨a0⟩ (fun h => by subst h; rfl)
    (fun x hx => by simp [SendChatMessage.merge, ChatMessage.read_write x (hs0 x hx), hx])]

end Verif.Proto.Chat
