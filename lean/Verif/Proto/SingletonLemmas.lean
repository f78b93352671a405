import Verif.Proto.Singleton

/-! Round trips of the messages of `Verif.Proto.Singleton`: a message whose encoding is below 2^32 bytes
(the generated code stores lengths in a `u32`) is read back unchanged. -/

set_option linter.unusedSimpArgs false

namespace Verif.Proto.Singleton
open Verif.Proto

theorem GetStatus.fields_pre (m : GetStatus) : FieldsPre m.fields :=
  (pre_fVarint (by decide) (UInt64.toNat_lt _))

theorem GetStatus.read_write (m : GetStatus) (hs : m.write.length < 2 ^ 32) :
    GetStatus.read m.write = some m := by
  unfold GetStatus.read
  rw [show parseFields m.write = some m.fields from parse_of_small m.fields_pre hs]
  rw [Option.bind_some]
  obtain ⟨a0⟩ := m
  simp only [GetStatus.fields, List.foldlM_append, Option.bind_eq_bind]
  rw [fold_fVarint (merge := GetStatus.merge) (no := 1) ⟨a0⟩
    (fun h => by have h := UInt64.toNat_inj.1 (h.trans (UInt64.toNat_zero).symm); subst h; rfl)
    (by simp [GetStatus.merge])]

theorem ManagerStatus.fields_pre (m : ManagerStatus) : FieldsPre m.fields :=
  (pre_fEnum (by decide))

theorem ManagerStatus.read_write (m : ManagerStatus) (hs : m.write.length < 2 ^ 32) :
    ManagerStatus.read m.write = some m := by
  unfold ManagerStatus.read
  rw [show parseFields m.write = some m.fields from parse_of_small m.fields_pre hs]
  rw [Option.bind_some]
  obtain ⟨a0⟩ := m
  simp only [ManagerStatus.fields, List.foldlM_append, Option.bind_eq_bind]
  rw [fold_fEnum (merge := ManagerStatus.merge) (no := 1) ⟨a0⟩ (fun h => by subst h; rfl)
    (by simp [ManagerStatus.merge, readEnum_ofInt64])]

theorem RequestLease.fields_pre (m : RequestLease) : FieldsPre m.fields :=
  (pre_fVarint (by decide) (UInt64.toNat_lt _))

theorem RequestLease.read_write (m : RequestLease) (hs : m.write.length < 2 ^ 32) :
    RequestLease.read m.write = some m := by
  unfold RequestLease.read
  rw [show parseFields m.write = some m.fields from parse_of_small m.fields_pre hs]
  rw [Option.bind_some]
  obtain ⟨a0⟩ := m
  simp only [RequestLease.fields, List.foldlM_append, Option.bind_eq_bind]
  rw [fold_fVarint (merge := RequestLease.merge) (no := 1) ⟨a0⟩
    (fun h => by have h := UInt64.toNat_inj.1 (h.trans (UInt64.toNat_zero).symm); subst h; rfl)
    (by simp [RequestLease.merge])]

theorem LeaseAck.fields_pre (m : LeaseAck) : FieldsPre m.fields :=
  (pre_fVarint (by decide) (UInt64.toNat_lt _))

theorem LeaseAck.read_write (m : LeaseAck) (hs : m.write.length < 2 ^ 32) :
    LeaseAck.read m.write = some m := by
  unfold LeaseAck.read
  rw [show parseFields m.write = some m.fields from parse_of_small m.fields_pre hs]
  rw [Option.bind_some]
  obtain ⟨a0⟩ := m
  simp only [LeaseAck.fields, List.foldlM_append, Option.bind_eq_bind]
  rw [fold_fVarint (merge := LeaseAck.merge) (no := 1) ⟨a0⟩
    (fun h => by have h := UInt64.toNat_inj.1 (h.trans (UInt64.toNat_zero).symm); subst h; rfl)
    (by simp [LeaseAck.merge])]

theorem LeaseNack.fields_pre (m : LeaseNack) : FieldsPre m.fields :=
  (pre_fVarint (by decide) (UInt64.toNat_lt _))

theorem LeaseNack.read_write (m : LeaseNack) (hs : m.write.length < 2 ^ 32) :
    LeaseNack.read m.write = some m := by
  unfold LeaseNack.read
  rw [show parseFields m.write = some m.fields from parse_of_small m.fields_pre hs]
  rw [Option.bind_some]
  obtain ⟨a0⟩ := m
  simp only [LeaseNack.fields, List.foldlM_append, Option.bind_eq_bind]
  rw [fold_fVarint (merge := LeaseNack.merge) (no := 1) ⟨a0⟩
    (fun h => by have h := UInt64.toNat_inj.1 (h.trans (UInt64.toNat_zero).symm); subst h; rfl)
    (by simp [LeaseNack.merge])]

theorem SingletonStarted.fields_pre (m : SingletonStarted) : FieldsPre m.fields :=
  (pre_fVarint (by decide) (UInt64.toNat_lt _))

theorem SingletonStarted.read_write (m : SingletonStarted) (hs : m.write.length < 2 ^ 32) :
    SingletonStarted.read m.write = some m := by
  unfold SingletonStarted.read
  rw [show parseFields m.write = some m.fields from parse_of_small m.fields_pre hs]
  rw [Option.bind_some]
  obtain ⟨a0⟩ := m
  simp only [SingletonStarted.fields, List.foldlM_append, Option.bind_eq_bind]
  rw [fold_fVarint (merge := SingletonStarted.merge) (no := 1) ⟨a0⟩
    (fun h => by have h := UInt64.toNat_inj.1 (h.trans (UInt64.toNat_zero).symm); subst h; rfl)
    (by simp [SingletonStarted.merge])]

theorem SingletonStopping.fields_pre (m : SingletonStopping) : FieldsPre m.fields :=
  (pre_fVarint (by decide) (UInt64.toNat_lt _))

theorem SingletonStopping.read_write (m : SingletonStopping) (hs : m.write.length < 2 ^ 32) :
    SingletonStopping.read m.write = some m := by
  unfold SingletonStopping.read
  rw [show parseFields m.write = some m.fields from parse_of_small m.fields_pre hs]
  rw [Option.bind_some]
  obtain ⟨a0⟩ := m
  simp only [SingletonStopping.fields, List.foldlM_append, Option.bind_eq_bind]
  rw [fold_fVarint (merge := SingletonStopping.merge) (no := 1) ⟨a0⟩
    (fun h => by have h := UInt64.toNat_inj.1 (h.trans (UInt64.toNat_zero).symm); subst h; rfl)
    (by simp [SingletonStopping.merge])]

theorem SingletonStopped.fields_pre (m : SingletonStopped) : FieldsPre m.fields :=
  (pre_fVarint (by decide) (UInt64.toNat_lt _))

theorem SingletonStopped.read_write (m : SingletonStopped) (hs : m.write.length < 2 ^ 32) :
    SingletonStopped.read m.write = some m := by
  unfold SingletonStopped.read
  rw [show parseFields m.write = some m.fields from parse_of_small m.fields_pre hs]
  rw [Option.bind_some]
  obtain ⟨a0⟩ := m
  simp only [SingletonStopped.fields, List.foldlM_append, Option.bind_eq_bind]
  rw [fold_fVarint (merge := SingletonStopped.merge) (no := 1) ⟨a0⟩
    (fun h => by have h := UInt64.toNat_inj.1 (h.trans (UInt64.toNat_zero).symm); subst h; rfl)
    (by simp [SingletonStopped.merge])]

end Verif.Proto.Singleton
