import Verif.Proto.Wire

namespace Verif.Proto

theorem toNat_ofNat_lt {n : Nat} (h : n < 256) : (UInt8.ofNat n).toNat = n := by
  simp [UInt8.toNat_ofNat', Nat.mod_eq_of_lt h]

theorem varint_ne_nil (n : Nat) : varint n ≠ [] := by
  rw [varint]; split <;> simp

/-- a number below `128^(f+1)` is read back from at most `f+1` bytes. -/
theorem readVarint_varint (f : Nat) : ∀ (n : Nat) (rest : Bytes), n < 128 ^ (f + 1) →
    readVarint (f + 1) (varint n ++ rest) = some (n, rest) := by
  induction f with
  | zero =>
    intro n rest h
    have h' : n < 128 := by simpa using h
    rw [varint, if_pos h']
    simp [readVarint, Nat.mod_eq_of_lt (show n < 256 by omega)]
    omega
  | succ f ih =>
    intro n rest h
    rw [varint]
    split
    · rename_i h'
      simp [readVarint, Nat.mod_eq_of_lt (show n < 256 by omega)]
      omega
    · rename_i h'
      have hlt : n % 128 + 128 < 256 := by omega
      have hdiv : n / 128 < 128 ^ (f + 1) := by
        rw [Nat.div_lt_iff_lt_mul (by omega)]
        rw [Nat.pow_succ] at h; exact h
      rw [List.cons_append, readVarint, toNat_ofNat_lt hlt, if_neg (by omega), ih _ _ hdiv]
      simp only [Option.some.injEq, Prod.mk.injEq, and_true]
      omega

theorem readVarint10 (n : Nat) (rest : Bytes) (h : n < 2 ^ 64) :
    readVarint 10 (varint n ++ rest) = some (n, rest) :=
  readVarint_varint 9 n rest (Nat.lt_of_lt_of_le h (by decide))

/-- values the wire format can carry. -/
def WireVal.Ok : WireVal → Prop
  | .varint n => n < 2 ^ 64
  | .fixed64 bs => bs.length = 8
  | .len bs => bs.length < 2 ^ 64
  | .fixed32 bs => bs.length = 4

def FieldOk (f : Field) : Prop := 0 < f.1 ∧ f.1 < 2 ^ 29 ∧ f.2.Ok

theorem takeN_append (bs rest : Bytes) : takeN bs.length (bs ++ rest) = some (bs, rest) := by
  simp [takeN]

theorem readVal_body (v : WireVal) (rest : Bytes) (h : v.Ok) :
    readVal v.wireType (v.body ++ rest) = some (v, rest) := by
  cases v with
  | varint n => simp [WireVal.wireType, readVal, WireVal.body, readVarint10 _ _ h]
  | fixed64 bs =>
    have h8 : bs.length = 8 := h
    simp only [WireVal.wireType, readVal, WireVal.body]
    rw [← h8, takeN_append]; rfl
  | len bs =>
    simp only [WireVal.wireType, readVal, WireVal.body, List.append_assoc]
    rw [readVarint10 _ _ h]; simp [takeN_append]
  | fixed32 bs =>
    have h8 : bs.length = 4 := h
    simp only [WireVal.wireType, readVal, WireVal.body]
    rw [← h8, takeN_append]; rfl

theorem wireType_lt (v : WireVal) : v.wireType < 8 := by cases v <;> simp [WireVal.wireType]

theorem readField_encodeField (f : Field) (rest : Bytes) (h : FieldOk f) :
    readField (encodeField f ++ rest) = some (f, rest) := by
  obtain ⟨no, v⟩ := f
  obtain ⟨h0, h1, h2⟩ := h
  have := wireType_lt v
  simp only [] at h0 h1
  simp only [encodeField, readField, List.append_assoc]
  rw [readVarint10 _ _ (by omega)]
  have e1 : (no * 8 + v.wireType) / 8 = no := by omega
  have e2 : (no * 8 + v.wireType) % 8 = v.wireType := by omega
  simp only [Option.bind_some, e1, e2, if_neg (show ¬ no = 0 by omega), readVal_body v rest h2,
    Option.map_some]

theorem encodeField_ne_nil (f : Field) : encodeField f ≠ [] := by
  simp [encodeField, varint_ne_nil]

theorem parseLoop_encodeFields (fs : List Field) (h : ∀ f ∈ fs, FieldOk f) :
    ∀ fuel, (encodeFields fs).length ≤ fuel → parseLoop fuel (encodeFields fs) = some fs := by
  induction fs with
  | nil => intro fuel _; cases fuel <;> simp [encodeFields, parseLoop]
  | cons f fs ih =>
    intro fuel hl
    have hne := encodeField_ne_nil f
    have hr := readField_encodeField f (encodeFields fs) (h f (by simp))
    have e : encodeFields (f :: fs) = encodeField f ++ encodeFields fs := by simp [encodeFields]
    rw [e] at hl ⊢
    cases hb : encodeField f with
    | nil => exact absurd hb hne
    | cons b bs =>
      rw [hb] at hl hr
      cases fuel with
      | zero => simp at hl
      | succ fuel =>
        simp only [List.cons_append] at hr hl ⊢
        rw [parseLoop, hr]
        have := ih (fun g hg => h g (by simp [hg])) fuel (by simp at hl ⊢; omega)
        simp [this]

theorem parseFields_encodeFields (fs : List Field) (h : ∀ f ∈ fs, FieldOk f) :
    parseFields (encodeFields fs) = some fs :=
  parseLoop_encodeFields fs h _ (Nat.le_refl _)

theorem toInt64_ofInt64 (i : Int) (h1 : -2 ^ 63 ≤ i) (h2 : i < 2 ^ 63) : toInt64 (ofInt64 i) = i := by
  unfold toInt64 ofInt64
  have : ((i % 2 ^ 64).toNat % 2 ^ 64 : Nat) = (i % 2 ^ 64).toNat := by omega
  simp only [this]
  split <;> omega

theorem ofInt64_lt (i : Int) : ofInt64 i < 2 ^ 64 := by unfold ofInt64; omega

theorem bytesStr_strBytes (s : String) : bytesStr (strBytes s) = some s := by
  unfold bytesStr strBytes
  have : (⟨s.toUTF8.data.toList.toArray⟩ : ByteArray) = s.toUTF8 := by simp
  rw [this]
  unfold String.fromUTF8?
  have hv : s.toUTF8.IsValidUTF8 := s.isValidUTF8
  rw [dif_pos hv]
  rfl

theorem strBytes_inj {s t : String} (h : strBytes s = strBytes t) : s = t := by
  have := bytesStr_strBytes s
  rw [h, bytesStr_strBytes] at this
  exact (Option.some.inj this).symm

end Verif.Proto
