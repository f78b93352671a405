import Verif.Sharding.UuidModel
import Verif.Sharding.CodecProps

/-! Property theorems C123 (the ids of requests as text). -/

namespace Verif.Uuid

open Verif.Sharding.Wire (UuidText)

/-! ## Specification -/

/-- the 22 hexadecimal digits and what they stand for. -/
def hexDigits : List (Char × Nat) :=
  [('0', 0), ('1', 1), ('2', 2), ('3', 3), ('4', 4), ('5', 5), ('6', 6), ('7', 7), ('8', 8), ('9', 9),
   ('a', 10), ('b', 11), ('c', 12), ('d', 13), ('e', 14), ('f', 15),
   ('A', 10), ('B', 11), ('C', 12), ('D', 13), ('E', 14), ('F', 15)]

/-- these digits spell these bytes, two digits each, the higher one first. -/
inductive Spells : List Char → List UInt8 → Prop
  | nil : Spells [] []
  | cons {c d : Char} {x y : Nat} {cs : List Char} {b : UInt8} {bs : List UInt8} (hc : (c, x) ∈ hexDigits)
      (hd : (d, y) ∈ hexDigits) (hb : b.toNat = 16 * x + y) (h : Spells cs bs) : Spells (c :: d :: cs) (b :: bs)

/-- groups of 8, 4, 4, 4 and 12 with hyphens between. -/
inductive Grouped : List Char → List Char → Prop
  | mk (a b c d e : List Char) (ha : a.length = 8) (hb : b.length = 4) (hc : c.length = 4) (hd : d.length = 4)
      (he : e.length = 12) :
      Grouped (a ++ b ++ c ++ d ++ e) (a ++ '-' :: b ++ '-' :: c ++ '-' :: d ++ '-' :: e)

/-- the four ways to write 32 digits. -/
inductive Form : List Char → List Char → Prop
  | plain (ds : List Char) (h : ds.length = 32) : Form ds ds
  | grouped {ds cs : List Char} (h : Grouped ds cs) : Form ds cs
  | braced {ds cs : List Char} (h : Grouped ds cs) : Form ds ('{' :: cs ++ ['}'])
  | urn {ds cs : List Char} (h : Grouped ds cs) : Form ds ("urn:uuid:".toList ++ cs)

/-! ## Lemmas -/

theorem value_digit : ∀ n < 16, value (digit n) = some n := by decide

theorem value_iff (c : Char) (n : Nat) : value c = some n ↔ (c, n) ∈ hexDigits := by
  constructor
  · intro h
    unfold value at h
    have hc : c = Char.ofNat c.toNat := by simp
    split at h
    · rename_i hr
      generalize c.toNat = m at *
      obtain ⟨h1, h2⟩ := hr
      subst hc
      obtain rfl : m - 48 = n := Option.some.inj h
      have : ∀ m < 10, (Char.ofNat (m + 48), m) ∈ hexDigits := by decide
      have := this (m - 48) (by omega)
      rwa [Nat.sub_add_cancel h1] at this
    · split at h
      · rename_i hr
        generalize c.toNat = m at *
        obtain ⟨h1, h2⟩ := hr
        subst hc
        obtain rfl : m - 87 = n := Option.some.inj h
        have : ∀ m < 16, 10 ≤ m → (Char.ofNat (m + 87), m) ∈ hexDigits := by decide
        have := this (m - 87) (by omega) (by omega)
        rwa [Nat.sub_add_cancel (by omega)] at this
      · split at h
        · rename_i hr
          generalize c.toNat = m at *
          obtain ⟨h1, h2⟩ := hr
          subst hc
          obtain rfl : m - 55 = n := Option.some.inj h
          have : ∀ m < 16, 10 ≤ m → (Char.ofNat (m + 55), m) ∈ hexDigits := by decide
          have := this (m - 55) (by omega) (by omega)
          rwa [Nat.sub_add_cancel (by omega)] at this
        · cases h
  · have : ∀ p ∈ hexDigits, value p.1 = some p.2 := by decide
    exact this (c, n)

theorem hexDigits_lt : ∀ p ∈ hexDigits, p.2 < 16 := by decide

theorem unhex_iff (cs : List Char) (bs : List UInt8) : unhex cs = some bs ↔ Spells cs bs := by
  constructor
  · intro h
    fun_induction unhex cs generalizing bs with
    | case1 => cases h; exact .nil
    | case2 => cases h
    | case3 c d cs x y bs' hx hy hb ih =>
      cases h
      have hx' := (value_iff c x).mp ‹_›
      have hy' := (value_iff d y).mp ‹_›
      have l1 := hexDigits_lt _ hx'
      have l2 := hexDigits_lt _ hy'
      refine .cons hx' hy' ?_ (ih bs' ‹_›)
      simp only at l1 l2
      rw [UInt8.toNat_ofNat']
      omega
    | case4 => cases h
  · intro h
    induction h with
    | nil => rfl
    | @cons c d x y cs b bs hc hd hb _ ih =>
      rw [unhex, (value_iff c x).mpr hc, (value_iff d y).mpr hd, ih]
      simp only [← hb, UInt8.ofNat_toNat]

theorem Spells.length {cs : List Char} {bs : List UInt8} (h : Spells cs bs) : cs.length = 2 * bs.length := by
  induction h with
  | nil => rfl
  | cons _ _ _ _ ih => simp only [List.length_cons, ih]; omega

theorem Spells.right {cs : List Char} {bs bs' : List UInt8} (h : Spells cs bs) (h' : Spells cs bs') : bs = bs' := by
  rw [← unhex_iff] at h h'
  rw [h] at h'
  exact Option.some.inj h'

theorem split_at {α : Type} {l : List α} {n : Nat} {a : α} (h : l[n]? = some a) : l = l.take n ++ a :: l.drop (n + 1) := by
  obtain ⟨hn, h⟩ := List.getElem?_eq_some_iff.mp h
  rw [← h, ← List.drop_eq_getElem_cons hn, List.take_append_drop]

theorem unhyphen_iff (cs ds : List Char) : (cs.length = 36 ∧ unhyphen cs = some ds) ↔ Grouped ds cs := by
  constructor
  · rintro ⟨hl, h⟩
    unfold unhyphen at h
    split at h
    · rename_i hh
      obtain ⟨h1, h2, h3, h4⟩ := hh
      obtain rfl := Option.some.inj h
      have g2 : (cs.drop 9)[4]? = some '-' := by simpa using h2
      have g3 : (cs.drop 14)[4]? = some '-' := by simpa using h3
      have g4 : (cs.drop 19)[4]? = some '-' := by simpa using h4
      have e1 := split_at h1
      have e2 := split_at g2
      have e3 := split_at g3
      have e4 := split_at g4
      simp only [List.drop_drop] at e2 e3 e4
      have := Grouped.mk (cs.take 8) ((cs.drop 9).take 4) ((cs.drop 14).take 4) ((cs.drop 19).take 4) (cs.drop 24)
        (by simp; omega) (by simp; omega) (by simp; omega) (by simp; omega) (by simp; omega)
      have e : cs = cs.take 8 ++ '-' :: (cs.drop 9).take 4 ++ '-' :: (cs.drop 14).take 4 ++ '-' :: (cs.drop 19).take 4 ++
          '-' :: cs.drop 24 := by
        have e4' : cs.drop 19 = (cs.drop 19).take 4 ++ '-' :: cs.drop 24 := e4
        have e3' : cs.drop 14 = (cs.drop 14).take 4 ++ '-' :: cs.drop 19 := e3
        have e2' : cs.drop 9 = (cs.drop 9).take 4 ++ '-' :: cs.drop 14 := e2
        have e1' : cs = cs.take 8 ++ '-' :: cs.drop 9 := e1
        simp only [List.append_assoc, List.cons_append]
        rw [← e4', ← e3', ← e2', ← e1']
      rw [← e] at this
      exact this
    · cases h
  · rintro ⟨a, b, c, d, e, ha, hb, hc, hd, he⟩
    refine ⟨by simp; omega, ?_⟩
    rcases a with _ | ⟨a0, _ | ⟨a1, _ | ⟨a2, _ | ⟨a3, _ | ⟨a4, _ | ⟨a5, _ | ⟨a6, _ | ⟨a7, _ | ⟨_, _⟩⟩⟩⟩⟩⟩⟩⟩⟩ <;> simp at ha
    rcases b with _ | ⟨b0, _ | ⟨b1, _ | ⟨b2, _ | ⟨b3, _ | ⟨_, _⟩⟩⟩⟩⟩ <;> simp at hb
    rcases c with _ | ⟨c0, _ | ⟨c1, _ | ⟨c2, _ | ⟨c3, _ | ⟨_, _⟩⟩⟩⟩⟩ <;> simp at hc
    rcases d with _ | ⟨d0, _ | ⟨d1, _ | ⟨d2, _ | ⟨d3, _ | ⟨_, _⟩⟩⟩⟩⟩ <;> simp at hd
    simp [unhyphen]

theorem Grouped.lengths {ds cs : List Char} (h : Grouped ds cs) : ds.length = 32 ∧ cs.length = 36 := by
  obtain ⟨a, b, c, d, e, ha, hb, hc, hd, he⟩ := h
  simp; omega

theorem digits_iff (cs ds : List Char) : digits cs = some ds ↔ Form ds cs := by
  constructor
  · intro h
    unfold digits at h
    split at h
    · rename_i hl; cases h; exact .plain _ hl
    · split at h
      · rename_i hl; exact .grouped ((unhyphen_iff cs ds).mp ⟨hl, h⟩)
      · split at h
        · rename_i hb
          obtain ⟨hl, h0, h37⟩ := hb
          have g := (unhyphen_iff _ ds).mp ⟨by simp; omega, h⟩
          have e0 := split_at h0
          simp only [List.take_zero, List.nil_append, Nat.zero_add] at e0
          have e1 : (cs.drop 1)[36]? = some '}' := by simpa using h37
          have e1 := split_at e1
          have e2 : (cs.drop 1).drop (36 + 1) = [] := List.drop_eq_nil_of_le (by simp; omega)
          rw [e2] at e1
          have := Form.braced g
          rw [List.cons_append, ← e1, ← e0] at this
          exact this
        · split at h
          · rename_i hu
            obtain ⟨hl, ht⟩ := hu
            have g := (unhyphen_iff _ ds).mp ⟨by simp; omega, h⟩
            have := Form.urn g
            rw [← ht, List.take_append_drop] at this
            exact this
          · cases h
  · intro h
    cases h with
    | plain h => rw [digits, if_pos h]
    | grouped h =>
      have := h.lengths.2
      rw [digits, if_neg (by omega), if_pos this]
      exact ((unhyphen_iff _ _).mpr h).2
    | @braced cs h =>
      have hl := h.lengths.2
      have h37 : ('{' :: cs ++ ['}'])[37]? = some '}' := by
        rw [List.cons_append, List.getElem?_cons_succ, List.getElem?_append_right (by omega), hl]; rfl
      have ht : (('{' :: cs ++ ['}']).drop 1).take 36 = cs := by
        rw [List.cons_append, List.drop_succ_cons, List.drop_zero, ← hl, List.take_left']
        rfl
      unfold digits
      rw [if_neg (by simp [hl]), if_neg (by simp [hl]), if_pos ⟨by simp [hl], rfl, h37⟩, ht]
      exact ((unhyphen_iff _ _).mpr h).2
    | @urn cs h =>
      have hl := h.lengths.2
      have h9 : "urn:uuid:".toList.length = 9 := by decide
      unfold digits
      rw [if_neg (by rw [List.length_append, h9]; omega), if_neg (by rw [List.length_append, h9]; omega),
        if_neg (by rw [List.length_append, h9]; omega), if_pos ⟨by rw [List.length_append, h9]; omega, List.take_left' h9⟩,
        List.drop_left' h9]
      exact ((unhyphen_iff _ _).mpr h).2

theorem Form.length {ds cs : List Char} (h : Form ds cs) : ds.length = 32 := by
  cases h with
  | plain h => exact h
  | grouped h => exact h.lengths.1
  | braced h => exact h.lengths.1
  | urn h => exact h.lengths.1

theorem hex_length (bs : List UInt8) : (hex bs).length = 2 * bs.length := by
  induction bs with
  | nil => rfl
  | cons b bs ih => simp only [hex, List.length_cons, ih]; omega

theorem spells_hex (bs : List UInt8) : Spells (hex bs) bs := by
  induction bs with
  | nil => exact .nil
  | cons b bs ih =>
    have hb := b.toNat_lt
    exact .cons ((value_iff _ _).mp (value_digit _ (by omega))) ((value_iff _ _).mp (value_digit _ (by omega)))
      (by omega) ih

theorem hex_append (as bs : List UInt8) : hex (as ++ bs) = hex as ++ hex bs := by
  induction as with
  | nil => rfl
  | cons a as ih => simp [hex, ih]

/-! ## C123 -/

/-- **C123**: A text is read as an id exactly if it is 32 hexadecimal digits that spell it, in one of the four forms. -/
theorem C123_parse (s : String) (u : Uuid) : Uuid.parse s = some u ↔ ∃ ds, Form ds s.toList ∧ Spells ds u.bytes := by
  unfold Uuid.parse
  constructor
  · intro h
    split at h
    · rename_i bs hb
      obtain ⟨ds, h1, h2⟩ := Option.bind_eq_some_iff.mp hb
      split at h
      · cases h; exact ⟨ds, (digits_iff _ _).mp h1, (unhex_iff _ _).mp h2⟩
      · cases h
    · cases h
  · rintro ⟨ds, h1, h2⟩
    rw [(digits_iff _ _).mpr h1, Option.bind_some, (unhex_iff _ _).mpr h2]
    simp [u.size]

/-- **C123**: Every id is written in groups of lower-case digits and is read back as itself; different ids have different
texts. -/
theorem C123_read_back (u : Uuid) :
    Uuid.parse u.text = some u ∧ Grouped (hex u.bytes) u.text.toList ∧ ∀ v : Uuid, v.text = u.text → v = u := by
  have hg : ∀ u : Uuid, Grouped (hex u.bytes) u.text.toList := by
    intro u
    have hl := u.size
    have e : hex u.bytes = hex (u.bytes.take 4) ++ hex ((u.bytes.drop 4).take 2) ++ hex ((u.bytes.drop 6).take 2) ++
        hex ((u.bytes.drop 8).take 2) ++ hex (u.bytes.drop 10) := by
      rw [← hex_append, ← hex_append, ← hex_append, ← hex_append]
      congr 1
      conv => lhs; rw [← List.take_append_drop 10 u.bytes]
      congr 1
      rw [← List.take_append_drop 8 (u.bytes.take 10), ← List.take_append_drop 6 ((u.bytes.take 10).take 8),
        ← List.take_append_drop 4 (((u.bytes.take 10).take 8).take 6)]
      simp [List.take_take, List.drop_take]
    rw [e, Uuid.text, String.toList_ofList]
    exact .mk _ _ _ _ _ (by rw [hex_length]; simp; omega) (by rw [hex_length]; simp; omega) (by rw [hex_length]; simp; omega)
      (by rw [hex_length]; simp; omega) (by rw [hex_length]; simp; omega)
  have hp : ∀ u : Uuid, Uuid.parse u.text = some u := fun u => (C123_parse _ _).mpr ⟨_, .grouped (hg u), spells_hex _⟩
  refine ⟨hp u, hg u, fun v h => ?_⟩
  have h1 := hp v
  rw [h, hp u] at h1
  exact (Option.some.inj h1).symm

/-- the text form that the code uses. -/
def uuidText : UuidText Uuid := ⟨Uuid.text, Uuid.parse, fun u => (C123_read_back u).1⟩

/-- **C123**: With the ids as they are, requests to stop a shard and requests to entities arrive as what was sent: the
assumption of `C50_stop` and `C50_entity_request` is met. -/
theorem C123_messages (m : Sharding.Wire.StopShard Uuid) (r : Sharding.Wire.RemoteEntityRequest Uuid) :
    ((m.write uuidText).length < 2 ^ 32 → Sharding.Wire.StopShard.read uuidText (m.write uuidText) = .ok m) ∧
    ((r.write uuidText).length < 2 ^ 32 → Sharding.Wire.RemoteEntityRequest.read uuidText (r.write uuidText) = .ok r) :=
  ⟨Verif.Sharding.C50_stop uuidText m, Verif.Sharding.C50_entity_request uuidText r⟩

/-- **C123**: Exactly when the reading of such a message panics: when its id is in none of the four forms. In particular it
does for every id of another length than 32, 36, 38 and 45, and for the empty one, which is what is read when the field is
not there. -/
theorem C123_panics (m : Proto.Sharding.StopShard) (r : Proto.Sharding.RemoteEntityRequest)
    (hm : m.write.length < 2 ^ 32) (hr : r.write.length < 2 ^ 32) :
    (Sharding.Wire.StopShard.read uuidText m.write = .panic ↔
      ¬ ∃ ds bs, Form ds m.requestId.toList ∧ Spells ds bs) ∧
    (Sharding.Wire.RemoteEntityRequest.read uuidText r.write = .panic ↔
      ¬ ∃ ds bs, Form ds r.requestId.toList ∧ Spells ds bs) := by
  have key : ∀ s : String, Uuid.parse s = none ↔ ¬ ∃ ds bs, Form ds s.toList ∧ Spells ds bs := by
    intro s
    constructor
    · rintro h ⟨ds, bs, hf, hs⟩
      have hl := hs.length
      rw [hf.length] at hl
      have := (C123_parse s ⟨bs, by omega⟩).mpr ⟨ds, hf, hs⟩
      rw [h] at this
      cases this
    · intro h
      cases hp : Uuid.parse s with
      | none => rfl
      | some u =>
        obtain ⟨ds, hf, hs⟩ := (C123_parse s u).mp hp
        exact absurd ⟨ds, u.bytes, hf, hs⟩ h
  constructor
  · rw [← key, Sharding.Wire.StopShard.read, Proto.Sharding.StopShard.read_write m hm]
    show Sharding.Wire.mapUnwrap _ _ = _ ↔ _
    simp only [Sharding.Wire.mapUnwrap, uuidText]
    cases Uuid.parse m.requestId <;> simp
  · rw [← key, Sharding.Wire.RemoteEntityRequest.read, Proto.Sharding.RemoteEntityRequest.read_write r hr]
    simp only [Sharding.Wire.mapUnwrap, uuidText]
    cases Uuid.parse r.requestId <;> simp

/-- **C123**: A text of any other length is never read as an id. -/
theorem C123_length (s : String) (u : Uuid) (h : Uuid.parse s = some u) :
    s.toList.length = 32 ∨ s.toList.length = 36 ∨ s.toList.length = 38 ∨ s.toList.length = 45 := by
  obtain ⟨ds, hf, _⟩ := (C123_parse s u).mp h
  generalize s.toList = cs at hf
  cases hf with
  | plain h => exact .inl h
  | grouped h => exact .inr (.inl h.lengths.2)
  | braced h => exact .inr (.inr (.inl (by simp [h.lengths.2])))
  | urn h => exact .inr (.inr (.inr (by rw [List.length_append, h.lengths.2]; decide)))

/-- an id. -/
def sample : Uuid := ⟨[0x67, 0xe5, 0x50, 0x44, 0x10, 0xb1, 0x42, 0x6f, 0x92, 0x47, 0xbb, 0x68, 0x0e, 0x5f, 0xe0, 0xc8], rfl⟩

example : sample.text = "67e55044-10b1-426f-9247-bb680e5fe0c8" ∧
    Uuid.parse "67e5504410b1426f9247bb680e5fe0c8" = some sample ∧
    Uuid.parse "{67E55044-10B1-426F-9247-BB680E5FE0C8}" = some sample ∧
    Uuid.parse "urn:uuid:67e55044-10b1-426f-9247-bb680e5fe0c8" = some sample ∧
    Uuid.parse "67e5504-410b1-426f-9247-bb680e5fe0c8" = none ∧
    Uuid.parse "67e55044-10b1-426f-9247-bb680e5fe0cg" = none := by
  decide +kernel

/-- C123 as stated is false: a request whose id is no UUID is not refused, the reading of it panics. -/
theorem C123_refused_refuted : ∃ m : Proto.Sharding.StopShard,
    Uuid.parse m.requestId = none ∧ Sharding.Wire.StopShard.read uuidText m.write = .panic :=
  ⟨{ shardId := 1, requestId := "67e55044", originNodeId := 2 }, by decide +kernel, by decide +kernel⟩

end Verif.Uuid
