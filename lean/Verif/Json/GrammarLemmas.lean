import Verif.Json.GrammarSpec

namespace Verif.Json

/-! ### White space -/

theorem skipWs_blank (w cs : List Char) (h : Blank w) : skipWs (w ++ cs) = skipWs cs := by
  induction w with
  | nil => rfl
  | cons c w ih =>
    have hc : c = ' ' ∨ c = '\n' ∨ c = '\t' ∨ c = '\r' := by
      rcases h c (List.mem_cons_self ..) with h | h | h | h <;> simp [h]
    rw [List.cons_append, skipWs, if_pos hc]
    exact ih fun d hd => h d (List.mem_cons_of_mem _ hd)

theorem skipWs_spec (cs : List Char) : ∃ w, Blank w ∧ cs = w ++ skipWs cs := by
  induction cs with
  | nil => exact ⟨[], nofun, rfl⟩
  | cons c cs ih =>
    rw [skipWs]
    split
    · rename_i hc
      obtain ⟨w, hw, he⟩ := ih
      refine ⟨c :: w, ?_, by rw [List.cons_append, ← he]⟩
      intro d hd
      rcases List.mem_cons.mp hd with rfl | hd
      · rcases hc with h | h | h | h <;> simp [h]
      · exact hw d hd
    · exact ⟨[], nofun, rfl⟩

theorem blank_nil : Blank [] := nofun

/-! ### Numbers -/

theorem isDigit_iff (c : Char) : isDigit c = true ↔ 48 ≤ c.toNat ∧ c.toNat ≤ 57 := by
  simp [isDigit]

theorem readDigits_spec (cs : List Char) : ∀ acc, ∃ ds, cs = ds ++ (readDigits acc cs).2 ∧
    (∀ c ∈ ds, 48 ≤ c.toNat ∧ c.toNat ≤ 57) ∧
    (readDigits acc cs).1 = ds.foldl (fun a c => 10 * a + (c.toNat - 48)) acc ∧
    (∀ c, (readDigits acc cs).2.head? = some c → isDigit c = false) := by
  induction cs with
  | nil => intro acc; exact ⟨[], rfl, nofun, rfl, by simp [readDigits]⟩
  | cons c cs ih =>
    intro acc
    rw [readDigits]
    by_cases h : isDigit c = true
    · rw [if_pos h]
      obtain ⟨ds, h1, h2, h3, h4⟩ := ih (acc * 10 + (c.toNat - 48))
      refine ⟨c :: ds, by rw [List.cons_append, ← h1], ?_, ?_, h4⟩
      · intro d hd
        rcases List.mem_cons.mp hd with rfl | hd
        · exact (isDigit_iff _).mp h
        · exact h2 d hd
      · rw [h3, List.foldl_cons, Nat.mul_comm]
    · rw [if_neg h]
      refine ⟨[], rfl, nofun, rfl, ?_⟩
      intro d hd
      simp only [List.head?_cons, Option.some.injEq] at hd
      subst hd; simpa using h

theorem readDigits_run (ds : List Char) (hd : ∀ c ∈ ds, 48 ≤ c.toNat ∧ c.toNat ≤ 57) : ∀ (acc : Nat) (rest : List Char),
    Stop rest → readDigits acc (ds ++ rest) = (ds.foldl (fun a c => 10 * a + (c.toNat - 48)) acc, rest) := by
  induction ds with
  | nil => intro acc rest h; exact readDigits_stop acc rest h
  | cons c ds ih =>
    intro acc rest h
    rw [List.cons_append, readDigits, if_pos ((isDigit_iff c).mpr (hd c (List.mem_cons_self ..))),
      ih (fun d h => hd d (List.mem_cons_of_mem _ h)) _ _ h, List.foldl_cons, Nat.mul_comm]

theorem readNat_sound {cs r : List Char} {n : Nat} (h : readNat cs = some (n, r)) :
    ∃ t, cs = t ++ r ∧ NatText n t ∧ Stop r := by
  cases cs with
  | nil => simp [readNat] at h
  | cons c cs =>
    unfold readNat at h
    by_cases hd : isDigit c = true
    · simp only [hd, if_true] at h
      obtain ⟨ds, h1, h2, h3, h4⟩ := readDigits_spec (c :: cs) 0
      cases hr : readDigits 0 (c :: cs) with
      | mk m r' =>
      rw [hr] at h h1 h3 h4
      simp only at h h1 h3 h4
      by_cases hz : c = '0' ∧ cs.head?.any isDigit = true
      · rw [if_pos hz] at h; simp at h
      rw [if_neg hz] at h
      by_cases hf : r'.head?.any (fun x => decide (x = '.' ∨ x = 'e' ∨ x = 'E')) = true
      · rw [if_pos hf] at h; simp at h
      rw [if_neg hf] at h
      simp only [Option.some.injEq, Prod.mk.injEq] at h
      obtain ⟨rfl, rfl⟩ := h
      cases ds with
      | nil =>
        rw [List.nil_append] at h1
        have := h4 c (by rw [← h1]; rfl)
        rw [hd] at this; cases this
      | cons c' ds =>
        rw [List.cons_append, List.cons.injEq] at h1
        obtain ⟨rfl, h1⟩ := h1
        refine ⟨c :: ds, by rw [List.cons_append, ← h1], ⟨by simp, h2, ?_, h3.symm⟩, ?_⟩
        · intro h0
          simp only [List.head?_cons, Option.some.injEq] at h0
          cases ds with
          | nil => rw [h0]
          | cons d ds =>
            refine absurd ⟨h0, ?_⟩ hz
            rw [h1]
            have := (isDigit_iff d).mpr (h2 d (by simp))
            simp [this]
        · intro d hd'
          refine ⟨h4 d hd', ?_⟩
          rw [hd'] at hf
          simp only [Option.any_some, decide_eq_true_eq, not_or] at hf
          exact hf
    · simp only [hd] at h; simp at h

theorem readNat_complete {n : Nat} {t : List Char} (h : NatText n t) (rest : List Char) (hs : Stop rest) :
    readNat (t ++ rest) = some (n, rest) := by
  obtain ⟨h1, h2, h3, h4⟩ := h
  cases t with
  | nil => exact absurd rfl h1
  | cons c t =>
    have hr := readDigits_run (c :: t) h2 0 rest hs
    have hd := (isDigit_iff c).mpr (h2 c (by simp))
    rw [List.cons_append] at hr ⊢
    unfold readNat
    simp only [hd, if_true, hr]
    have hz : ¬ (c = '0' ∧ (t ++ rest).head?.any isDigit = true) := by
      rintro ⟨hc, ha⟩
      have := h3 (by rw [hc]; rfl)
      simp only [List.cons.injEq] at this
      rw [this.2, List.nil_append] at ha
      cases rest with
      | nil => simp at ha
      | cons d r => simp [(hs d rfl).1] at ha
    have hf : rest.head?.any (fun x => decide (x = '.' ∨ x = 'e' ∨ x = 'E')) = false := by
      cases rest with
      | nil => rfl
      | cons c r => simp [(hs c rfl).2.1, (hs c rfl).2.2.1, (hs c rfl).2.2.2]
    rw [if_neg hz, hf, ← h4]
    simp [decimal]

/-! ### Strings -/

theorem char_of {c : Char} {n : Nat} (h : c.toNat = n) : c = Char.ofNat n := (ofNat_of_toNat h).symm

theorem hexVal_iff (c : Char) (v : Nat) : hexVal c = some v ↔ HexText v c := by
  constructor
  · intro h
    unfold hexVal at h
    split at h
    · rename_i hc
      have hv : c.toNat = 48 + v := by simp only [Option.some.injEq] at h; omega
      have hlt : v < 10 := by omega
      have := char_of hv
      left
      match v, hlt with
      | 0, _ | 1, _ | 2, _ | 3, _ | 4, _ | 5, _ | 6, _ | 7, _ | 8, _ | 9, _ => rw [this]; decide
    · split at h
      · rename_i _ hc
        have hv : c.toNat = 87 + v := by simp only [Option.some.injEq] at h; omega
        obtain ⟨u, rfl, hlt⟩ : ∃ u, v = 10 + u ∧ u < 6 := ⟨v - 10, by omega, by omega⟩
        have := char_of hv
        left
        match u, hlt with
        | 0, _ | 1, _ | 2, _ | 3, _ | 4, _ | 5, _ => rw [this]; decide
      · split at h
        · rename_i _ _ hc
          have hv : c.toNat = 55 + v := by simp only [Option.some.injEq] at h; omega
          obtain ⟨u, rfl, hlt⟩ : ∃ u, v = 10 + u ∧ u < 6 := ⟨v - 10, by omega, by omega⟩
          have := char_of hv
          right
          match u, hlt with
          | 0, _ | 1, _ | 2, _ | 3, _ | 4, _ | 5, _ => rw [this]; decide
        · simp at h
  · intro h
    have hlt : v < 16 := by
      refine Decidable.byContradiction fun hn => ?_
      have l1 : "0123456789abcdef".toList.length = 16 := by decide
      have l2 : "0123456789ABCDEF".toList.length = 16 := by decide
      have e1 : "0123456789abcdef".toList[v]? = none := List.getElem?_eq_none (by omega)
      have e2 : "0123456789ABCDEF".toList[v]? = none := List.getElem?_eq_none (by omega)
      unfold HexText at h
      rw [e1, e2] at h
      simp at h
    unfold HexText at h
    match v, hlt with
    | 0, _ | 1, _ | 2, _ | 3, _ | 4, _ | 5, _ | 6, _ | 7, _ | 8, _ | 9, _ | 10, _ | 11, _ | 12, _ | 13, _ | 14, _ | 15, _ =>
      simp at h
      first
        | (subst h; rfl)
        | (rcases h with h | h <;> (subst h; rfl))

theorem readHex4_sound {cs r : List Char} {n : Nat} (h : readHex4 cs = some (n, r)) :
    ∃ t, cs = t ++ r ∧ UnitText n t := by
  unfold readHex4 at h
  split at h
  · rename_i a b c d r'
    split at h
    · rename_i x y z u hx hy hz hu
      simp only [Option.some.injEq, Prod.mk.injEq] at h
      obtain ⟨h1, rfl⟩ := h
      exact ⟨[a, b, c, d], rfl, a, b, c, d, x, y, z, u, rfl, (hexVal_iff ..).mp hx, (hexVal_iff ..).mp hy,
        (hexVal_iff ..).mp hz, (hexVal_iff ..).mp hu, by omega⟩
    · simp at h
  · simp at h

theorem readHex4_complete {n : Nat} {t : List Char} (h : UnitText n t) (r : List Char) :
    readHex4 (t ++ r) = some (n, r) := by
  obtain ⟨a, b, c, d, x, y, z, u, rfl, h1, h2, h3, h4, h5⟩ := h
  simp only [List.cons_append, List.nil_append, readHex4, (hexVal_iff ..).mpr h1, (hexVal_iff ..).mpr h2,
    (hexVal_iff ..).mpr h3, (hexVal_iff ..).mpr h4, Option.some.injEq, Prod.mk.injEq, and_true]
  omega

theorem unit_lt {n : Nat} {t : List Char} (h : UnitText n t) : n < 0x10000 := by
  obtain ⟨a, b, c, d, x, y, z, u, rfl, h1, h2, h3, h4, h5⟩ := h
  have lt : ∀ {v : Nat} {c : Char}, HexText v c → v < 16 := by
    intro v c h
    have := (hexVal_iff c v).mpr h
    unfold hexVal at this
    repeat' split at this
    all_goals simp only [Option.some.injEq, reduceCtorEq] at this
    all_goals omega
  have := lt h1; have := lt h2; have := lt h3; have := lt h4
  omega

theorem toNat_ofNat {n : Nat} (h : n < 0xD800 ∨ 0xDFFF < n ∧ n < 0x110000) : (Char.ofNat n).toNat = n := by
  have hv : n.isValidChar := by
    unfold Nat.isValidChar; omega
  unfold Char.ofNat
  rw [dif_pos hv]
  show (Char.ofNatAux n hv).val.toNat = n
  unfold Char.ofNatAux
  rfl

theorem toNat_range (c : Char) : c.toNat < 0xD800 ∨ 0xDFFF < c.toNat ∧ c.toNat < 0x110000 := c.valid

theorem readUnicode_sound {cs r : List Char} {c : Char} (h : readUnicode cs = some (c, r)) :
    ∃ t, cs = t ++ r ∧ CharText c ('\\' :: 'u' :: t) := by
  unfold readUnicode at h
  split at h
  · simp at h
  rename_i n r' hn
  obtain ⟨t, he, ht⟩ := readHex4_sound hn
  have hlt := unit_lt ht
  by_cases h1 : 0xDC00 ≤ n ∧ n ≤ 0xDFFF
  · rw [if_pos h1] at h; simp at h
  rw [if_neg h1] at h
  by_cases h2 : 0xD800 ≤ n ∧ n ≤ 0xDBFF
  · rw [if_pos h2] at h
    split at h
    · rename_i r₂
      split at h
      · rename_i m r₃ hm
        split at h
        · rename_i h3
          simp only [Option.some.injEq, Prod.mk.injEq] at h
          obtain ⟨h4, rfl⟩ := h
          obtain ⟨t', he', ht'⟩ := readHex4_sound hm
          refine ⟨t ++ '\\' :: 'u' :: t', by rw [he, he']; simp, ?_⟩
          refine CharText.pair c (n - 0xD800) (m - 0xDC00) t t' ?_ ?_ (by omega) (by omega) ?_
          · rw [show 0xD800 + (n - 0xD800) = n by omega]; exact ht
          · rw [show 0xDC00 + (m - 0xDC00) = m by omega]; exact ht'
          · rw [← h4, toNat_ofNat (by omega)]
        · simp at h
      · simp at h
    · simp at h
  · rw [if_neg h2] at h
    simp only [Option.some.injEq, Prod.mk.injEq] at h
    obtain ⟨rfl, rfl⟩ := h
    refine ⟨t, he, CharText.unit _ _ ?_⟩
    rw [toNat_ofNat (by omega)]
    exact ht

theorem readEscape_sound {cs r : List Char} {c : Char} (h : readEscape cs = some (c, r)) :
    ∃ t, cs = t ++ r ∧ CharText c ('\\' :: t) := by
  unfold readEscape at h
  split at h
  case h_9 =>
    obtain ⟨t, he, ht⟩ := readUnicode_sound h
    exact ⟨'u' :: t, by rw [he]; rfl, ht⟩
  case h_10 => simp at h
  all_goals
    simp only [Option.some.injEq, Prod.mk.injEq] at h
    obtain ⟨rfl, rfl⟩ := h
    exact ⟨_, List.singleton_append.symm, CharText.short _ _ (by decide)⟩

theorem readStr_sound : ∀ (f : Nat) (cs s r : List Char), readStr f cs = some (s, r) →
    ∃ t, cs = t ++ '"' :: r ∧ StrText s t := by
  intro f
  induction f with
  | zero => intro cs s r h; simp [readStr] at h
  | succ f ih =>
    intro cs s r h
    cases cs with
    | nil => simp [readStr] at h
    | cons c cs =>
      rw [readStr] at h
      by_cases h1 : c = '"'
      · rw [if_pos h1] at h
        simp only [Option.some.injEq, Prod.mk.injEq] at h
        obtain ⟨rfl, rfl⟩ := h
        exact ⟨[], by rw [h1]; rfl, StrText.nil⟩
      rw [if_neg h1] at h
      by_cases h2 : c = '\\'
      · rw [if_pos h2] at h
        cases he : readEscape cs with
        | none => rw [he] at h; simp at h
        | some p =>
          obtain ⟨x, r'⟩ := p
          rw [he] at h
          simp only [Option.map_eq_some_iff, Prod.mk.injEq] at h
          obtain ⟨⟨s', q⟩, hq, rfl, rfl⟩ := h
          obtain ⟨t, e1, ht⟩ := readEscape_sound he
          obtain ⟨u, e2, hu⟩ := ih _ _ _ hq
          exact ⟨('\\' :: t) ++ u, by rw [h2, e1, e2]; simp, StrText.cons _ _ _ _ ht hu⟩
      rw [if_neg h2] at h
      by_cases h3 : c.toNat < 32
      · rw [if_pos h3] at h; simp at h
      rw [if_neg h3] at h
      simp only [Option.map_eq_some_iff, Prod.mk.injEq] at h
      obtain ⟨⟨s', q⟩, hq, rfl, rfl⟩ := h
      obtain ⟨u, e2, hu⟩ := ih _ _ _ hq
      exact ⟨[c] ++ u, by rw [e2]; rfl, StrText.cons _ _ _ _ (CharText.plain c h1 h2 (by omega)) hu⟩

/-- one character of a string in any of its forms, read. -/
theorem readStr_char {c : Char} {t : List Char} (h : CharText c t) (f : Nat) (r : List Char) :
    readStr (f + 1) (t ++ r) = (readStr f r).map fun (s, r') => (c :: s, r') := by
  have esc : ∀ (t : List Char), readEscape (t ++ r) = some (c, r) →
      readStr (f + 1) ('\\' :: t ++ r) = (readStr f r).map fun (s, r') => (c :: s, r') := by
    intro t h
    rw [List.cons_append, readStr, if_neg (by decide), if_pos rfl, h]
  have uni : ∀ x, readEscape ('u' :: x) = readUnicode x := fun _ => rfl
  cases h with
  | plain _ h1 h2 h3 =>
    rw [List.cons_append, List.nil_append, readStr, if_neg h1, if_neg h2, if_neg (by omega)]
  | short e _ h =>
    refine esc [e] ?_
    simp only [shortEscapes, List.mem_cons, Prod.mk.injEq, List.not_mem_nil, or_false] at h
    rcases h with ⟨rfl, rfl⟩ | ⟨rfl, rfl⟩ | ⟨rfl, rfl⟩ | ⟨rfl, rfl⟩ | ⟨rfl, rfl⟩ | ⟨rfl, rfl⟩ | ⟨rfl, rfl⟩ | ⟨rfl, rfl⟩ <;> rfl
  | unit _ cs h =>
    refine esc ('u' :: cs) ?_
    rw [List.cons_append, uni]
    unfold readUnicode
    rw [readHex4_complete h]
    have := toNat_range c
    simp only
    rw [if_neg (by omega), if_neg (by omega), char_ofNat_toNat]
  | pair _ n m hi lo h1 h2 h3 h4 h5 =>
    refine esc ('u' :: (hi ++ '\\' :: 'u' :: lo)) ?_
    rw [List.cons_append, uni, List.append_assoc]
    unfold readUnicode
    rw [readHex4_complete h1]
    simp only [List.cons_append, readHex4_complete h2]
    rw [if_neg (by omega), if_pos (by omega), if_pos (by omega)]
    simp only [Option.some.injEq, Prod.mk.injEq, and_true]
    have e : 0x10000 + (0xD800 + n - 0xD800) * 0x400 + (0xDC00 + m - 0xDC00) = c.toNat := by omega
    exact ofNat_of_toNat e.symm

theorem charText_len {c : Char} {t : List Char} (h : CharText c t) : 1 ≤ t.length := by
  cases h <;> simp

theorem readStr_complete {s t : List Char} (h : StrText s t) : ∀ (f : Nat) (r : List Char), t.length < f →
    readStr f (t ++ '"' :: r) = some (s, r) := by
  induction h with
  | nil =>
    intro f r hf
    cases f with
    | zero => simp at hf
    | succ f => simp [readStr]
  | cons c s t u hc hs ih =>
    intro f r hf
    have := charText_len hc
    rw [List.length_append] at hf
    cases f with
    | zero => omega
    | succ f =>
      rw [List.append_assoc, readStr_char hc, ih f r (by omega)]
      rfl

theorem readStr_whole {s t : List Char} (h : StrText s t) (r : List Char) :
    readStr ((t ++ '"' :: r).length + 1) (t ++ '"' :: r) = some (s, r) :=
  readStr_complete h _ r (by simp only [List.length_append]; omega)

end Verif.Json
