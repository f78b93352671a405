import Verif.Json.GrammarLemmas

namespace Verif.Json

/-! ### What is read is in the grammar -/

theorem expect_some {w cs r : List Char} (h : expect w cs = some r) : cs = w ++ r := by
  unfold expect at h
  split at h
  · rename_i hp
    simp only [Option.some.injEq] at h
    obtain ⟨t, ht⟩ := List.isPrefixOf_iff_prefix.mp hp
    rw [← ht, ← h, ← ht, List.drop_left]
  · simp at h

/-- what the four readers give, with a bound `f` on the recursion. -/
def SoundTo (f : Nat) : Prop :=
  (∀ d cs j r, 1 ≤ d → readValue f d cs = some (j, r) →
    ∃ w t, Blank w ∧ cs = w ++ t ++ r ∧ Text j t ∧ depth j < d) ∧
  (∀ d cs xs r, 1 ≤ d → readElems f d cs = some (xs, r) →
    ∃ w t, Blank w ∧ cs = w ++ t ++ r ∧ ElemsText xs t ∧ depthElems xs < d) ∧
  (∀ d cs k x r, 1 ≤ d → readMember f d cs = some ((k, x), r) →
    ∃ w s w₁ w₂ t, Blank w ∧ StrText k s ∧ Blank w₁ ∧ Blank w₂ ∧ Text x t ∧ depth x < d ∧
      cs = w ++ '"' :: (s ++ '"' :: (w₁ ++ ':' :: (w₂ ++ t ++ r)))) ∧
  (∀ d cs ms r, 1 ≤ d → readMembers f d cs = some (ms, r) →
    ∃ w t, Blank w ∧ cs = w ++ t ++ r ∧ MembersText ms t ∧ depthMembers ms < d)

theorem sound_value {f : Nat} (ih : SoundTo f) (d : Nat) (cs : List Char) (j : Json) (r : List Char) (hd : 1 ≤ d)
    (h : readValue (f + 1) d cs = some (j, r)) : ∃ w t, Blank w ∧ cs = w ++ t ++ r ∧ Text j t ∧ depth j < d := by
  obtain ⟨hv, he, hm, hms⟩ := ih
  rw [readValue] at h
  obtain ⟨w, hw, hcs⟩ := skipWs_spec cs
  split at h
  · rename_i r' hs
    simp only [Option.map_eq_some_iff, Prod.mk.injEq] at h
    obtain ⟨r₂, h1, rfl, rfl⟩ := h
    have := expect_some h1
    exact ⟨w, "null".toList, hw, by rw [hcs, hs, this]; simp, by rw [Text], by rw [depth] <;> first | omega | nofun⟩
  · rename_i r' hs
    simp only [Option.map_eq_some_iff, Prod.mk.injEq] at h
    obtain ⟨r₂, h1, rfl, rfl⟩ := h
    have := expect_some h1
    exact ⟨w, "true".toList, hw, by rw [hcs, hs, this]; simp, by rw [Text]; rfl, by rw [depth] <;> first | omega | nofun⟩
  · rename_i r' hs
    simp only [Option.map_eq_some_iff, Prod.mk.injEq] at h
    obtain ⟨r₂, h1, rfl, rfl⟩ := h
    have := expect_some h1
    exact ⟨w, "false".toList, hw, by rw [hcs, hs, this]; simp, by rw [Text]; rfl, by rw [depth] <;> first | omega | nofun⟩
  · rename_i r' hs
    simp only [Option.map_eq_some_iff, Prod.mk.injEq] at h
    obtain ⟨⟨s, r₂⟩, h1, rfl, rfl⟩ := h
    obtain ⟨t, ht, hst⟩ := readStr_sound _ _ _ _ h1
    exact ⟨w, '"' :: (t ++ ['"']), hw, by rw [hcs, hs, ht]; simp, by rw [Text]; exact ⟨t, hst, rfl⟩,
      by rw [depth] <;> first | omega | nofun⟩
  · rename_i r' hs
    simp only [Option.bind_eq_some_iff] at h
    obtain ⟨⟨n, r₂⟩, h1, h2⟩ := h
    simp only at h2
    by_cases hn : n = 0
    · rw [if_pos hn] at h2; simp at h2
    rw [if_neg hn] at h2
    simp only [Option.some.injEq, Prod.mk.injEq] at h2
    obtain ⟨rfl, rfl⟩ := h2
    obtain ⟨t, ht, hnt, -⟩ := readNat_sound h1
    exact ⟨w, '-' :: t, hw, by rw [hcs, hs, ht]; simp, by rw [Text]; exact Or.inr ⟨n, t, rfl, hn, rfl, hnt⟩,
      by rw [depth] <;> first | omega | nofun⟩
  · rename_i r' hs
    by_cases h1 : d ≤ 1
    · rw [if_pos h1] at h; simp at h
    rw [if_neg h1] at h
    obtain ⟨w₂, hw₂, hcs₂⟩ := skipWs_spec r'
    split at h
    · rename_i r₂ hs₂
      simp only [Option.some.injEq, Prod.mk.injEq] at h
      obtain ⟨rfl, rfl⟩ := h
      exact ⟨w, '[' :: (w₂ ++ [']']), hw, by rw [hcs, hs, hcs₂, hs₂]; simp, by rw [Text]; exact ⟨w₂, hw₂, rfl⟩,
        by rw [depth, depthElems]; omega⟩
    · simp only [Option.bind_eq_some_iff, Option.map_eq_some_iff] at h
      obtain ⟨⟨x, r₃⟩, h3, ⟨xs, r₄⟩, h4, h5⟩ := h
      simp only [Prod.mk.injEq] at h5
      obtain ⟨rfl, rfl⟩ := h5
      obtain ⟨wa, ta, hwa, hca, hta, hda⟩ := hv _ _ _ _ (by omega) h3
      obtain ⟨wb, tb, hwb, hcb, htb, hdb⟩ := he _ _ _ _ (by omega) h4
      change r₃ = _ at hcb
      refine ⟨w, '[' :: ((w₂ ++ wa) ++ ta ++ wb ++ tb), hw, ?_, ?_, ?_⟩
      · rw [hcs, hs, hcs₂, hca, hcb]; simp
      · rw [Text]
        refine ⟨w₂ ++ wa, ta, wb, tb, ?_, hta, hwb, htb, rfl⟩
        intro c hc
        rcases List.mem_append.mp hc with hc | hc
        · exact hw₂ c hc
        · exact hwa c hc
      · rw [depth, depthElems]; omega
  · rename_i r' hs
    by_cases h1 : d ≤ 1
    · rw [if_pos h1] at h; simp at h
    rw [if_neg h1] at h
    obtain ⟨w₂, hw₂, hcs₂⟩ := skipWs_spec r'
    split at h
    · rename_i r₂ hs₂
      simp only [Option.some.injEq, Prod.mk.injEq] at h
      obtain ⟨rfl, rfl⟩ := h
      exact ⟨w, '{' :: (w₂ ++ ['}']), hw, by rw [hcs, hs, hcs₂, hs₂]; simp, by rw [Text]; exact ⟨w₂, hw₂, rfl⟩,
        by rw [depth, depthMembers]; omega⟩
    · simp only [Option.bind_eq_some_iff, Option.map_eq_some_iff] at h
      obtain ⟨⟨⟨k, x⟩, r₃⟩, h3, ⟨xs, r₄⟩, h4, h5⟩ := h
      simp only [Prod.mk.injEq] at h5
      obtain ⟨rfl, rfl⟩ := h5
      obtain ⟨wa, s, w₁, w₃, ta, hwa, hks, hw₁, hw₃, hta, hda, hca⟩ := hm _ _ _ _ _ (by omega) h3
      obtain ⟨wb, tb, hwb, hcb, htb, hdb⟩ := hms _ _ _ _ (by omega) h4
      change r₃ = _ at hcb
      refine ⟨w, '{' :: ((w₂ ++ wa) ++ '"' :: (s ++ '"' :: (w₁ ++ ':' :: (w₃ ++ ta ++ wb ++ tb)))), hw, ?_, ?_, ?_⟩
      · rw [hcs, hs, hcs₂, hca, hcb]; simp
      · rw [Text]
        refine ⟨w₂ ++ wa, s, w₁, w₃, ta, wb, tb, ?_, hks, hw₁, hw₃, hta, hwb, htb, rfl⟩
        intro c hc
        rcases List.mem_append.mp hc with hc | hc
        · exact hw₂ c hc
        · exact hwa c hc
      · rw [depth, depthMembers]; omega
  · simp only [Option.map_eq_some_iff, Prod.mk.injEq] at h
    obtain ⟨⟨n, r₂⟩, h1, rfl, rfl⟩ := h
    obtain ⟨t, ht, hnt, -⟩ := readNat_sound h1
    exact ⟨w, t, hw, by rw [List.append_assoc, ← ht]; exact hcs, by rw [Text]; exact Or.inl ⟨n, rfl, hnt⟩,
      by rw [depth] <;> first | omega | nofun⟩

theorem sound_elems {f : Nat} (ih : SoundTo f) (d : Nat) (cs : List Char) (xs : List Json) (r : List Char) (hd : 1 ≤ d)
    (h : readElems (f + 1) d cs = some (xs, r)) :
    ∃ w t, Blank w ∧ cs = w ++ t ++ r ∧ ElemsText xs t ∧ depthElems xs < d := by
  obtain ⟨hv, he, hm, hms⟩ := ih
  rw [readElems] at h
  obtain ⟨w, hw, hcs⟩ := skipWs_spec cs
  split at h
  · rename_i r' hs
    simp only [Option.some.injEq, Prod.mk.injEq] at h
    obtain ⟨rfl, rfl⟩ := h
    exact ⟨w, [']'], hw, by rw [hcs, hs]; simp, by rw [ElemsText], by rw [depthElems]; omega⟩
  · rename_i r' hs
    simp only [Option.bind_eq_some_iff, Option.map_eq_some_iff] at h
    obtain ⟨⟨x, r₃⟩, h3, ⟨xs', r₄⟩, h4, h5⟩ := h
    simp only [Prod.mk.injEq] at h5
    obtain ⟨rfl, rfl⟩ := h5
    obtain ⟨wa, ta, hwa, hca, hta, hda⟩ := hv _ _ _ _ hd h3
    obtain ⟨wb, tb, hwb, hcb, htb, hdb⟩ := he _ _ _ _ hd h4
    change r₃ = _ at hcb
    refine ⟨w, ',' :: (wa ++ ta ++ wb ++ tb), hw, ?_, ?_, ?_⟩
    · rw [hcs, hs, hca, hcb]; simp
    · rw [ElemsText]; exact ⟨wa, ta, wb, tb, hwa, hta, hwb, htb, rfl⟩
    · rw [depthElems]; omega
  · simp at h

theorem sound_member {f : Nat} (ih : SoundTo f) (d : Nat) (cs k : List Char) (x : Json) (r : List Char) (hd : 1 ≤ d)
    (h : readMember (f + 1) d cs = some ((k, x), r)) :
    ∃ w s w₁ w₂ t, Blank w ∧ StrText k s ∧ Blank w₁ ∧ Blank w₂ ∧ Text x t ∧ depth x < d ∧
      cs = w ++ '"' :: (s ++ '"' :: (w₁ ++ ':' :: (w₂ ++ t ++ r))) := by
  obtain ⟨hv, he, hm, hms⟩ := ih
  rw [readMember] at h
  obtain ⟨w, hw, hcs⟩ := skipWs_spec cs
  split at h
  · rename_i r' hs
    simp only [Option.bind_eq_some_iff] at h
    obtain ⟨⟨k', r₂⟩, h1, h2⟩ := h
    obtain ⟨s, hs', hst⟩ := readStr_sound _ _ _ _ h1
    obtain ⟨w₁, hw₁, hcs₁⟩ := skipWs_spec r₂
    simp only at h2
    split at h2
    · rename_i r₃ hs₃
      simp only [Option.map_eq_some_iff, Prod.mk.injEq] at h2
      obtain ⟨⟨x', r₄⟩, h3, ⟨rfl, rfl⟩, rfl⟩ := h2
      obtain ⟨w₂, t, hw₂, hc₂, ht, hdx⟩ := hv _ _ _ _ hd h3
      exact ⟨w, s, w₁, w₂, t, hw, hst, hw₁, hw₂, ht, hdx, by rw [hcs, hs, hs', hcs₁, hs₃, hc₂]⟩
    · simp at h2
  · simp at h

theorem sound_members {f : Nat} (ih : SoundTo f) (d : Nat) (cs : List Char) (ms : List (List Char × Json))
    (r : List Char) (hd : 1 ≤ d) (h : readMembers (f + 1) d cs = some (ms, r)) :
    ∃ w t, Blank w ∧ cs = w ++ t ++ r ∧ MembersText ms t ∧ depthMembers ms < d := by
  obtain ⟨hv, he, hm, hms⟩ := ih
  rw [readMembers] at h
  obtain ⟨w, hw, hcs⟩ := skipWs_spec cs
  split at h
  · rename_i r' hs
    simp only [Option.some.injEq, Prod.mk.injEq] at h
    obtain ⟨rfl, rfl⟩ := h
    exact ⟨w, ['}'], hw, by rw [hcs, hs]; simp, by rw [MembersText], by rw [depthMembers]; omega⟩
  · rename_i r' hs
    simp only [Option.bind_eq_some_iff, Option.map_eq_some_iff] at h
    obtain ⟨⟨⟨k, x⟩, r₃⟩, h3, ⟨xs', r₄⟩, h4, h5⟩ := h
    simp only [Prod.mk.injEq] at h5
    obtain ⟨rfl, rfl⟩ := h5
    obtain ⟨wa, s, w₁, w₃, ta, hwa, hks, hw₁, hw₃, hta, hda, hca⟩ := hm _ _ _ _ _ hd h3
    obtain ⟨wb, tb, hwb, hcb, htb, hdb⟩ := hms _ _ _ _ hd h4
    change r₃ = _ at hcb
    refine ⟨w, ',' :: (wa ++ '"' :: (s ++ '"' :: (w₁ ++ ':' :: (w₃ ++ ta ++ wb ++ tb)))), hw, ?_, ?_, ?_⟩
    · rw [hcs, hs, hca, hcb]; simp
    · rw [MembersText]; exact ⟨wa, s, w₁, w₃, ta, wb, tb, hwa, hks, hw₁, hw₃, hta, hwb, htb, rfl⟩
    · rw [depthMembers]; omega
  · simp at h

theorem sound_all (f : Nat) : SoundTo f := by
  induction f with
  | zero =>
    refine ⟨?_, ?_, ?_, ?_⟩
    · intro d cs j r _ h; simp [readValue] at h
    · intro d cs j r _ h; simp [readElems] at h
    · intro d cs k j r _ h; simp [readMember] at h
    · intro d cs j r _ h; simp [readMembers] at h
  | succ f ih => exact ⟨sound_value ih, sound_elems ih, sound_member ih, sound_members ih⟩

/-! ### What is in the grammar is read -/

theorem readValue_blank (f d : Nat) (w cs : List Char) (h : Blank w) : readValue f d (w ++ cs) = readValue f d cs := by
  cases f with
  | zero => simp [readValue]
  | succ f => rw [readValue, readValue, skipWs_blank w cs h]

theorem readElems_blank (f d : Nat) (w cs : List Char) (h : Blank w) : readElems f d (w ++ cs) = readElems f d cs := by
  cases f with
  | zero => simp [readElems]
  | succ f => rw [readElems, readElems, skipWs_blank w cs h]

theorem readMembers_blank (f d : Nat) (w cs : List Char) (h : Blank w) :
    readMembers f d (w ++ cs) = readMembers f d cs := by
  cases f with
  | zero => simp [readMembers]
  | succ f => rw [readMembers, readMembers, skipWs_blank w cs h]

theorem natText_head {n : Nat} {t : List Char} (h : NatText n t) : ∃ c cs, t = c :: cs ∧ 48 ≤ c.toNat ∧ c.toNat ≤ 57 := by
  obtain ⟨h1, h2, -, -⟩ := h
  cases t with
  | nil => exact absurd rfl h1
  | cons c cs => exact ⟨c, cs, rfl, h2 c (by simp)⟩

theorem digit_cases {c : Char} (h : 48 ≤ c.toNat ∧ c.toNat ≤ 57) : ∃ k, k < 10 ∧ c = digit k :=
  ⟨c.toNat - 48, by omega, char_of (by omega)⟩

theorem text_head {j : Json} {t : List Char} (h : Text j t) :
    ∃ c cs, t = c :: cs ∧ ¬ (c = ' ' ∨ c = '\n' ∨ c = '\t' ∨ c = '\r') ∧ c ≠ ']' := by
  cases j with
  | null => rw [Text] at h; exact ⟨'n', _, h, by decide, by decide⟩
  | bool b =>
    rw [Text] at h
    cases b
    · exact ⟨'f', _, h, by decide, by decide⟩
    · exact ⟨'t', _, h, by decide, by decide⟩
  | num i =>
    rw [Text] at h
    rcases h with ⟨n, -, hn⟩ | ⟨n, r, -, -, rfl, -⟩
    · obtain ⟨c, cs, rfl, hc⟩ := natText_head hn
      obtain ⟨k, hk, rfl⟩ := digit_cases hc
      refine ⟨_, cs, rfl, ?_, ?_⟩
      · match k, hk with
        | 0, _ | 1, _ | 2, _ | 3, _ | 4, _ | 5, _ | 6, _ | 7, _ | 8, _ | 9, _ => decide
      · match k, hk with
        | 0, _ | 1, _ | 2, _ | 3, _ | 4, _ | 5, _ | 6, _ | 7, _ | 8, _ | 9, _ => decide
    · exact ⟨'-', _, rfl, by decide, by decide⟩
  | str s => rw [Text] at h; obtain ⟨t, -, rfl⟩ := h; exact ⟨'"', _, rfl, by decide, by decide⟩
  | arr xs =>
    cases xs with
    | nil => rw [Text] at h; obtain ⟨_, -, rfl⟩ := h; exact ⟨'[', _, rfl, by decide, by decide⟩
    | cons x xs => rw [Text] at h; obtain ⟨_, _, _, _, -, -, -, -, rfl⟩ := h; exact ⟨'[', _, rfl, by decide, by decide⟩
  | obj ms =>
    cases ms with
    | nil => rw [Text] at h; obtain ⟨_, -, rfl⟩ := h; exact ⟨'{', _, rfl, by decide, by decide⟩
    | cons m ms =>
      obtain ⟨k, x⟩ := m
      rw [Text] at h
      obtain ⟨_, _, _, _, _, _, _, -, -, -, -, -, -, -, rfl⟩ := h
      exact ⟨'{', _, rfl, by decide, by decide⟩

theorem stop_blank {w r : List Char} (hw : Blank w) (hr : Stop r) : Stop (w ++ r) := by
  cases w with
  | nil => exact hr
  | cons c w =>
    rcases hw c (by simp) with h | h | h | h <;> (subst h; exact stop_of _ (by decide))

theorem stop_elemsText {xs : List Json} {t : List Char} (h : ElemsText xs t) (r : List Char) : Stop (t ++ r) := by
  cases xs with
  | nil => rw [ElemsText] at h; subst h; exact stop_of _ (by decide)
  | cons x xs => rw [ElemsText] at h; obtain ⟨_, _, _, _, -, -, -, -, rfl⟩ := h; exact stop_of _ (by decide)

theorem stop_membersText {ms : List (List Char × Json)} {t : List Char} (h : MembersText ms t) (r : List Char) :
    Stop (t ++ r) := by
  cases ms with
  | nil => rw [MembersText] at h; subst h; exact stop_of _ (by decide)
  | cons m ms =>
    obtain ⟨k, x⟩ := m
    rw [MembersText] at h
    obtain ⟨_, _, _, _, _, _, _, -, -, -, -, -, -, -, rfl⟩ := h; exact stop_of _ (by decide)

theorem readMember_of {k s w w₁ w₂ : List Char} {x : Json} {cs r : List Char} (hw : Blank w) (hs : StrText k s)
    (hw₁ : Blank w₁) (hw₂ : Blank w₂) (f d : Nat) (h : readValue f d cs = some (x, r)) :
    readMember (f + 1) d (w ++ '"' :: (s ++ '"' :: (w₁ ++ ':' :: (w₂ ++ cs)))) = some ((k, x), r) := by
  rw [readMember, skipWs_blank _ _ hw, skipWs_of _ _ (by decide)]
  simp only
  rw [readStr_whole hs]
  simp only [Option.bind_some]
  rw [skipWs_blank _ _ hw₁, skipWs_of _ _ (by decide)]
  simp only [readValue_blank _ _ _ _ hw₂, h, Option.map_some]

mutual
theorem readValue_text : ∀ (j : Json) (t : List Char) (f d : Nat) (rest : List Char), Text j t → 2 * t.length ≤ f →
    depth j < d → Stop rest → readValue f d (t ++ rest) = some (j, rest)
  | .null, t, f, d, rest, ht, hf, hd, hs => by
    rw [Text] at ht; subst ht
    obtain ⟨f, rfl⟩ : ∃ g, f = g + 1 := ⟨f - 1, by simp at hf; omega⟩
    show readValue (f + 1) d ('n' :: 'u' :: 'l' :: 'l' :: rest) = _
    rw [readValue, skipWs_of _ _ (by decide)]
    simp [expect]
  | .bool b, t, f, d, rest, ht, hf, hd, hs => by
    rw [Text] at ht; subst ht
    obtain ⟨f, rfl⟩ : ∃ g, f = g + 1 := ⟨f - 1, by cases b <;> (simp at hf; omega)⟩
    cases b
    · show readValue (f + 1) d ('f' :: 'a' :: 'l' :: 's' :: 'e' :: rest) = _
      rw [readValue, skipWs_of _ _ (by decide)]
      simp [expect]
    · show readValue (f + 1) d ('t' :: 'r' :: 'u' :: 'e' :: rest) = _
      rw [readValue, skipWs_of _ _ (by decide)]
      simp [expect]
  | .num i, t, f, d, rest, ht, hf, hd, hs => by
    rw [Text] at ht
    rcases ht with ⟨n, rfl, hn⟩ | ⟨n, r, rfl, h0, rfl, hn⟩
    · have hr := readNat_complete hn rest hs
      obtain ⟨c, cs, rfl, hc⟩ := natText_head hn
      obtain ⟨k, hk, rfl⟩ := digit_cases hc
      obtain ⟨f, rfl⟩ : ∃ g, f = g + 1 := ⟨f - 1, by simp at hf; omega⟩
      rw [List.cons_append] at hr ⊢
      rw [readValue]
      match k, hk with
      | 0, _ | 1, _ | 2, _ | 3, _ | 4, _ | 5, _ | 6, _ | 7, _ | 8, _ | 9, _ =>
        rw [skipWs_of _ _ (by decide)]
        show (readNat _).map _ = _
        rw [hr]
        rfl
    · obtain ⟨f, rfl⟩ : ∃ g, f = g + 1 := ⟨f - 1, by simp at hf; omega⟩
      rw [List.cons_append, readValue, skipWs_of _ _ (by decide)]
      simp only [readNat_complete hn rest hs, Option.bind_some]
      rw [if_neg h0]
  | .str s, t, f, d, rest, ht, hf, hd, hs => by
    rw [Text] at ht
    obtain ⟨u, hu, rfl⟩ := ht
    obtain ⟨f, rfl⟩ : ∃ g, f = g + 1 := ⟨f - 1, by simp at hf; omega⟩
    rw [List.cons_append, readValue, skipWs_of _ _ (by decide)]
    simp only [List.append_assoc, List.cons_append, List.nil_append]
    rw [readStr_whole hu]; rfl
  | .arr [], t, f, d, rest, ht, hf, hd, hs => by
    rw [Text] at ht
    obtain ⟨w, hw, rfl⟩ := ht
    obtain ⟨f, rfl⟩ : ∃ g, f = g + 1 := ⟨f - 1, by simp at hf; omega⟩
    rw [List.cons_append, readValue, skipWs_of _ _ (by decide)]
    have hd' : ¬ d ≤ 1 := by simp only [depth, depthElems] at hd; omega
    simp only [if_neg hd']
    rw [List.append_assoc, skipWs_blank _ _ hw, List.cons_append, skipWs_of _ _ (by decide)]
    rfl
  | .arr (x :: xs), t, f, d, rest, ht, hf, hd, hs => by
    rw [Text] at ht
    obtain ⟨w, u, w', r, hw, hu, hw', hr, rfl⟩ := ht
    simp only [List.length_cons, List.length_append] at hf
    simp only [depth, depthElems] at hd
    obtain ⟨f, rfl⟩ : ∃ g, f = g + 1 := ⟨f - 1, by omega⟩
    rw [List.cons_append, readValue, skipWs_of _ _ (by decide)]
    have hd' : ¬ d ≤ 1 := by omega
    simp only [if_neg hd']
    have h1 := readValue_text x u f (d - 1) (w' ++ (r ++ rest)) hu (by omega) (by omega)
      (stop_blank hw' (stop_elemsText hr rest))
    have h2 := readElems_text xs r f (d - 1) rest hr (by omega) (by omega)
    obtain ⟨c, cs, hc, hb, hq⟩ := text_head hu
    simp only [List.append_assoc]
    rw [skipWs_blank _ _ hw]
    rw [hc, List.cons_append] at h1 ⊢
    rw [skipWs_of _ _ hb]
    split
    · rename_i h; simp only [List.cons.injEq] at h; exact absurd h.1 hq
    · rw [h1]; simp only [Option.bind_some, readElems_blank _ _ _ _ hw', h2, Option.map_some]
  | .obj [], t, f, d, rest, ht, hf, hd, hs => by
    rw [Text] at ht
    obtain ⟨w, hw, rfl⟩ := ht
    obtain ⟨f, rfl⟩ : ∃ g, f = g + 1 := ⟨f - 1, by simp at hf; omega⟩
    rw [List.cons_append, readValue, skipWs_of _ _ (by decide)]
    have hd' : ¬ d ≤ 1 := by simp only [depth, depthMembers] at hd; omega
    simp only [if_neg hd']
    rw [List.append_assoc, skipWs_blank _ _ hw, List.cons_append, skipWs_of _ _ (by decide)]
    rfl
  | .obj ((k, x) :: ms), t, f, d, rest, ht, hf, hd, hs => by
    rw [Text] at ht
    obtain ⟨w, s, w₁, w₂, u, w', r, hw, hk, hw₁, hw₂, hu, hw', hr, rfl⟩ := ht
    simp only [List.length_cons, List.length_append] at hf
    simp only [depth, depthMembers] at hd
    obtain ⟨f, rfl⟩ : ∃ g, f = g + 2 := ⟨f - 2, by omega⟩
    rw [List.cons_append, readValue, skipWs_of _ _ (by decide)]
    have hd' : ¬ d ≤ 1 := by omega
    simp only [if_neg hd']
    have h1 := readValue_text x u f (d - 1) (w' ++ (r ++ rest)) hu (by omega) (by omega)
      (stop_blank hw' (stop_membersText hr rest))
    have h2 := readMembers_text ms r (f + 1) (d - 1) rest hr (by omega) (by omega)
    have h3 := readMember_of blank_nil hk hw₁ hw₂ f (d - 1) h1
    simp only [List.append_assoc, List.cons_append]
    rw [skipWs_blank _ _ hw, skipWs_of _ _ (by decide)]
    rw [List.nil_append] at h3
    show (readMember (f + 1) (d - 1) _).bind _ = _
    rw [h3]
    simp only [Option.bind_some, readMembers_blank _ _ _ _ hw', h2, Option.map_some]

theorem readElems_text : ∀ (xs : List Json) (t : List Char) (f d : Nat) (rest : List Char), ElemsText xs t →
    2 * t.length ≤ f → depthElems xs < d → readElems f d (t ++ rest) = some (xs, rest)
  | [], t, f, d, rest, ht, hf, hd => by
    rw [ElemsText] at ht; subst ht
    obtain ⟨f, rfl⟩ : ∃ g, f = g + 1 := ⟨f - 1, by simp at hf; omega⟩
    rw [List.cons_append, readElems, skipWs_of _ _ (by decide)]
    rfl
  | x :: xs, t, f, d, rest, ht, hf, hd => by
    rw [ElemsText] at ht
    obtain ⟨w, u, w', r, hw, hu, hw', hr, rfl⟩ := ht
    simp only [List.length_cons, List.length_append] at hf
    simp only [depthElems] at hd
    obtain ⟨f, rfl⟩ : ∃ g, f = g + 1 := ⟨f - 1, by omega⟩
    rw [List.cons_append, readElems, skipWs_of _ _ (by decide)]
    have h1 := readValue_text x u f d (w' ++ (r ++ rest)) hu (by omega) (by omega)
      (stop_blank hw' (stop_elemsText hr rest))
    have h2 := readElems_text xs r f d rest hr (by omega) (by omega)
    simp only [List.append_assoc, readValue_blank _ _ _ _ hw, h1, Option.bind_some, readElems_blank _ _ _ _ hw', h2,
      Option.map_some]

theorem readMembers_text : ∀ (ms : List (List Char × Json)) (t : List Char) (f d : Nat) (rest : List Char),
    MembersText ms t → 2 * t.length ≤ f → depthMembers ms < d → readMembers f d (t ++ rest) = some (ms, rest)
  | [], t, f, d, rest, ht, hf, hd => by
    rw [MembersText] at ht; subst ht
    obtain ⟨f, rfl⟩ : ∃ g, f = g + 1 := ⟨f - 1, by simp at hf; omega⟩
    rw [List.cons_append, readMembers, skipWs_of _ _ (by decide)]
    rfl
  | (k, x) :: ms, t, f, d, rest, ht, hf, hd => by
    rw [MembersText] at ht
    obtain ⟨w, s, w₁, w₂, u, w', r, hw, hk, hw₁, hw₂, hu, hw', hr, rfl⟩ := ht
    simp only [List.length_cons, List.length_append] at hf
    simp only [depthMembers] at hd
    obtain ⟨f, rfl⟩ : ∃ g, f = g + 2 := ⟨f - 2, by omega⟩
    rw [List.cons_append, readMembers, skipWs_of _ _ (by decide)]
    have h1 := readValue_text x u f d (w' ++ (r ++ rest)) hu (by omega) (by omega)
      (stop_blank hw' (stop_membersText hr rest))
    have h2 := readMembers_text ms r (f + 1) d rest hr (by omega) (by omega)
    have h3 := readMember_of hw hk hw₁ hw₂ f d h1
    simp only [List.append_assoc, List.cons_append] at h3 ⊢
    simp only [h3, Option.bind_some, readMembers_blank _ _ _ _ hw', h2, Option.map_some]
end

theorem skipWs_nil {cs : List Char} : skipWs cs = [] ↔ Blank cs := by
  constructor
  · intro h
    obtain ⟨w, hw, he⟩ := skipWs_spec cs
    rw [h, List.append_nil] at he
    rw [he]; exact hw
  · intro h
    have := skipWs_blank cs [] h
    rw [List.append_nil] at this
    rw [this]; rfl

/-- the reader accepts exactly the documents that are not nested too deeply. -/
theorem parse_iff (cs : List Char) (j : Json) : parse cs = some j ↔ Document j cs ∧ depth j ≤ 127 := by
  unfold parse
  constructor
  · intro h
    simp only [Option.bind_eq_some_iff] at h
    obtain ⟨⟨j', r⟩, h1, h2⟩ := h
    simp only at h2
    by_cases hr : skipWs r = []
    · rw [if_pos hr] at h2
      simp only [Option.some.injEq] at h2
      subst h2
      obtain ⟨w, t, hw, he, ht, hd⟩ := (sound_all _).1 _ _ _ _ (by omega) h1
      exact ⟨⟨w, t, r, hw, ht, skipWs_nil.mp hr, he⟩, by omega⟩
    · rw [if_neg hr] at h2; simp at h2
  · rintro ⟨⟨w, t, w', hw, ht, hw', rfl⟩, hd⟩
    rw [List.append_assoc, readValue_blank _ _ _ _ hw,
      readValue_text j t _ 128 w' ht (by simp only [List.length_append]; omega) (by omega)
        (by have := stop_blank hw' stop_nil; rwa [List.append_nil] at this)]
    simp only [Option.bind_some]
    rw [if_pos (skipWs_nil.mpr hw')]

/-! ### Bytes -/

theorem ofBytes_iff (bs : Bytes) (cs : List Char) : ofBytes bs = some cs ↔ bs = toBytes cs := by
  constructor
  · intro h
    unfold ofBytes at h
    simp only [Option.map_eq_some_iff] at h
    obtain ⟨s, hs, rfl⟩ := h
    unfold toBytes
    rw [String.ofList_toList]
    unfold Proto.bytesStr String.fromUTF8? at hs
    split at hs
    · simp only [Option.some.injEq] at hs
      subst hs
      unfold Proto.strBytes
      rfl
    · simp at hs
  · rintro rfl; exact ofBytes_toBytes cs

end Verif.Json
