import Verif.Json.TypesSpec
import Verif.Json.TextLemmas

namespace Verif.Json

theorem serFields_names : (fs : Row) → (v : fs.den) → (serFields fs v).map Prod.fst = fs.names
  | .nil, _ => rfl
  | .cons n t r, (x, v) => by simp only [serFields, List.map_cons, Row.names, serFields_names r v]

theorem members_none {n : List Char} {ms : List (List Char × Json)} (h : n ∉ ms.map Prod.fst) : members n ms = [] := by
  unfold members
  rw [List.filter_eq_nil_iff.2]; · rfl
  intro m hm
  simp only [decide_eq_true_eq]
  intro e
  exact h (e ▸ List.mem_map_of_mem hm)

theorem members_append (n : List Char) (a b : List (List Char × Json)) : members n (a ++ b) = members n a ++ members n b := by
  simp [members]

theorem members_cons_self (n : List Char) (x : Json) (ms : List (List Char × Json)) :
    members n ((n, x) :: ms) = x :: members n ms := by simp [members]

/-- reading a record in the midst of others' members: each field is read by itself. -/
theorem deFields_ser_cons (n : List Char) (t : Ty) (r : Row) (x : t.den) (v : r.den) (pre : List (List Char × Json))
    (h1 : n ∉ pre.map Prod.fst) (h2 : n ∉ r.names) :
    deFields (.cons n t r) (pre ++ serFields (.cons n t r) (x, v)) =
      (de t (ser t x)).bind fun a => (deFields r ((pre ++ [(n, ser t x)]) ++ serFields r v)).map fun w => (a, w) := by
  have hm : members n (pre ++ serFields (.cons n t r) (x, v)) = [ser t x] := by
    rw [members_append, members_none h1, List.nil_append, serFields, members_cons_self, members_none]
    rw [serFields_names]; exact h2
  have e : pre ++ serFields (.cons n t r) (x, v) = (pre ++ [(n, ser t x)]) ++ serFields r v := by simp [serFields]
  rw [deFields, hm]
  simp only []
  rw [e]
  rfl

theorem ser_null : (t : Ty) → ¬ t.Nullable → (v : t.den) → ser t v ≠ .null
  | .unit, h, _ => absurd trivial h
  | .bool, _, _ => by simp [ser]
  | .int _ _, _, _ => by simp [ser]
  | .str, _, _ => by simp [ser]
  | .opt _, h, _ => absurd trivial h
  | .seq _, _, _ => by simp [ser]
  | .tuple _, _, _ => by simp [ser]
  | .record _, _, _ => by simp [ser]
  | .choice vs, _, v => by
    simp only [ser]
    exact go vs v
where
  go : (vs : Vars) → (v : vs.den) → serVars vs v ≠ .null
    | .nil, v => nomatch v
    | .plain _ _, .inl _ => by simp [serVars]
    | .plain _ r, .inr v => by simp only [serVars]; exact go r v
    | .carrying _ _ _, .inl _ => by simp [serVars]
    | .carrying _ _ r, .inr v => by simp only [serVars]; exact go r v

theorem de_opt (t : Ty) (j : Json) (h : j ≠ .null) : de (.opt t) j = (de t j).map some := by
  cases j with
  | null => exact absurd rfl h
  | bool _ | num _ | str _ | arr _ | obj _ => rfl

/-- the JSON of a choice: the name of a variant, alone or with its value. -/
theorem serVars_shape : (vs : Vars) → (v : vs.den) →
    (∃ n ∈ vs.names, serVars vs v = .str n) ∨ (∃ n ∈ vs.names, ∃ x, serVars vs v = .obj [(n, x)])
  | .nil, v => nomatch v
  | .plain n r, .inl _ => .inl ⟨n, by simp [Vars.names], rfl⟩
  | .plain n r, .inr v => by
    rcases serVars_shape r v with ⟨m, hm, h⟩ | ⟨m, hm, x, h⟩
    · exact .inl ⟨m, by simp [Vars.names, hm], h⟩
    · exact .inr ⟨m, by simp [Vars.names, hm], x, h⟩
  | .carrying n t r, .inl x => .inr ⟨n, by simp [Vars.names], ser t x, rfl⟩
  | .carrying n t r, .inr v => by
    rcases serVars_shape r v with ⟨m, hm, h⟩ | ⟨m, hm, x, h⟩
    · exact .inl ⟨m, by simp [Vars.names, hm], h⟩
    · exact .inr ⟨m, by simp [Vars.names, hm], x, h⟩

theorem tagged_ser (vs : Vars) (v : vs.den) : ∃ n ∈ vs.names, ∃ x, tagged (serVars vs v) = some (n, x) := by
  rcases serVars_shape vs v with ⟨m, hm, e⟩ | ⟨m, hm, x, e⟩
  · exact ⟨m, hm, none, by rw [e]; rfl⟩
  · exact ⟨m, hm, some x, by rw [e]; rfl⟩

theorem deVars_plain_skip (n : List Char) (r : Vars) (v : r.den) (h : n ∉ r.names) :
    deVars (.plain n r) (serVars r v) = (deVars r (serVars r v)).map .inr := by
  obtain ⟨m, hm, x, e⟩ := tagged_ser r v
  have hne : m ≠ n := fun e => h (e ▸ hm)
  rw [deVars, e]
  exact if_neg hne

theorem deVars_carrying_skip (n : List Char) (t : Ty) (r : Vars) (v : r.den) (h : n ∉ r.names) :
    deVars (.carrying n t r) (serVars r v) = (deVars r (serVars r v)).map .inr := by
  obtain ⟨m, hm, x, e⟩ := tagged_ser r v
  have hne : m ≠ n := fun e => h (e ▸ hm)
  rw [deVars, e]
  exact if_neg hne

theorem deVars_carrying_self (n : List Char) (t : Ty) (r : Vars) (x : t.den) :
    deVars (.carrying n t r) (serVars (.carrying n t r) (.inl x)) = (de t (ser t x)).map .inl := by
  rw [deVars]
  exact if_pos rfl

mutual
theorem de_ser : (t : Ty) → t.Wf → t.Clear → (v : t.den) → de t (ser t v) = some v
  | .unit, _, _, _ => rfl
  | .bool, _, _, _ => rfl
  | .int lo hi, _, _, ⟨i, h⟩ => by
    simp only [ser]
    show (if h : lo ≤ i ∧ i ≤ hi then some (⟨i, h⟩ : { i : Int // lo ≤ i ∧ i ≤ hi }) else none) = _
    rw [dif_pos h]
    rfl
  | .str, _, _, _ => rfl
  | .opt t, _, _, none => rfl
  | .opt t, hw, hc, some x => by
    have h := ser_null t hc.1 x
    simp only [ser]
    rw [de_opt t _ h, de_ser t hw hc.2 x]; rfl
  | .seq t, hw, hc, xs => by
    have := de_ser t hw hc
    show (xs.map (ser t)).mapM (de t) = some xs
    induction xs with
    | nil => rfl
    | cons x xs ih => rw [List.map_cons, List.mapM_cons, this x, ih]; rfl
  | .tuple ts, hw, hc, v => deTuple_ser ts hw hc v
  | .record fs, hw, hc, v => by
    have := deFields_ser fs hw.1 hw.2 hc v [] (by simp)
    exact this
  | .choice vs, hw, hc, v => by
    have := deVars_ser vs hw.1 hw.2.1 hc v
    exact this

theorem deTuple_ser : (ts : Row) → ts.Wf → ts.Clear → (v : ts.den) → deTuple ts (serTuple ts v) = some v
  | .nil, _, _, _ => rfl
  | .cons n t r, hw, hc, (x, v) => by
    simp only [serTuple, deTuple, de_ser t hw.1 hc.1 x, Option.bind_some, deTuple_ser r hw.2 hc.2 v]
    rfl

theorem deFields_ser : (fs : Row) → fs.Wf → fs.names.Nodup → fs.Clear → (v : fs.den) →
    (pre : List (List Char × Json)) → (∀ n ∈ fs.names, n ∉ pre.map Prod.fst) → deFields fs (pre ++ serFields fs v) = some v
  | .nil, _, _, _, _, _, _ => rfl
  | .cons n t r, hw, hn, hc, (x, v), pre, hp => by
    simp only [Row.names, List.nodup_cons] at hn
    rw [deFields_ser_cons n t r x v pre (hp n (by simp [Row.names])) hn.1, de_ser t hw.1 hc.1 x]
    rw [deFields_ser r hw.2 hn.2 hc.2 v (pre ++ [(n, ser t x)]) ?_]
    · rfl
    · intro m hm
      have h1 := hp m (by simp [Row.names, hm])
      have h2 : m ≠ n := fun e => hn.1 (e ▸ hm)
      simp only [List.map_append, List.mem_append, List.map_cons, List.map_nil, List.mem_singleton, not_or]
      exact ⟨h1, h2⟩

theorem deVars_ser : (vs : Vars) → vs.Wf → vs.names.Nodup → vs.Clear → (v : vs.den) → deVars vs (serVars vs v) = some v
  | .nil, _, _, _, v => nomatch v
  | .plain n r, hw, hn, hc, .inl _ => if_pos rfl
  | .plain n r, hw, hn, hc, .inr v => by
    simp only [Vars.names, List.nodup_cons] at hn
    simp only [serVars]
    rw [deVars_plain_skip n r v hn.1, deVars_ser r hw hn.2 hc v]; rfl
  | .carrying n t r, hw, hn, hc, .inl x => by
    rw [deVars_carrying_self, de_ser t hw.1 hc.1 x]; rfl
  | .carrying n t r, hw, hn, hc, .inr v => by
    simp only [Vars.names, List.nodup_cons] at hn
    simp only [serVars]
    rw [deVars_carrying_skip n t r v hn.1, deVars_ser r hw.2 hn.2 hc.2 v]; rfl
end

/-! ### Types that are not clear -/

mutual
theorem inhabited : (t : Ty) → t.Wf → Nonempty t.den
  | .unit, _ => ⟨()⟩
  | .bool, _ => ⟨true⟩
  | .int lo hi, h => ⟨⟨lo, Int.le_refl _, h⟩⟩
  | .str, _ => ⟨([] : List Char)⟩
  | .opt t, _ => ⟨(none : Option t.den)⟩
  | .seq t, _ => ⟨([] : List t.den)⟩
  | .tuple ts, h => inhabitedRow ts h
  | .record fs, h => inhabitedRow fs h.1
  | .choice (.nil), h => absurd rfl h.2.2
  | .choice (.plain n r), h => ⟨(.inl () : Unit ⊕ r.den)⟩
  | .choice (.carrying n t r), h => (inhabited t h.1.1).elim fun x => ⟨(.inl x : t.den ⊕ r.den)⟩

theorem inhabitedRow : (ts : Row) → ts.Wf → Nonempty ts.den
  | .nil, _ => ⟨()⟩
  | .cons _ t r, h => (inhabited t h.1).elim fun x => (inhabitedRow r h.2).elim fun v => ⟨((x, v) : t.den × r.den)⟩
end

theorem null_value : (t : Ty) → t.Nullable → ∃ v, ser t v = .null
  | .unit, _ => ⟨(), rfl⟩
  | .opt t, _ => ⟨(none : Option t.den), rfl⟩
  | .bool, h | .int _ _, h | .str, h | .seq _, h | .tuple _, h | .record _, h | .choice _, h => absurd h id

open Classical in
mutual
theorem not_clear : (t : Ty) → t.Wf → ¬ t.Clear → ∃ v, de t (ser t v) ≠ some v
  | .unit, _, h => absurd trivial h
  | .bool, _, h => absurd trivial h
  | .int _ _, _, h => absurd trivial h
  | .str, _, h => absurd trivial h
  | .opt t, hw, h => by
    by_cases hn : t.Nullable
    · obtain ⟨v, hv⟩ := null_value t hn
      refine ⟨(some v : Option t.den), ?_⟩
      show de (.opt t) (ser t v) ≠ _
      rw [hv]
      show (some (none : Option t.den)) ≠ some (some v)
      simp
    · obtain ⟨v, hv⟩ := not_clear t hw (fun hc => h ⟨hn, hc⟩)
      refine ⟨(some v : Option t.den), ?_⟩
      show de (.opt t) (ser t v) ≠ _
      rw [de_opt t _ (ser_null t hn v)]
      intro e
      obtain ⟨w, h1, h2⟩ := Option.map_eq_some_iff.1 e
      exact hv (by rw [h1]; exact congrArg some (Option.some.inj h2))
  | .seq t, hw, h => by
    obtain ⟨v, hv⟩ := not_clear t hw h
    refine ⟨([v] : List t.den), ?_⟩
    intro e
    have e' : (List.map (ser t) [v]).mapM (de t) = some [v] := e
    cases hd : de t (ser t v) with
    | none => simp [hd] at e'
    | some w =>
      simp [hd] at e'
      exact hv (by rw [hd, e'])
  | .tuple ts, hw, h => not_clear_tuple ts hw h
  | .record fs, hw, h => by
    obtain ⟨v, hv⟩ := not_clear_fields fs hw.1 hw.2 h
    exact ⟨v, hv [] (by simp)⟩
  | .choice vs, hw, h => by
    obtain ⟨v, hv⟩ := not_clear_vars vs hw.1 hw.2.1 h
    exact ⟨v, hv⟩

theorem not_clear_tuple : (ts : Row) → ts.Wf → ¬ ts.Clear → ∃ v, deTuple ts (serTuple ts v) ≠ some v
  | .nil, _, h => absurd trivial h
  | .cons n t r, hw, h => by
    by_cases ht : t.Clear
    · obtain ⟨v, hv⟩ := not_clear_tuple r hw.2 (fun hr => h ⟨ht, hr⟩)
      obtain ⟨x⟩ := inhabited t hw.1
      refine ⟨((x, v) : t.den × r.den), ?_⟩
      simp only [serTuple, deTuple]
      intro e
      obtain ⟨a, -, h2⟩ := Option.bind_eq_some_iff.1 e
      obtain ⟨w, h3, h4⟩ := Option.map_eq_some_iff.1 h2
      exact hv (by rw [h3]; exact congrArg some (congrArg Prod.snd h4))
    · obtain ⟨x, hx⟩ := not_clear t hw.1 ht
      obtain ⟨v⟩ := inhabitedRow r hw.2
      refine ⟨((x, v) : t.den × r.den), ?_⟩
      simp only [serTuple, deTuple]
      intro e
      obtain ⟨a, h1, h2⟩ := Option.bind_eq_some_iff.1 e
      obtain ⟨w, h3, h4⟩ := Option.map_eq_some_iff.1 h2
      exact hx (by rw [h1]; exact congrArg some (congrArg Prod.fst h4))

theorem not_clear_fields : (fs : Row) → fs.Wf → fs.names.Nodup → ¬ fs.Clear → ∃ v, ∀ pre : List (List Char × Json),
    (∀ n ∈ fs.names, n ∉ pre.map Prod.fst) → deFields fs (pre ++ serFields fs v) ≠ some v
  | .nil, _, _, h => absurd trivial h
  | .cons n t r, hw, hn, h => by
    simp only [Row.names, List.nodup_cons] at hn
    by_cases ht : t.Clear
    · obtain ⟨v, hv⟩ := not_clear_fields r hw.2 hn.2 (fun hr => h ⟨ht, hr⟩)
      obtain ⟨x⟩ := inhabited t hw.1
      refine ⟨((x, v) : t.den × r.den), fun pre hp e => ?_⟩
      rw [deFields_ser_cons n t r x v pre (hp n (by simp [Row.names])) hn.1] at e
      obtain ⟨a, -, h2⟩ := Option.bind_eq_some_iff.1 e
      obtain ⟨w, h3, h4⟩ := Option.map_eq_some_iff.1 h2
      refine hv (pre ++ [(n, ser t x)]) ?_ (by rw [h3]; exact congrArg some (congrArg Prod.snd h4))
      intro m hm
      have h1 := hp m (by simp [Row.names, hm])
      have h2 : m ≠ n := fun e => hn.1 (e ▸ hm)
      simp only [List.map_append, List.mem_append, List.map_cons, List.map_nil, List.mem_singleton, not_or]
      exact ⟨h1, h2⟩
    · obtain ⟨x, hx⟩ := not_clear t hw.1 ht
      obtain ⟨v⟩ := inhabitedRow r hw.2
      refine ⟨((x, v) : t.den × r.den), fun pre hp e => ?_⟩
      rw [deFields_ser_cons n t r x v pre (hp n (by simp [Row.names])) hn.1] at e
      obtain ⟨a, h1, h2⟩ := Option.bind_eq_some_iff.1 e
      obtain ⟨w, h3, h4⟩ := Option.map_eq_some_iff.1 h2
      exact hx (by rw [h1]; exact congrArg some (congrArg Prod.fst h4))

theorem not_clear_vars : (vs : Vars) → vs.Wf → vs.names.Nodup → ¬ vs.Clear → ∃ v, deVars vs (serVars vs v) ≠ some v
  | .nil, _, _, h => absurd trivial h
  | .plain n r, hw, hn, h => by
    simp only [Vars.names, List.nodup_cons] at hn
    obtain ⟨v, hv⟩ := not_clear_vars r hw hn.2 h
    refine ⟨(.inr v : Unit ⊕ r.den), ?_⟩
    simp only [serVars]
    rw [deVars_plain_skip n r v hn.1]
    intro e
    obtain ⟨w, h3, h4⟩ := Option.map_eq_some_iff.1 e
    exact hv (by rw [h3]; exact congrArg some (Sum.inr.inj h4))
  | .carrying n t r, hw, hn, h => by
    simp only [Vars.names, List.nodup_cons] at hn
    by_cases ht : t.Clear
    · obtain ⟨v, hv⟩ := not_clear_vars r hw.2 hn.2 (fun hr => h ⟨ht, hr⟩)
      refine ⟨(.inr v : t.den ⊕ r.den), ?_⟩
      simp only [serVars]
      rw [deVars_carrying_skip n t r v hn.1]
      intro e
      obtain ⟨w, h3, h4⟩ := Option.map_eq_some_iff.1 e
      exact hv (by rw [h3]; exact congrArg some (Sum.inr.inj h4))
    · obtain ⟨x, hx⟩ := not_clear t hw.1 ht
      refine ⟨(.inl x : t.den ⊕ r.den), ?_⟩
      rw [deVars_carrying_self]
      intro e
      obtain ⟨w, h3, h4⟩ := Option.map_eq_some_iff.1 e
      exact hx (by rw [h3]; exact congrArg some (Sum.inl.inj h4))
end

/-! ### Nesting -/

mutual
theorem depth_ser : (t : Ty) → (v : t.den) → depth (ser t v) = nest t v
  | .unit, _ => by simp [ser, depth, nest]
  | .bool, _ => by simp [ser, depth, nest]
  | .int _ _, _ => by simp [ser, depth, nest]
  | .str, _ => by simp [ser, depth, nest]
  | .opt t, none => by simp [ser, depth, nest]
  | .opt t, some x => by simp only [ser, nest]; exact depth_ser t x
  | .seq t, xs => by
    have ih := depth_ser t
    simp only [ser, depth, nest]
    congr 1
    show depthElems (List.map (ser t) xs) = (List.map (nest t) xs).foldr max 0
    induction xs with
    | nil => rfl
    | cons x xs ihx =>
      simp only [List.map_cons, depthElems, List.foldr_cons, ih x, ihx]
  | .tuple ts, v => by simp only [ser, depth, nest, depth_tuple ts v]
  | .record fs, v => by simp only [ser, depth, nest, depth_fields fs v]
  | .choice vs, v => by simp only [ser, nest]; exact depth_vars vs v

theorem depth_tuple : (ts : Row) → (v : ts.den) → depthElems (serTuple ts v) = nestRow ts v
  | .nil, _ => rfl
  | .cons _ t r, (x, v) => by simp only [serTuple, depthElems, nestRow, depth_ser t x, depth_tuple r v]

theorem depth_fields : (fs : Row) → (v : fs.den) → depthMembers (serFields fs v) = nestRow fs v
  | .nil, _ => rfl
  | .cons _ t r, (x, v) => by simp only [serFields, depthMembers, nestRow, depth_ser t x, depth_fields r v]

theorem depth_vars : (vs : Vars) → (v : vs.den) → depth (serVars vs v) = nestVars vs v
  | .nil, v => nomatch v
  | .plain _ _, .inl _ => by simp [serVars, depth, nestVars]
  | .plain _ r, .inr v => by simp only [serVars, nestVars]; exact depth_vars r v
  | .carrying _ t _, .inl x => by simp [serVars, depth, depthMembers, nestVars, depth_ser t x]
  | .carrying _ _ r, .inr v => by simp only [serVars, nestVars]; exact depth_vars r v
end

mutual
theorem nest_le : (t : Ty) → (v : t.den) → nest t v ≤ t.height
  | .unit, _ => by simp [nest]
  | .bool, _ => by simp [nest]
  | .int _ _, _ => by simp [nest]
  | .str, _ => by simp [nest]
  | .opt t, none => by simp [nest]
  | .opt t, some x => by simp only [nest, Ty.height]; exact nest_le t x
  | .seq t, xs => by
    have ih := nest_le t
    simp only [nest, Ty.height]
    have : (List.map (nest t) xs).foldr max 0 ≤ t.height := by
      show (List.map (nest t) (xs : List t.den)).foldr max 0 ≤ t.height
      induction xs with
      | nil => simp
      | cons x xs ihx =>
        simp only [List.map_cons, List.foldr_cons]
        have := ih x
        omega
    omega
  | .tuple ts, v => by simp only [nest, Ty.height]; have := nestRow_le ts v; omega
  | .record fs, v => by simp only [nest, Ty.height]; have := nestRow_le fs v; omega
  | .choice vs, v => by simp only [nest, Ty.height]; exact nestVars_le vs v

theorem nestRow_le : (ts : Row) → (v : ts.den) → nestRow ts v ≤ ts.height
  | .nil, _ => by simp [nestRow]
  | .cons _ t r, (x, v) => by
    simp only [nestRow, Row.height]
    have := nest_le t x
    have := nestRow_le r v
    omega

theorem nestVars_le : (vs : Vars) → (v : vs.den) → nestVars vs v ≤ vs.height
  | .nil, v => nomatch v
  | .plain _ _, .inl _ => by simp [nestVars]
  | .plain _ r, .inr v => by simp only [nestVars, Vars.height]; exact nestVars_le r v
  | .carrying _ t r, .inl x => by simp only [nestVars, Vars.height]; have := nest_le t x; omega
  | .carrying _ t r, .inr v => by simp only [nestVars, Vars.height]; have := nestVars_le r v; omega
end

theorem fromSlice_toVec (t : Ty) (v : t.den) (h : nest t v ≤ 127) : fromSlice t (toVec t v) = de t (ser t v) := by
  unfold fromSlice toVec
  rw [ofBytes_toBytes, Option.bind_some, parse_print _ (by rw [depth_ser]; omega), Option.bind_some]

theorem fromSlice_deep (t : Ty) (v : t.den) (h : 128 ≤ nest t v) : fromSlice t (toVec t v) = none := by
  unfold fromSlice toVec
  rw [ofBytes_toBytes, Option.bind_some, parse_deep _ (by rw [depth_ser]; omega)]
  rfl

/-- only the members with the names of its fields matter to a record. -/
theorem deFields_congr : (fs : Row) → (ms ms' : List (List Char × Json)) →
    (∀ n ∈ fs.names, members n ms = members n ms') → deFields fs ms = deFields fs ms'
  | .nil, _, _, _ => rfl
  | .cons n t r, ms, ms', h => by
    have h1 := h n (by simp [Row.names])
    have h2 := deFields_congr r ms ms' (fun m hm => h m (by simp [Row.names, hm]))
    simp only [deFields, h1, h2]

theorem members_filter (n : List Char) (l : List (List Char)) (ms : List (List Char × Json)) (h : n ∈ l) :
    members n (ms.filter fun m => decide (m.1 ∈ l)) = members n ms := by
  unfold members
  rw [List.filter_filter]
  congr 1
  apply List.filter_congr
  intro m _
  by_cases e : m.1 = n
  · simp [e, h]
  · simp [e]

theorem members_serFields : (fs : Row) → fs.names.Nodup → (v : fs.den) → (n : List Char) → n ∈ fs.names →
    ∃ x, members n (serFields fs v) = [x]
  | .nil, _, _, _, h => by simp [Row.names] at h
  | .cons m t r, hn, (x, v), n, h => by
    simp only [Row.names, List.nodup_cons] at hn
    by_cases e : n = m
    · subst e
      exact ⟨ser t x, by rw [serFields, members_cons_self, members_none (by rw [serFields_names]; exact hn.1)]⟩
    · have hr : n ∈ r.names := by
        simp only [Row.names, List.mem_cons] at h
        exact h.resolve_left e
      obtain ⟨y, hy⟩ := members_serFields r hn.2 v n hr
      refine ⟨y, ?_⟩
      rw [serFields, ← hy]
      have e' : ¬ m = n := fun h => e h.symm
      simp [members, e']

/-- the fields of a record may stand in any order, with others between them. -/
theorem deFields_arranged (fs : Row) (hw : fs.Wf) (hn : fs.names.Nodup) (hc : fs.Clear) (v : fs.den)
    (ms : List (List Char × Json))
    (hp : (ms.filter fun m => decide (m.1 ∈ fs.names)).Perm (serFields fs v)) : deFields fs ms = some v := by
  have h := deFields_ser fs hw hn hc v [] (by simp)
  rw [List.nil_append] at h
  rw [← h]
  apply deFields_congr
  intro n hm
  obtain ⟨x, hx⟩ := members_serFields fs hn v n hm
  rw [← members_filter n fs.names ms hm, hx]
  have : (members n (ms.filter fun m => decide (m.1 ∈ fs.names))).Perm (members n (serFields fs v)) := by
    unfold members
    exact (hp.filter _).map _
  rw [hx] at this
  exact List.perm_singleton.1 this

end Verif.Json
