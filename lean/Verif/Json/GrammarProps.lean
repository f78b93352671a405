import Verif.Json.GrammarTypes
import Verif.Json.Props

/-!
# C111: which bytes are understood as a message, and as which one
-/

namespace Verif.Json
open Verif.Remote

theorem fromSlice_iff (t : Ty) (hw : t.Wf) (bs : Bytes) (v : t.den) : fromSlice t bs = some v ↔
    ∃ j cs, bs = (String.ofList cs).toUTF8.data.toList ∧ Document j cs ∧ depth j ≤ 127 ∧ Shape t j v := by
  unfold fromSlice
  simp only [Option.bind_eq_some_iff, ofBytes_iff, parse_iff, de_iff t hw]
  constructor
  · rintro ⟨j, ⟨cs, rfl, hd, hn⟩, hs⟩; exact ⟨j, cs, rfl, hd, hn, hs⟩
  · rintro ⟨j, cs, rfl, hd, hn, hs⟩; exact ⟨j, ⟨cs, rfl, hd, hn⟩, hs⟩

theorem orErr_iff {α : Type} (x : Option α) (v : α) : orErr x = .ok v ↔ x = some v := by
  cases x <;> simp [orErr]

theorem orErr_none {α : Type} {x : Option α} (h : ∀ v, x ≠ some v) : orErr x = .error .deserializationErr := by
  cases x with
  | none => rfl
  | some v => exact absurd rfl (h v)

/-- **C111**: a message, a result or a snapshot is read from exactly those bytes that are the UTF-8 of a JSON document,
nested no deeper than 127, whose value has the shape of the type; and it is the value of that shape. -/
theorem C111_understood (t r : Ty) (hw : t.Wf) (bs : Bytes) (v : t.den) :
    let Means := ∃ j cs, bs = (String.ofList cs).toUTF8.data.toList ∧ Document j cs ∧ depth j ≤ 127 ∧ Shape t j v
    ((jsonMessage t r).fromBytes bs = .ok v ↔ Means) ∧ ((jsonMessage r t).readResult bs = .ok v ↔ Means) ∧
      (readSnapshot t bs = .ok v ↔ Means) := by
  have h : orErr (fromSlice t bs) = .ok v ↔
      ∃ j cs, bs = (String.ofList cs).toUTF8.data.toList ∧ Document j cs ∧ depth j ≤ 127 ∧ Shape t j v := by
    rw [orErr_iff, fromSlice_iff t hw]
  exact ⟨h, h, h⟩

/-- **C111**: all other bytes are refused, with the one error there is for it. -/
theorem C111_refused (t r : Ty) (hw : t.Wf) (bs : Bytes)
    (h : ∀ j cs v, bs = (String.ofList cs).toUTF8.data.toList → Document j cs → depth j ≤ 127 → ¬ Shape t j v) :
    (jsonMessage t r).fromBytes bs = .error .deserializationErr ∧
      (jsonMessage r t).readResult bs = .error .deserializationErr ∧ readSnapshot t bs = .error .deserializationErr := by
  have : orErr (fromSlice t bs) = .error .deserializationErr := by
    refine orErr_none fun v hv => ?_
    obtain ⟨j, cs, h1, h2, h3, h4⟩ := (fromSlice_iff t hw bs v).mp hv
    exact h j cs v h1 h2 h3 h4
  exact ⟨this, this, this⟩

/-- **C111**: a text is the document of one value at most, however deeply it is nested, and a JSON value has the shape of
one value of a type at most. -/
theorem C111_one_meaning (cs : List Char) (j j' : Json) (h : Document j cs) (h' : Document j' cs) : j = j' := by
  have key : ∀ j, Document j cs → ∀ d, depth j < d → ∃ r, readValue (2 * cs.length + 2) d cs = some (j, r) := by
    rintro j ⟨w, t, w', hw, ht, hw', rfl⟩ d hd
    refine ⟨w', ?_⟩
    rw [List.append_assoc, readValue_blank _ _ _ _ hw,
      readValue_text j t _ d w' ht (by simp only [List.length_append]; omega) hd
        (by have := stop_blank hw' stop_nil; rwa [List.append_nil] at this)]
  obtain ⟨r, hr⟩ := key j h (depth j + depth j' + 1) (by omega)
  obtain ⟨r', hr'⟩ := key j' h' (depth j + depth j' + 1) (by omega)
  rw [hr] at hr'
  simp only [Option.some.injEq, Prod.mk.injEq] at hr'
  exact hr'.1

theorem C111_one_value (t : Ty) (hw : t.Wf) (j : Json) (v v' : t.den) (h : Shape t j v) (h' : Shape t j v') : v = v' := by
  have h1 := (de_iff t hw j v).mpr h
  have h2 := (de_iff t hw j v').mpr h'
  rw [h1] at h2
  exact Option.some.inj h2

/-- **C111**: what is written for a value is a document of JSON, however deeply the value is nested; and if its type has no
`Option<()>` and no `Option<Option<_>>`, the document has the shape of the value. -/
theorem C111_written (t : Ty) (v : t.den) : ∃ j cs, toVec t v = (String.ofList cs).toUTF8.data.toList ∧ Document j cs ∧
    (t.Wf → t.Clear → Shape t j v) := by
  refine ⟨ser t v, print (ser t v), rfl, ?_, fun hw hc => (de_iff t hw _ v).mp (de_ser t hw hc v)⟩
  have h := readValue_print (ser t v) (2 * (print (ser t v)).length) (depth (ser t v) + 1) [] (by omega) (by omega) stop_nil
  rw [List.append_nil] at h
  obtain ⟨w, u, hw, he, hu, -⟩ := (sound_all _).1 _ _ _ _ (by omega) h
  exact ⟨w, u, [], hw, hu, blank_nil, he⟩

/-! ### A struct with a message from elsewhere: other order, other spacing, escapes, unknown members -/

def noteTy : Ty := .record (.cons ['i', 'd'] (.int 0 255) (.cons ['s'] .str (.cons ['o'] (.opt .bool) .nil)))

theorem noteTy_wf : noteTy.Wf := by simp [noteTy, Ty.Wf, Row.Wf, Row.names]

def note (i : Int) (h : 0 ≤ i ∧ i ≤ 255) (s : String) (o : Option Bool) : noteTy.den :=
  ((⟨i, h⟩ : { i : Int // 0 ≤ i ∧ i ≤ 255 }), s.toList, o, ())

def bytesOf (s : String) : Bytes := s.toUTF8.data.toList

abbrev NoteDen := { i : Int // 0 ≤ i ∧ i ≤ 255 } × List Char × Option Bool × Unit

def noteEq (a b : NoteDen) : Bool := decide (a.1.1 = b.1.1) && decide (a.2.1 = b.2.1) && decide (a.2.2.1 = b.2.2.1)

/-- is the message understood as this one? -/
def readsAs (s : String) (v : noteTy.den) : Bool :=
  match fromSlice noteTy (bytesOf s) with
  | some w => noteEq w v
  | none => false

theorem reads {s : String} {v : noteTy.den} (h : readsAs s v = true) : (jsonMessage noteTy .unit).fromBytes (bytesOf s) = .ok v := by
  unfold readsAs at h
  cases hf : fromSlice noteTy (bytesOf s) with
  | none => rw [hf] at h; simp at h
  | some w =>
    rw [hf] at h
    have : w = v := by
      obtain ⟨⟨i, hi⟩, a, b, ⟨⟩⟩ := w
      obtain ⟨⟨i', hi'⟩, a', b', ⟨⟩⟩ := v
      simp only [noteEq, Bool.and_eq_true, decide_eq_true_eq] at h
      obtain ⟨⟨rfl, rfl⟩, rfl⟩ := h
      rfl
    subst this
    exact (orErr_iff _ _).mpr hf

/-- a surrogate pair, an escaped name, a missing option, members that are not fields. -/
example : ∃ j cs, bytesOf " {\"x\" : [ 1,-2 ], \"\\u0073\":\"\\uD83D\\uDE00\\/\" ,\"id\":255}\n" = (String.ofList cs).toUTF8.data.toList ∧
    Document j cs ∧ depth j ≤ 127 ∧ Shape noteTy j (note 255 (by decide) "😀/" none) :=
  (C111_understood noteTy .unit noteTy_wf _ _).1.mp (reads (by decide +kernel))

/-- the fields as an array. -/
example : ∃ j cs, bytesOf "[7,\"x\",true]" = (String.ofList cs).toUTF8.data.toList ∧ Document j cs ∧ depth j ≤ 127 ∧
    Shape noteTy j (note 7 (by decide) "x" (some true)) :=
  (C111_understood noteTy .unit noteTy_wf _ _).1.mp (reads (by decide +kernel))

/-- refused: a number out of range, a field given twice, a leading zero, a comma at the end, a lone surrogate, a field of
the wrong type, something after the value, bytes that are no text. -/
example : ∀ bs ∈ [bytesOf "{\"id\":256,\"s\":\"\"}", bytesOf "{\"id\":1,\"s\":\"\",\"id\":1}", bytesOf "{\"id\":01,\"s\":\"\"}",
    bytesOf "{\"id\":1,\"s\":\"\",}", bytesOf "{\"id\":1,\"s\":\"\\uD83D\"}", bytesOf "{\"id\":1,\"s\":2}",
    bytesOf "{\"id\":1,\"s\":\"\"} 1", [255]], ∀ j cs v, bs = (String.ofList cs).toUTF8.data.toList → Document j cs →
      depth j ≤ 127 → ¬ Shape noteTy j v := by
  intro bs hbs j cs v h1 h2 h3 h4
  have := (fromSlice_iff noteTy noteTy_wf bs v).mpr ⟨j, cs, h1, h2, h3, h4⟩
  have hn : (fromSlice noteTy bs).isNone = true := by
    simp only [List.mem_cons, List.not_mem_nil, or_false] at hbs
    rcases hbs with rfl | rfl | rfl | rfl | rfl | rfl | rfl | rfl <;> decide +kernel
  rw [this] at hn
  simp at hn

example : Document (.arr [.num 1, .str ['a']]) "[1 ,\"\\u0061\"]".toList ∧ Document (.arr [.num 1, .str ['a']]) "[1,\"a\"]".toList := by
  have h : ∀ s : String, ((parse s.toList).any fun j => decide (print j = "[1,\"a\"]".toList)) = true →
      Document (.arr [.num 1, .str ['a']]) s.toList := by
    intro s hs
    cases hp : parse s.toList with
    | none => rw [hp] at hs; simp at hs
    | some j =>
      rw [hp] at hs
      simp only [Option.any_some, decide_eq_true_eq] at hs
      have hd := (parse_iff _ _).mp hp
      have e1 := parse_print j (by omega)
      have e2 := parse_print (.arr [.num 1, .str ['a']]) (by decide)
      have e3 : print (.arr [.num 1, .str ['a']]) = "[1,\"a\"]".toList := by decide +kernel
      rw [hs, ← e3, e2] at e1
      cases e1
      exact hd.1
  exact ⟨h _ (by decide +kernel), h _ (by decide +kernel)⟩

end Verif.Json
