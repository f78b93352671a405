import Verif.Json.TypesLemmas
import Verif.Json.Derive
import Verif.Remote.RefProps

/-!
# C101, C102: messages, results and snapshots derived as JSON
-/

namespace Verif.Json
open Verif.Remote

/-- **C101**: a message, a result or a snapshot of a type without `Option<()>` and `Option<Option<_>>`, nested no deeper
than 127, is read back as what it was. -/
theorem C101_read_back_partial (t r : Ty) (hw : t.Wf) (hc : t.Clear) (v : t.den) (hd : nest t v ≤ 127) :
    (∃ bs, (jsonMessage t r).asBytes v = .ok bs ∧ (jsonMessage t r).fromBytes bs = .ok v) ∧
    (∃ bs, (jsonMessage r t).writeResult v = .ok bs ∧ (jsonMessage r t).readResult bs = .ok v) ∧
    readSnapshot t (writeSnapshot t v) = .ok v := by
  have h := fromSlice_toVec t v hd
  rw [de_ser t hw hc v] at h
  have h' : orErr (fromSlice t (toVec t v)) = .ok v := by rw [h]; rfl
  exact ⟨⟨_, rfl, h'⟩, ⟨_, rfl, h'⟩, h'⟩

/-- **C101**: nothing else can be left out: of the types the compiler accepts, with values nested no deeper than 127, the
ones all of whose messages and results are read back are those without `Option<()>` and `Option<Option<_>>`. -/
theorem C101_types (t r : Ty) (ht : t.Wf) (hr : r.Wf) (h1 : t.height ≤ 127) (h2 : r.height ≤ 127) :
    (jsonMessage t r).Lawful ↔ t.Clear ∧ r.Clear := by
  have key : ∀ s : Ty, s.Wf → s.height ≤ 127 → ¬ s.Clear →
      ∃ v, orErr (fromSlice s (toVec s v)) ≠ (.ok v : Except UnwrapErr s.den) := by
    intro s hs hh hc
    obtain ⟨v, hv⟩ := not_clear s hs hc
    refine ⟨v, ?_⟩
    rw [fromSlice_toVec s v (Nat.le_trans (nest_le s v) hh)]
    cases hd : de s (ser s v) with
    | none => simp [orErr]
    | some w =>
      intro e
      simp only [orErr, Except.ok.injEq] at e
      exact hv (by rw [hd, e])
  constructor
  · intro h
    refine ⟨Classical.byContradiction fun hc => ?_, Classical.byContradiction fun hc => ?_⟩
    · obtain ⟨v, hv⟩ := key t ht h1 hc
      exact hv (h.message v _ rfl)
    · obtain ⟨v, hv⟩ := key r hr h2 hc
      exact hv (h.result v _ rfl)
  · rintro ⟨hc1, hc2⟩
    refine ⟨fun v bs e => ?_, fun v bs e => ?_⟩
    · obtain ⟨⟨bs', e', h⟩, -⟩ := C101_read_back_partial t r ht hc1 v (Nat.le_trans (nest_le t v) h1)
      rw [e] at e'; cases e'; exact h
    · obtain ⟨-, ⟨bs', e', h⟩, -⟩ := C101_read_back_partial r t hr hc2 v (Nat.le_trans (nest_le r v) h2)
      have e1 : (jsonMessage t r).writeResult v = (jsonMessage t r).writeResult v := rfl
      rw [show (jsonMessage t r).writeResult v = .ok (toVec r v) from rfl] at e
      rw [show (jsonMessage t r).writeResult v = .ok (toVec r v) from rfl] at e'
      cases e; cases e'; exact h

/-- `Some(v)` and `None` as values of the type `Option<_>`. -/
def someOf (t : Ty) (v : t.den) : (Ty.opt t).den := some v
def noneOf (t : Ty) : (Ty.opt t).den := none

theorem some_ne_none (t : Ty) (v : t.den) : someOf t v ≠ noneOf t := fun h => nomatch h

/-- **C101 refuted (null).** The value `Some(v)` of an `Option` over a type with a value `v` written as `null` is read
as `None`. -/
theorem C101_null_refuted (t : Ty) (hn : t.Nullable) :
    ∃ v : t.den, fromSlice (.opt t) (toVec (.opt t) (someOf t v)) = some (noneOf t) := by
  obtain ⟨v, hv⟩ := null_value t hn
  refine ⟨v, ?_⟩
  have he : ser (.opt t) (someOf t v) = .null := hv
  unfold fromSlice toVec
  rw [he, ofBytes_toBytes, Option.bind_some, parse_print _ (by simp [depth])]
  rfl

/-- **C101 refuted (nesting).** A value nested deeper than 127 is written without complaint and then not read. -/
theorem C101_deep_refuted (t r : Ty) (v : t.den) (hd : 127 < nest t v) :
    ∃ bs, (jsonMessage t r).asBytes v = .ok bs ∧ (jsonMessage t r).fromBytes bs = .error .deserializationErr := by
  refine ⟨toVec t v, rfl, ?_⟩
  show orErr (fromSlice t (toVec t v)) = _
  rw [fromSlice_deep t v hd]; rfl

/-- lists of lists. -/
def listsOf : Nat → Ty
  | 0 => .unit
  | n + 1 => .seq (listsOf n)

def listIn : (n : Nat) → (listsOf n).den
  | 0 => ()
  | n + 1 => [listIn n]

theorem nest_listIn (n : Nat) : nest (listsOf n) (listIn n) = n := by
  induction n with
  | zero => rfl
  | succ n ih =>
    show (List.map (nest (listsOf n)) [listIn n]).foldr max 0 + 1 = n + 1
    simp [ih]

example : (fromSlice (listsOf 128) (toVec _ (listIn 128))) = none :=
  fromSlice_deep _ _ (by rw [nest_listIn]; exact Nat.le_refl _)

/-- **C101**: with a remote actor the caller of a message with such a result gets another answer than with a local one: it
answered `Some(v)`, and the caller is told `None`. -/
theorem C101_remote_refuted {U W : Type} [DecidableEq U] (t r : Ty) (ht : t.Wf) (hc : t.Clear) (hn : r.Nullable)
    (n : NodeEnv U) (h : Host t.den (Ty.opt r).den) (a m : Nat) (tk : Talk n h (jsonMessage t (.opt r)) a m)
    (id : String) (msg : t.den) (hd : nest t msg ≤ 127) (u : U) (w : W) (σ : Rpc U W) (hu : ∀ p ∈ σ.pending, p.1 ≠ u)
    (hfit : Fits n h (jsonMessage t (.opt r)) a m id msg u true) :
    ∃ v : r.den, ∀ (k : Nat) (x : Target t.den (Ty.opt r).den), FoundAt (h.find id) k x → x.isOpen = true →
      x.handle msg = some (someOf r v) →
      (localSend x msg).2 = .ok (someOf r v) ∧
      ∃ ans, exchange n h (jsonMessage t (.opt r)) a m id msg u w σ =
          ([msg], ⟨σ.pending, σ.done ++ [(u, w, ans)]⟩, none) ∧
        readAnswer (jsonMessage t (.opt r)) ans = .ok (noneOf r) := by
  obtain ⟨v, hv⟩ := C101_null_refuted r hn
  refine ⟨v, fun k x hf hopen hx => ⟨by simp [localSend, hopen, hx], .ok (toVec (.opt r) (someOf r v)), ?_, ?_⟩⟩
  · rw [exchange_outcome n h (jsonMessage t (.opt r)) a m tk id msg (toVec t msg) u w σ hu rfl hfit]
    obtain ⟨h1, h2, h3, h4⟩ := hf
    rw [handleAttempt_found (behavOf (jsonMessage t (.opt r))) (h.find id) id _ k x h2 h3 1 (by omega) h1 h4]
    have hdec : (behavOf (jsonMessage t (.opt r))).decode (toVec t msg) = .ok msg := by
      obtain ⟨⟨bs, e, h⟩, -⟩ := C101_read_back_partial t (.opt r) ht hc msg hd
      cases e; exact h
    have hs : (behavOf (jsonMessage t (.opt r))).send x msg = .ok (someOf r v) := by simp [behavOf, localSend, hopen, hx]
    have he : (behavOf (jsonMessage t (.opt r))).encode (someOf r v) = .ok (toVec (.opt r) (someOf r v)) := rfl
    simp [deliverTo, hdec, hs, he, recv, answerOf, localSend, hopen, hx]
  · have hr : (jsonMessage t (.opt r)).readResult (toVec (.opt r) (someOf r v)) = .ok (noneOf r) := by
      show orErr (fromSlice (.opt r) (toVec (.opt r) (someOf r v))) = _
      rw [hv]; rfl
    simp only [readAnswer, hr]

/-- **C101**: with a local and with a remote actor the caller of a message of the other types gets the same answer, and
the actor the same message. -/
theorem C101_remote {U W : Type} [DecidableEq U] (t r : Ty) (ht : t.Wf) (hr : r.Wf) (hc : t.Clear) (hcr : r.Clear)
    (h1 : t.height ≤ 127) (h2 : r.height ≤ 127)
    (n : NodeEnv U) (h : Host t.den r.den) (a m : Nat) (tk : Talk n h (jsonMessage t r) a m)
    (id : String) (msg : t.den) (u : U) (w : W) (σ : Rpc U W) (hu : ∀ p ∈ σ.pending, p.1 ≠ u)
    (hfit : Fits n h (jsonMessage t r) a m id msg u true) (k : Nat) (x : Target t.den r.den)
    (hf : FoundAt (h.find id) k x) (hopen : x.isOpen = true) :
    ∃ ans, exchange n h (jsonMessage t r) a m id msg u w σ =
        ((localSend x msg).1, ⟨σ.pending, σ.done ++ [(u, w, ans)]⟩, none) ∧
      readAnswer (jsonMessage t r) ans = (localSend x msg).2 :=
  C81_send n h (jsonMessage t r) ((C101_types t r ht hr h1 h2).2 ⟨hc, hcr⟩) a m tk id msg u w σ hu hfit k x hf hopen
    ⟨_, rfl⟩ (fun _ _ => ⟨_, rfl⟩)

/-- **C101**: a struct is read whatever the order of its fields and whatever other fields, of a newer version perhaps,
stand between them. -/
theorem C101_newer (fs : Row) (hw : (Ty.record fs).Wf) (hc : (Ty.record fs).Clear) (v : fs.den)
    (ms : List (List Char × Json)) (hd : depth (.obj ms) ≤ 127)
    (hp : (ms.filter fun m => decide (m.1 ∈ fs.names)).Perm (serFields fs v)) :
    fromSlice (.record fs) (toBytes (print (.obj ms))) = some v := by
  unfold fromSlice
  rw [ofBytes_toBytes, Option.bind_some, parse_print _ (by omega), Option.bind_some]
  exact deFields_arranged fs hw.1 hw.2 hc v ms hp

/-- **C101**: a field that a newer version adds at the front of a struct may be missing if it is an `Option`, and only
then. -/
theorem C101_older (n : List Char) (t : Ty) (fs : Row) (hw : (Ty.record fs).Wf) (hc : (Ty.record fs).Clear)
    (hn : n ∉ fs.names) (v : fs.den) (hd : nest (.record fs) v ≤ 127) :
    fromSlice (.record (.cons n t fs)) (toVec (.record fs) v) = (missing t).map fun a => (a, v) := by
  have hd' : depth (ser (.record fs) v) < 128 :=
    Nat.lt_of_le_of_lt (Nat.le_of_eq (depth_ser (.record fs) v)) (by omega)
  unfold fromSlice toVec
  rw [ofBytes_toBytes, Option.bind_some, parse_print _ hd', Option.bind_some]
  show deFields (.cons n t fs) (serFields fs v) = _
  have h := deFields_ser fs hw.1 hw.2 hc v [] (by simp)
  rw [List.nil_append] at h
  rw [deFields, members_none (by rw [serFields_names]; exact hn)]
  simp only [h, Option.map_some]
  cases missing t <;> rfl

/-- **C101**: different messages are different bytes. -/
theorem C101_distinct (t : Ty) (hw : t.Wf) (hc : t.Clear) (h1 : t.height ≤ 127) (v w : t.den)
    (h : toVec t v = toVec t w) : v = w := by
  have a := fromSlice_toVec t v (Nat.le_trans (nest_le t v) h1)
  have b := fromSlice_toVec t w (Nat.le_trans (nest_le t w) h1)
  rw [h, b, de_ser t hw hc, de_ser t hw hc] at a
  exact (Option.some.inj a).symm

/-- a struct with a number, a string with a quote and a line end, an optional list and an enum. -/
def sampleTy : Ty :=
  .record (.cons ['i', 'd'] (.int 0 255) (.cons ['s'] .str (.cons ['o'] (.opt (.seq .bool))
    (.cons ['e'] (.choice (.plain ['A'] (.carrying ['B'] (.int (-128) 127) .nil))) .nil))))

def sample : sampleTy.den :=
  ((⟨7, by decide, by decide⟩ : { i : Int // 0 ≤ i ∧ i ≤ 255 }), ['"', '\n'], some [true, false],
    .inr (.inl (⟨-12, by decide, by decide⟩ : { i : Int // -128 ≤ i ∧ i ≤ 127 })), ())

example : sampleTy.Wf ∧ sampleTy.Clear ∧ sampleTy.height ≤ 127 := by
  simp [sampleTy, Ty.Wf, Row.Wf, Vars.Wf, Row.names, Vars.names, Ty.Clear, Row.Clear, Vars.Clear, Ty.Nullable, Ty.height,
    Row.height, Vars.height]

example : String.ofList (print (ser sampleTy sample)) = "{\"id\":7,\"s\":\"\\\"\\n\",\"o\":[true,false],\"e\":{\"B\":-12}}" := by
  decide +kernel

/-! ### A message with the result `Option<()>` sent to another node -/

namespace JsonExample
open RefExample

abbrev msgTy : Ty := .bool
abbrev resTy : Ty := .opt .unit

def jsonActor : Target msgTy.den resTy.den := ⟨true, fun _ => some (someOf .unit ())⟩

def jsonHost : Host msgTy.den resTy.den where
  self := 2
  cfg := cfg
  types _ := jsonMessage msgTy resTy
  find id k := if id = "a" ∧ 3 ≤ k then some jsonActor else none

theorem jsonTalk : Talk caller jsonHost (jsonMessage msgTy resTy) 7 8 where
  distinct := by decide
  regs := ⟨fun _ => "", regs, .mk _ _ (.refl _) (.refl _), .mk _ _ (.refl _) (.refl _)⟩
  named := ⟨"A.M", by decide⟩
  same := rfl
  ids u := by cases u <;> decide

theorem vec_true : toVec .bool true = [116, 114, 117, 101] := by decide +kernel

theorem jsonFits : Fits caller jsonHost (jsonMessage msgTy resTy) 7 8 "a" true true true := by
  intro bs ev frame h1 h2 h3
  have e1 : bs = [116, 114, 117, 101] := by
    have : (jsonMessage msgTy resTy).asBytes true = .ok (toVec .bool true) := rfl
    rw [this, vec_true] at h1
    injection h1 with h1
    exact h1.symm
  subst e1
  have e2 : ev = .notifyActor (requestOf caller "A.M" "a" [116, 114, 117, 101] true true) := by
    have : createRequest caller 7 8 "a" [116, 114, 117, 101] true true =
        .ok (.notifyActor (requestOf caller "A.M" "a" [116, 114, 117, 101] true true)) := rfl
    rw [this] at h2
    injection h2 with h2
    exact h2.symm
  subst e2
  have e3 : frame = 9 :: (requestOf caller "A.M" "a" [116, 114, 117, 101] true true).write := by
    injection h3 with h3
    exact h3.symm
  subst e3
  refine ⟨by decide +kernel, ?_⟩
  have : (jsonHost.receive caller (9 :: (requestOf caller "A.M" "a" [116, 114, 117, 101] true true).write)).2 =
      [.onSession (.result { messageId := "1", result := [110, 117, 108, 108] })] := by decide +kernel
  rw [this]
  intro r hr
  simp only [List.mem_singleton] at hr
  subst hr
  intro bs hbs
  injection hbs with hbs
  subst hbs
  decide +kernel

/-- the actor answers `Some(())`, the caller is told `None`. -/
example : (localSend jsonActor true).2 = .ok (someOf .unit ()) ∧
    ∃ ans, exchange caller jsonHost (jsonMessage msgTy resTy) 7 8 "a" true true "me" ⟨[(false, "other")], []⟩ =
      ([true], ⟨[(false, "other")], [(true, "me", ans)]⟩, none) ∧
      readAnswer (jsonMessage msgTy resTy) ans = .ok (noneOf .unit) := by
  obtain ⟨v, hv⟩ := C101_remote_refuted .bool .unit trivial trivial trivial caller jsonHost 7 8 jsonTalk "a" true
    (by decide) true "me" ⟨[(false, "other")], []⟩ (by intro p hp; simp at hp; subst hp; decide) jsonFits
  exact hv 3 jsonActor ⟨by decide, by decide, by simp [jsonHost], by intro j h1 h2; simp [jsonHost]; omega⟩ rfl rfl

end JsonExample

/-! ### The result type -/

variable {T : Type}

theorem findAttr_eq (name : String) (attrs : List (Option Meta)) :
    findAttr name attrs = (attrs.filterMap id).find? (fun m => m.segs = [name]) := by
  have hid : ∀ l : List String, getIdent l = some name ↔ l = [name] := by
    intro l
    match l with
    | [] => simp [getIdent]
    | [x] => simp [getIdent]
    | _ :: _ :: _ => simp [getIdent]
  induction attrs with
  | nil => rfl
  | cons a r ih =>
    cases a with
    | none => simp [findAttr, ih]
    | some m =>
      simp only [findAttr, hid, List.filterMap_cons, id]
      by_cases h : m.segs = [name]
      · rw [if_pos h, List.find?_cons_of_pos (by simpa using h)]
      · rw [if_neg h, List.find?_cons_of_neg (by simpa using h), ih]

/-- **C102**: a declaration without the attribute, or with another number of types than one in it, is not compiled. -/
theorem C102_refused (parseTy : String → Option T) (unit : T) (attrs : List (Option Meta))
    (h : ∀ t, declared parseTy attrs ≠ some [t]) : ∃ e, resultType parseTy unit attrs = .error e := by
  unfold declared at h
  unfold resultType getAttributeTypeMultiple
  rw [findAttr_eq]
  split at h
  · rename_i s ns heq
    rw [heq]
    match ns, h with
    | [], _ => exact ⟨_, rfl⟩
    | [n], h => exact absurd rfl (h _)
    | n :: n' :: r, _ => exact ⟨_, rfl⟩
  · rename_i hne
    cases heq : (attrs.filterMap id).find? (fun m => m.segs = ["result"]) with
    | none => exact ⟨_, rfl⟩
    | some m =>
      cases m with
      | list s ns => exact absurd heq (hne s ns)
      | path s => exact ⟨_, rfl⟩
      | nameValue s l => exact ⟨_, rfl⟩

/-- **C102**: a type given as a single name or as a string is the result type, if it is a type. -/
theorem C102_taken_partial (parseTy : String → Option T) (unit : T) (attrs : List (Option Meta)) (s : List String)
    (n : Nested) (t : T) (ha : (attrs.filterMap id).find? (fun m => m.segs = ["result"]) = some (.list s [n]))
    (hn : ∀ segs, n = .tree (.path segs) → segs.length = 1) (ht : n.text.bind parseTy = some t) :
    resultType parseTy unit attrs = .ok t ∧ declared parseTy attrs = some [some t] := by
  have hm : metaItemToTy parseTy n = some t := by
    revert ht hn
    fun_cases Nested.text n
    · rename_i segs
      intro hn ht
      have := hn segs rfl
      match segs, this with
      | [x], _ => simpa [metaItemToTy, getIdent] using ht
    · intro _ ht; simpa [metaItemToTy, getIdent] using ht
    · intro _ ht; simpa [metaItemToTy] using ht
    · intro _ ht; simp at ht
  constructor
  · unfold resultType getAttributeTypeMultiple
    rw [findAttr_eq, ha]
    simp [hm]
  · unfold declared
    rw [ha]
    simp [ht]

/-- **C102 refuted.** A path of several segments, a string that is not a type, or something else altogether is compiled
with the result type `()`. -/
theorem C102_unit_refuted (parseTy : String → Option T) (unit : T) (n : Nested) (rest : List (Option Meta))
    (h : (∃ segs, n = .tree (.path segs) ∧ segs.length ≠ 1) ∨ n.text.bind parseTy = none) :
    resultType parseTy unit (some (.list ["result"] [n]) :: rest) = .ok unit := by
  have hm : metaItemToTy parseTy n = none := by
    rcases h with ⟨segs, rfl, hs⟩ | h
    · match segs, hs with
      | [], _ => rfl
      | [x], hs => simp at hs
      | _ :: _ :: _, _ => rfl
    · revert h
      fun_cases Nested.text n
      · rename_i segs
        intro h
        match segs with
        | [] => rfl
        | [x] => simpa [metaItemToTy, getIdent] using h
        | _ :: _ :: _ => rfl
      · intro h; simpa [metaItemToTy, getIdent] using h
      · intro h; simpa [metaItemToTy] using h
      · rename_i h1 h2 h3
        intro _
        fun_cases metaItemToTy parseTy n
        · rename_i segs x _; exact absurd rfl (h1 segs)
        · rfl
        · rename_i segs hs s
          have : segs = ["result"] := by
            match segs, hs with
            | [x], hs => simpa [getIdent] using hs
          subst this
          exact absurd rfl (h2 s)
        · rfl
        · rfl
        · rename_i s; exact absurd rfl (h3 s)
        · rfl
  unfold resultType getAttributeTypeMultiple
  have : findAttr "result" (some (Meta.list ["result"] [n]) :: rest) = some (.list ["result"] [n]) := by
    simp [findAttr, Meta.segs, getIdent]
  rw [this]
  simp [hm]

/-- `#[result(std::string::String)]`: the type is known, the message gets `()`. -/
example : resultType (fun s => if s = "std::string::String" then some 1 else none) 0
    [some (.list ["result"] [.tree (.path ["std", "string", "String"])])] = .ok 0 ∧
    declared (fun s => if s = "std::string::String" then some 1 else none)
      [some (.list ["result"] [.tree (.path ["std", "string", "String"])])] = some [some 1] := by
  refine ⟨by rfl, by decide +kernel⟩

end Verif.Json
