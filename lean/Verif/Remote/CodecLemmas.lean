import Verif.Remote.CodecModel
import Verif.Proto.NetworkLemmas

namespace Verif.Remote
open Verif.Proto Verif.Proto.Network

/-! ### framing -/

theorem be32_length (n : Nat) : (be32 n).length = 4 := rfl

theorem front_encode {f : Bytes} (h : f.length ≤ maxFrame) (rest : Bytes) :
    front (be32 f.length ++ f ++ rest) = .frame f rest := by
  have hm : maxFrame = 8388608 := by decide
  rw [hm] at h
  have e : (UInt8.ofNat (f.length / 2 ^ 24)).toNat * 2 ^ 24 +
      (UInt8.ofNat (f.length / 2 ^ 16)).toNat * 2 ^ 16 +
      (UInt8.ofNat (f.length / 2 ^ 8)).toNat * 2 ^ 8 + (UInt8.ofNat f.length).toNat = f.length := by
    simp only [UInt8.toNat_ofNat']
    omega
  simp only [be32, List.cons_append, List.nil_append, front, e]
  rw [if_neg (by rw [hm]; omega), if_neg (by simp)]
  simp

theorem drain_more {bs : Bytes} (h : front bs = .more) : drain bs = ([], .buf bs) := by
  rw [drain]; split
  · rfl
  · rename_i h'; rw [h] at h'; cases h'
  · rename_i h'; rw [h] at h'; cases h'

theorem drain_tooLarge {bs : Bytes} (h : front bs = .tooLarge) : drain bs = ([], .failed) := by
  rw [drain]; split
  · rename_i h'; rw [h] at h'; cases h'
  · rfl
  · rename_i h'; rw [h] at h'; cases h'

theorem drain_frame {bs f rest : Bytes} (h : front bs = .frame f rest) :
    drain bs = (f :: (drain rest).1, (drain rest).2) := by
  rw [drain]; split
  · rename_i h'; rw [h] at h'; cases h'
  · rename_i h'; rw [h] at h'; cases h'
  · rename_i h'; rw [h] at h'; injection h' with h1 h2; subst h1; subst h2; rfl

theorem front_append_frame {bs f rest : Bytes} (h : front bs = .frame f rest) (c : Bytes) :
    front (bs ++ c) = .frame f (rest ++ c) := by
  unfold front at h
  split at h
  · rename_i a b c' d r
    simp only [] at h
    split at h
    · cases h
    · split at h
      · cases h
      · rename_i h1 h2
        injection h with h3 h4
        subst h3; subst h4
        simp only [List.cons_append, front]
        rw [if_neg h1, if_neg (by simp; omega)]
        rw [List.take_append_of_le_length (by omega), List.drop_append_of_le_length (by omega)]
  · cases h

theorem front_append_tooLarge {bs : Bytes} (h : front bs = .tooLarge) (c : Bytes) :
    front (bs ++ c) = .tooLarge := by
  unfold front at h
  split at h
  · simp only [] at h
    split at h
    · rename_i h1
      simp only [List.cons_append, front]
      rw [if_pos h1]
    · split at h <;> cases h
  · cases h

/-- draining, then feeding more bytes, is draining everything at once. -/
theorem drain_append (n : Nat) : ∀ (bs c : Bytes), bs.length ≤ n →
    drain (bs ++ c) =
      ((drain bs).1 ++ ((drain bs).2.feed c).1, ((drain bs).2.feed c).2) := by
  induction n with
  | zero =>
    intro bs c h
    have : bs = [] := List.length_eq_zero_iff.1 (by omega)
    subst this
    rw [drain_more (bs := []) (by rfl)]
    simp [Dec.feed]
  | succ n ih =>
    intro bs c h
    cases hf : front bs with
    | more => rw [drain_more hf]; simp [Dec.feed]
    | tooLarge =>
      rw [drain_tooLarge hf, drain_tooLarge (front_append_tooLarge hf c)]
      simp [Dec.feed]
    | frame f rest =>
      have hl := front_frame_length hf
      rw [drain_frame hf, drain_frame (front_append_frame hf c), ih rest c (by omega)]
      simp

/-- decoding does not depend on how the bytes are cut into chunks. -/
theorem decodeChunks_eq (d : Dec) (cs : List Bytes) :
    decodeChunks d cs = match cs with
      | [] => ([], d)
      | _ => d.feed cs.flatten := by
  induction cs generalizing d with
  | nil => simp [decodeChunks]
  | cons c cs ih =>
    simp only [decodeChunks]
    rw [ih]
    cases d with
    | failed =>
      cases cs <;> simp [Dec.feed]
    | buf b =>
      cases cs with
      | nil => simp
      | cons c' cs' =>
        simp only [Dec.feed, List.flatten_cons]
        have := drain_append _ (b ++ c) (c' ++ cs'.flatten) (Nat.le_refl _)
        rw [show b ++ (c ++ (c' ++ cs'.flatten)) = b ++ c ++ (c' ++ cs'.flatten) by simp, this]
        rfl

theorem drain_frames (fs : List Bytes) (h : ∀ f ∈ fs, f.length ≤ maxFrame) :
    drain (fs.flatMap fun f => be32 f.length ++ f) = (fs, .buf []) := by
  induction fs with
  | nil => exact drain_more rfl
  | cons f fs ih =>
    have h1 := front_encode (h f (by simp)) (fs.flatMap fun f => be32 f.length ++ f)
    rw [List.flatMap_cons, drain_frame h1, ih (fun g hg => h g (by simp [hg]))]

/-! ### times and nodes -/

theorem Time.ofTimestamp_toTimestamp (t : Time) (h : t.Valid) :
    Time.ofTimestamp t.toTimestamp = some t := by
  obtain ⟨s, n⟩ := t
  unfold Time.Valid at h
  simp only [] at h
  unfold Time.ofTimestamp Time.toTimestamp
  have e : ((Int32.ofInt (n : Int)).toInt % 2 ^ 32).toNat = n := by
    rw [Int32.toInt_ofInt]
    simp only [Int.bmod_def, Int32.size]
    omega
  simp only [e, if_pos h]

theorem collectMap_eq {l : List (String × String)} (h : MapOk l) : collectMap l = l := by
  unfold collectMap
  suffices ∀ ys, MapOk (ys ++ l) → l.foldl mapInsert ys = ys ++ l by simpa using this [] (by simpa using h)
  clear h
  induction l with
  | nil => simp
  | cons x xs ih =>
    intro ys hok
    have hfresh : x.1 ∉ ys.map (·.1) := by
      unfold MapOk at hok
      rw [List.map_append, List.map_cons, List.nodup_append] at hok
      intro hm
      exact hok.2.2 _ hm x.1 (by simp) rfl
    rw [List.foldl_cons, mapInsert_fresh hfresh, ih _ (by simpa using hok)]
    simp

theorem Node.fromProto_toProto (n : Node) (h : n.Valid) : Node.fromProto n.toProto = some n := by
  obtain ⟨id, addr, tag, st, attrs⟩ := n
  obtain ⟨h1, h2⟩ := h
  cases st with
  | none => simp [Node.fromProto, Node.toProto, collectMap_eq h2]
  | some t =>
    simp [Node.fromProto, Node.toProto, collectMap_eq h2, Time.ofTimestamp_toTimestamp t (h1 t rfl)]

theorem mapM_fromProto (ns : List Node) (h : ∀ n ∈ ns, n.Valid) :
    (ns.map Node.toProto).mapM Node.fromProto = some ns := by
  induction ns with
  | nil => rfl
  | cons n ns ih =>
    simp [List.map_cons, List.mapM_cons, Node.fromProto_toProto n (h n (by simp)),
      ih (fun m hm => h m (by simp [hm]))]

end Verif.Remote
