import Verif.Persist.Keeps
import Verif.Sharding.CodecProps
import Verif.Sharding.CoordRecoveryProps
import Verif.Sharding.ShardRecoveryProps
import Verif.Sharding.StoredModel

/-!
# C95: the journals of coordinator and shard in a storage

Specifications: `EverAllocated` of C42; what the actor knew before it was started again. `KeepsMembers` holds for the
in-memory storage and for Redis, `KeepsInOrder` for the former.
-/

namespace Verif.Sharding
open Verif.Persist (Storage Sys Payload Op own KeepsMembers KeepsInOrder)

variable {τ : Type}

/-! ## Journal -/

section
variable (S : Storage τ) (st : τ) (key : String)

/-- the messages `l` are what reached the storage under `key`, and no snapshot did. -/
def Kept (s : Sys τ) (l : List Payload) : Prop :=
  ∃ tr : List (String × Op), s = (Sys.init st).run S tr ∧ (∀ op ∈ own key tr, op.isSnapshot = false) ∧
    (own key tr).flatMap Op.kept = l

variable {S st key}

theorem Kept.init : Kept S st key (Sys.init st) [] := ⟨[], rfl, by simp [own], rfl⟩

theorem own_snoc (tr : List (String × Op)) (op : Op) : own key (tr ++ [(key, op)]) = own key tr ++ [op] := by
  simp [own]

theorem Kept.step {s : Sys τ} {l : List Payload} (h : Kept S st key s l) (op : Op) (ho : op.isSnapshot = false) :
    Kept S st key (s.step S key op) (l ++ op.kept) := by
  obtain ⟨tr, h1, h2, h3⟩ := h
  refine ⟨tr ++ [(key, op)], ?_, ?_, ?_⟩
  · rw [h1]; simp [Sys.run]
  · rw [own_snoc]; intro x hx
    rcases List.mem_append.1 hx with hx | hx
    · exact h2 x hx
    · rw [List.mem_singleton.1 hx]; exact ho
  · rw [own_snoc, List.flatMap_append, h3]; simp

theorem Kept.other {s : Sys τ} {l : List Payload} (h : Kept S st key s l) {pid : String} (hp : pid ≠ key) (op : Op) :
    Kept S st key (s.step S pid op) l := by
  obtain ⟨tr, h1, h2, h3⟩ := h
  have : own key (tr ++ [(pid, op)]) = own key tr := by simp [own, hp]
  exact ⟨tr ++ [(pid, op)], by rw [h1]; simp [Sys.run], by rw [this]; exact h2, by rw [this]; exact h3⟩

theorem Kept.restart {s : Sys τ} {l : List Payload} (h : Kept S st key s l) (K : Persist.Known) :
    Kept S st key (s.step S key (.restart K)) l := by
  simpa [Op.kept] using h.step (.restart K) rfl

/-- what the attempts of one call leave in the storage. -/
def copies (p : Payload) (fails : List Bool) (done : Bool) : List Payload :=
  (fails.filter id).map (fun _ => p) ++ if done then [p] else []

theorem mem_copies {p q : Payload} {fails : List Bool} {done : Bool} :
    q ∈ copies p fails done ↔ q = p ∧ (true ∈ fails ∨ done = true) := by
  unfold copies
  cases done <;> simp [eq_comm, and_comm] <;> grind

theorem Kept.tries {s : Sys τ} {l : List Payload} (h : Kept S st key s l) (p : Payload) (fails : List Bool) (done : Bool) :
    Kept S st key (persistTries S key s p fails done) (l ++ copies p fails done) := by
  unfold persistTries Sharding.tries copies
  induction fails generalizing s l with
  | nil =>
    cases done with
    | true => simpa [Op.kept] using h.step (.persist p .ok) rfl
    | false => simpa using h
  | cons f fails ih =>
    cases f with
    | true =>
      have := ih (h.step (.persist p .lostAck) rfl)
      simpa [Op.kept, List.append_assoc] using this
    | false =>
      have := ih (h.step (.persist p .rejected) rfl)
      simpa [Op.kept] using this

theorem Kept.recovered {s : Sys τ} {l : List Payload} (hS : KeepsMembers S st) (h : Kept S st key s l) (K : Persist.Known)
    (hK : ∀ p ∈ l, K.message p.ptype = true) (p : Payload) :
    p ∈ (s.recovered S K key).messages.getD [] ↔ p ∈ l := by
  obtain ⟨tr, h1, h2, h3⟩ := h
  rw [h1, (hS tr key K h2 (by rw [h3]; exact hK)).2, h3]

theorem Kept.recovered_eq {s : Sys τ} {l : List Payload} (hS : KeepsInOrder S st) (h : Kept S st key s l)
    (K : Persist.Known) (hK : ∀ p ∈ l, K.message p.ptype = true) : (s.recovered S K key).messages.getD [] = l := by
  obtain ⟨tr, h1, h2, h3⟩ := h
  rw [h1, (hS tr key K h2 (by rw [h3]; exact hK)).2, h3]

/-- the attempts of a call are those of the retry loop of C03 with the default policy: it ends when a write succeeds. -/
theorem C95_policy (s : Sys τ) (p : Payload) (fails : List Bool) :
    (Persist.persistCall S (.retry .untilSuccess) s.store (s.journals key) p (tries fails true)).res = .ok ∧
    (Persist.persistCall S (.retry .untilSuccess) s.store (s.journals key) p (tries fails true)).state =
      ((persistTries S key s p fails true).store, (persistTries S key s p fails true).journals key) ∧
    (Persist.persistCall S (.retry .untilSuccess) s.store (s.journals key) p (tries fails false)).res = .pending := by
  have hf : ∀ o ∈ fails.map (fun stored => if stored then Persist.WriteOutcome.lostAck else .rejected), o.acked = false := by
    intro o ho
    obtain ⟨b, _, rfl⟩ := List.mem_map.1 ho
    cases b <;> rfl
  have h1 := Persist.persistLoop_untilSuccess (attempt := Persist.attemptMsg S p) (Persist.reports_msg S p)
    (s.store, s.journals key) 1 _ hf .ok rfl []
  have h2 := Persist.persistLoop_state (attempt := Persist.attemptMsg S p) (.retry .untilSuccess)
    (s.store, s.journals key) 1 (Nat.le_refl _) (tries fails true)
  have h3 := Persist.persistLoop_untilSuccess_pending (attempt := Persist.attemptMsg S p) (Persist.reports_msg S p)
    (s.store, s.journals key) 1 _ hf
  refine ⟨h1.1, ?_, ?_⟩
  · unfold Persist.persistCall
    have h4 := Persist.attempts_msg_eq_run1 S s key p (tries fails true)
    unfold Persist.attemptMsg at h2 h4
    rw [h2]
    have hlen : (tries fails true).take ((Persist.persistLoop (.retry .untilSuccess) (Persist.attemptMsg S p)
        (s.store, s.journals key) 1 (tries fails true)).attempts - (1 - 1)) = tries fails true := by
      refine List.take_of_length_le ?_
      have : tries fails true = fails.map (fun stored => if stored then Persist.WriteOutcome.lostAck else .rejected) ++ .ok :: [] := rfl
      rw [this, h1.2.1]
      simp; omega
    unfold Persist.attemptMsg at hlen
    rw [hlen, h4]
    rfl
  · have : tries fails false = fails.map (fun stored => if stored then Persist.WriteOutcome.lostAck else .rejected) := by
      simp [tries]
    rw [this]; exact h3

end

/-! ## Encoding -/

theorem varint_length (k n : Nat) (h : n < 128 ^ (k + 1)) : (Proto.varint n).length ≤ k + 1 := by
  induction k generalizing n with
  | zero => rw [Proto.varint, if_pos (by simpa using h)]; simp
  | succ k ih =>
    rw [Proto.varint]
    split
    · simp
    · have : n / 128 < 128 ^ (k + 1) := by
        rw [Nat.div_lt_iff_lt_mul (by decide)]; rw [Nat.pow_succ] at h; exact h
      have := ih _ this
      simp only [List.length_cons]; omega

theorem alloc_small (s : UInt32) (b : Bool) : (Wire.AllocateShard.write ⟨s, b⟩).length < 2 ^ 32 := by
  have h1 := varint_length 4 s.toNat (by have := s.toNat_lt; omega)
  have h2 : ∀ n, n < 128 → (Proto.varint n).length = 1 := fun n hn => by rw [Proto.varint, if_pos hn]; rfl
  unfold Wire.AllocateShard.write Proto.Sharding.AllocateShard.write Proto.Sharding.AllocateShard.fields
  simp only [Proto.encodeFields, List.flatMap_append, List.length_append]
  have h3 : ((Proto.fVarint 1 s.toNat).flatMap Proto.encodeField).length ≤ 6 := by
    unfold Proto.fVarint
    split
    · simp
    · simp only [List.flatMap_cons, List.flatMap_nil, List.append_nil, Proto.encodeField, List.length_append,
        Proto.WireVal.wireType, Proto.WireVal.body]
      rw [h2 _ (by decide)]
      omega
  have h4 : ((Proto.fBool 2 b).flatMap Proto.encodeField).length ≤ 2 := by
    cases b
    · simp [Proto.fBool]
    · simp only [Proto.fBool, if_true, List.flatMap_cons, List.flatMap_nil, List.append_nil, Proto.encodeField,
        List.length_append, Proto.WireVal.wireType, Proto.WireVal.body]
      rw [h2 _ (by decide), h2 _ (by decide)]
      omega
  omega

theorem decode_alloc (s : UInt32) : decodeAlloc (allocPayload s) = some s.toNat := by
  unfold decodeAlloc allocPayload
  simp only [C50_allocate _ (alloc_small s false)]

/-- decoding a list of which every entry can be decoded. -/
theorem mapM_members {α β : Type} (f : α → Option β) (l : List α) (h : ∀ a ∈ l, ∃ b, f a = some b) :
    ∃ l', l.mapM f = some l' ∧ ∀ b, b ∈ l' ↔ ∃ a ∈ l, f a = some b := by
  induction l with
  | nil => exact ⟨[], rfl, by simp⟩
  | cons a l ih =>
    obtain ⟨b, hb⟩ := h a (by simp)
    obtain ⟨l', h1, h2⟩ := ih fun x hx => h x (by simp [hx])
    refine ⟨b :: l', by simp [List.mapM_cons, hb, h1], fun c => ?_⟩
    simp only [List.mem_cons, h2]
    constructor
    · rintro (rfl | ⟨x, hx, e⟩)
      · exact ⟨a, .inl rfl, hb⟩
      · exact ⟨x, .inr hx, e⟩
    · rintro ⟨x, rfl | hx, e⟩
      · rw [hb] at e; exact .inl (Option.some.inj e).symm
      · exact .inr ⟨x, hx, e⟩

theorem mapM_map {α β γ : Type} (f : α → Option β) (g : γ → α) (k : γ → β) (h : ∀ c, f (g c) = some (k c)) (l : List γ) :
    (l.map g).mapM f = some (l.map k) := by
  induction l with
  | nil => rfl
  | cons c l ih => simp [List.mapM_cons, h, ih]

/-! ## Coordinator -/

theorem plain_journal {c : Coord} (hi : Inv c) {op : CoordOp} (hp : op.plain = true) : (c.next op).journal = c.journal := by
  cases op with
  | allocate s ok => simp [CoordOp.plain] at hp
  | restart self nodes => simp [CoordOp.plain] at hp
  | rebalanceAll =>
    have : c.next .rebalanceAll = c.rebalanceShards (surplus c.fairCount c.hosts) := by
      simp only [Coord.next, Coord.step, Coord.rebalanceAll]
      rw [if_neg (hosts_ne_nil hi)]
    rw [this, rebalanceShards_journal]
  | rebalanceShards l => exact rebalanceShards_journal c l
  | nodeUnavailable n => exact (nodeUnavailable_frame c n).1
  | nodeAdded n =>
    show (c.nodeAdded n).journal = c.journal
    unfold Coord.nodeAdded
    rcases Option.eq_none_or_eq_some (c.hosts.get n) with h0 | ⟨h', h0⟩
    · simp only [h0]
    · simp only [h0]; split <;> rfl
  | nodeRemoved n =>
    have : c.next (.nodeRemoved n) = c.nodeUnavailable n := nodeRemoved_eq c n
    rw [this]; exact (nodeUnavailable_frame c n).1
  | stopAcked s n =>
    simp only [Coord.next, Coord.step]
    split
    · simp only
      unfold Coord.handleAllocate
      rcases Option.eq_none_or_eq_some (c.shards.get s) with h0 | ⟨m, h0⟩
      · simp only [h0, if_true, allocateShard_journal]
      · simp only [h0]
    · rfl
  | stopFailed s n => rfl
  | shuffle hosts =>
    show (c.shuffle hosts).journal = c.journal
    unfold Coord.shuffle; split <;> rfl
  | shuffleSet n l => rfl

theorem allocate_journal {c : Coord} (s : Nat) :
    (c.next (.allocate s true)).journal = if (c.shards.get s).isSome then c.journal else c.journal ++ [s] := by
  simp only [Coord.next, Coord.step, Coord.handleAllocate]
  rcases Option.eq_none_or_eq_some (c.shards.get s) with h0 | ⟨m, h0⟩
  · simp [h0, allocateShard_journal]
  · simp [h0]

/-- shard `s` is in the journal `l`. -/
def Held (l : List Payload) (s : Nat) : Prop := ∃ u : UInt32, u.toNat = s ∧ allocPayload u ∈ l

theorem Held.mono {l l' : List Payload} {s : Nat} (h : Held l s) : Held (l ++ l') s := by
  obtain ⟨u, h1, h2⟩ := h; exact ⟨u, h1, List.mem_append_left _ h2⟩

/-- what a call adds to the journal. -/
def Stored.coordAdds (σ : Stored Coord τ) : CoordCall → List Payload
  | .allocate s fails done =>
    match σ.actor with
    | none => []
    | some c => if (c.shards.get s.toNat).isSome then [] else copies (allocPayload s) fails done
  | _ => []

section
variable (S : Storage τ) (st : τ) (key : String)

structure CoordKept (σ : Stored Coord τ) (ans : List AllocResult) (l : List Payload) : Prop where
  kept : Kept S st key σ.sys l
  alloc : ∀ p ∈ l, ∃ u, p = allocPayload u
  reach : ∀ c, σ.actor = some c → c.Reachable
  owned : ∀ c, σ.actor = some c → Owned c
  journal : ∀ c, σ.actor = some c → ∀ s ∈ c.journal, Held l s
  answered : ∀ s, EverAllocated ans s → Held l s

variable {S st key}

/-- what a start finds. -/
theorem CoordKept.found (hS : KeepsMembers S st) {σ : Stored Coord τ} {ans : List AllocResult} {l : List Payload}
    (h : CoordKept S st key σ ans l) :
    ∃ j, ((σ.sys.recovered S coordKnown key).messages.getD []).mapM decodeAlloc = some j ∧ ∀ s, s ∈ j ↔ Held l s := by
  have hm := h.kept.recovered hS coordKnown (fun p hp => by
    obtain ⟨u, rfl⟩ := h.alloc p hp; rfl)
  obtain ⟨j, h1, h2⟩ := mapM_members decodeAlloc ((σ.sys.recovered S coordKnown key).messages.getD []) (fun p hp => by
    obtain ⟨u, rfl⟩ := h.alloc p ((hm p).1 hp)
    exact ⟨_, decode_alloc u⟩)
  refine ⟨j, h1, fun s => ?_⟩
  rw [h2]
  constructor
  · rintro ⟨p, hp, hd⟩
    obtain ⟨u, rfl⟩ := h.alloc p ((hm p).1 hp)
    rw [decode_alloc] at hd
    exact ⟨u, Option.some.inj hd, (hm _).1 hp⟩
  · rintro ⟨u, rfl, hu⟩
    exact ⟨_, (hm _).2 hu, decode_alloc u⟩

theorem CoordKept.next (hS : KeepsMembers S st) {σ : Stored Coord τ} {ans : List AllocResult} {l : List Payload}
    (h : CoordKept S st key σ ans l) (op : CoordCall) :
    CoordKept S st key (σ.coordNext S key op) (ans ++ (σ.coordStep S key op).2.toList) (l ++ σ.coordAdds op) := by
  obtain ⟨act, sys⟩ := σ
  have hanswered : ∀ s x, EverAllocated (ans ++ Option.toList x) s → EverAllocated ans s ∨ ∃ n, x = some (.allocated s n) := by
    rintro s x ⟨n, hn⟩
    rcases List.mem_append.1 hn with hn | hn
    · exact .inl ⟨n, hn⟩
    · exact .inr ⟨n, Option.mem_toList.1 hn⟩
  cases op with
  | allocate s fails done =>
    cases act with
    | none => simpa [Stored.coordNext, Stored.coordStep, Stored.coordAdds] using h
    | some c =>
      have hn := noted_step (h.reach c rfl).inv (h.owned c rfl) (.allocate s.toNat true)
      have hj := allocate_journal (c := c) s.toNat
      by_cases hk : (c.shards.get s.toNat).isSome = true
      · simp only [Stored.coordNext, Stored.coordStep, Stored.coordAdds, hk, if_true, List.append_nil] at hj ⊢
        have hjj : ∀ t ∈ (c.next (.allocate s.toNat true)).journal, Held l t := by
          rw [hj]; exact h.journal c rfl
        exact {
          kept := h.kept
          alloc := h.alloc
          reach := by rintro _ ⟨⟩; exact (h.reach c rfl).next _
          owned := by rintro _ ⟨⟩; exact hn.owned
          journal := by rintro _ ⟨⟩; exact hjj
          answered := by
            intro t ht
            rcases hanswered t _ ht with ht | ⟨n, ht⟩
            · exact h.answered t ht
            · exact hjj t (hn.answer t n ht) }
      · simp only [Bool.not_eq_true] at hk
        have hall : ∀ p ∈ l ++ copies (allocPayload s) fails done, ∃ u, p = allocPayload u := by
          intro p hp
          rcases List.mem_append.1 hp with hp | hp
          · exact h.alloc p hp
          · exact ⟨s, (mem_copies.1 hp).1⟩
        cases done with
        | false =>
          simp only [Stored.coordNext, Stored.coordStep, Stored.coordAdds, hk, Bool.false_eq_true, if_false,
            Option.toList, List.append_nil]
          exact {
            kept := h.kept.tries _ _ _
            alloc := hall
            reach := by rintro _ ⟨⟩
            owned := by rintro _ ⟨⟩
            journal := by rintro _ ⟨⟩
            answered := fun t ht => (h.answered t ht).mono }
        | true =>
          simp only [Stored.coordNext, Stored.coordStep, Stored.coordAdds, hk, Bool.false_eq_true, if_false, if_true] at hj ⊢
          have hjj : ∀ t ∈ (c.next (.allocate s.toNat true)).journal, Held (l ++ copies (allocPayload s) fails true) t := by
            rw [hj]
            intro t ht
            rcases List.mem_append.1 ht with ht | ht
            · exact (h.journal c rfl t ht).mono
            · exact ⟨s, (List.mem_singleton.1 ht).symm, List.mem_append_right _ (mem_copies.2 ⟨rfl, .inr rfl⟩)⟩
          exact {
            kept := h.kept.tries _ _ _
            alloc := hall
            reach := by rintro _ ⟨⟩; exact (h.reach c rfl).next _
            owned := by rintro _ ⟨⟩; exact hn.owned
            journal := by rintro _ ⟨⟩; exact hjj
            answered := by
              intro t ht
              rcases hanswered t _ ht with ht | ⟨n, ht⟩
              · exact (h.answered t ht).mono
              · exact hjj t (hn.answer t n ht) }
  | other op =>
    cases act with
    | none => simpa [Stored.coordNext, Stored.coordStep, Stored.coordAdds] using h
    | some c =>
      cases hp : op.plain with
      | false => simpa [Stored.coordNext, Stored.coordStep, Stored.coordAdds, hp] using h
      | true =>
        have hn := noted_step (h.reach c rfl).inv (h.owned c rfl) op
        have hj := plain_journal (h.reach c rfl).inv hp
        simp only [Stored.coordNext, Stored.coordStep, Stored.coordAdds, hp, if_true, List.append_nil]
        have hjj : ∀ t ∈ (c.next op).journal, Held l t := by rw [hj]; exact h.journal c rfl
        exact {
          kept := h.kept
          alloc := h.alloc
          reach := by rintro _ ⟨⟩; exact (h.reach c rfl).next _
          owned := by rintro _ ⟨⟩; exact hn.owned
          journal := by rintro _ ⟨⟩; exact hjj
          answered := by
            intro t ht
            rcases hanswered t _ ht with ht | ⟨n, ht⟩
            · exact h.answered t ht
            · exact hjj t (hn.answer t n ht) }
  | restart self nodes =>
    obtain ⟨j, h1, h2⟩ := h.found hS
    simp only [Stored.coordNext, Stored.coordStep, Stored.coordAdds, List.append_nil, Option.toList]
    simp only at h1
    rw [h1]
    exact {
      kept := h.kept.restart _
      alloc := h.alloc
      reach := by rintro _ ⟨⟩; exact ⟨self, nodes, j, [], rfl⟩
      owned := by rintro _ ⟨⟩; exact start_owned _ _ _
      journal := by
        rintro _ ⟨⟩ s hs
        rw [start_eq, recoverAll_journal] at hs
        exact (h2 s).1 hs
      answered := h.answered }
  | elsewhere pid op =>
    simp only [Stored.coordNext, Stored.coordStep, Stored.coordAdds, List.append_nil, Option.toList]
    split
    · exact h
    · rename_i hpid
      exact {
        kept := h.kept.other hpid op
        alloc := h.alloc
        reach := h.reach
        owned := h.owned
        journal := h.journal
        answered := h.answered }

theorem Stored.coordRun_snoc (σ : Stored Coord τ) (ops : List CoordCall) (op : CoordCall) :
    σ.coordRun S key (ops ++ [op]) = (σ.coordRun S key ops).coordNext S key op := by simp [Stored.coordRun]

theorem Stored.coordAnswers_snoc (σ : Stored Coord τ) (ops : List CoordCall) (op : CoordCall) :
    σ.coordAnswers S key (ops ++ [op]) =
      σ.coordAnswers S key ops ++ ((σ.coordRun S key ops).coordStep S key op).2.toList := by
  induction ops generalizing σ with
  | nil => simp [Stored.coordAnswers, Stored.coordRun]
  | cons o ops ih =>
    simp only [List.cons_append, Stored.coordAnswers, ih, List.append_assoc]
    rfl

theorem CoordKept.init : CoordKept S st key (Stored.init st) [] [] where
  kept := Kept.init
  alloc := by simp
  reach := by rintro _ ⟨⟩
  owned := by rintro _ ⟨⟩
  journal := by rintro _ ⟨⟩
  answered := by rintro s ⟨n, hn⟩; simp at hn

theorem coordKept_run (hS : KeepsMembers S st) (ops : List CoordCall) :
    ∃ l, CoordKept S st key ((Stored.init st).coordRun S key ops) ((Stored.init st).coordAnswers S key ops) l := by
  induction ops using snoc_induction with
  | nil => exact ⟨[], CoordKept.init⟩
  | snoc ops op ih =>
    obtain ⟨l, h⟩ := ih
    rw [Stored.coordRun_snoc, Stored.coordAnswers_snoc]
    exact ⟨_, h.next hS op⟩

/-- **C95.** A coordinator that runs over the storages is one of those of C36 to C42: started from some journal, and
everything proved of those holds for it. -/
theorem C95_coordinator_reachable (hS : KeepsMembers S st) (ops : List CoordCall) (c : Coord)
    (h : ((Stored.init st).coordRun S key ops).actor = some c) : c.Reachable := by
  obtain ⟨l, hl⟩ := coordKept_run (key := key) hS ops
  exact hl.reach c h

/-- **C95.** For every history of calls, retried writes, losses of the node in the middle of a write and use of the
storage by others: a coordinator that is started anywhere knows every shard that was ever reported as allocated, on an
available node. -/
theorem C95_coordinator_no_loss (hS : KeepsMembers S st) (ops : List CoordCall) (self : Nat) (nodes : List (Nat × Bool))
    (s : Nat) (h : EverAllocated ((Stored.init st).coordAnswers S key ops) s) :
    ∃ c n k, ((Stored.init st).coordRun S key (ops ++ [.restart self nodes])).actor = some c ∧
      c.Assigned s n ∧ c.Avail n k := by
  obtain ⟨l, hl⟩ := coordKept_run (key := key) hS ops
  obtain ⟨j, h1, h2⟩ := hl.found hS
  have hs := (start_assigned self nodes j s).2 ((h2 s).2 (hl.answered s h))
  obtain ⟨n, hn⟩ := Option.isSome_iff_exists.1 hs
  obtain ⟨k, hk⟩ := C37_available (Coord.start self nodes j) ⟨self, nodes, j, [], rfl⟩ s n hn
  refine ⟨Coord.start self nodes j, n, k, ?_, hn, hk⟩
  rw [Stored.coordRun_snoc]
  simp only [Stored.coordNext, Stored.coordStep, h1, Option.map_some]

/-- whenever the coordinator runs, some node is available. -/
def NodeAvailable (S : Storage τ) (key : String) (σ : Stored Coord τ) (ops : List CoordCall) : Prop :=
  ∀ pre post, ops = pre ++ post → ∀ c, (σ.coordRun S key pre).actor = some c → ∃ n k, c.Avail n k

/-- the node is not lost during a write. -/
def CoordCall.completes : CoordCall → Bool
  | .allocate _ _ done => done
  | _ => true

theorem coordExact_run (hS : KeepsMembers S st) (ops : List CoordCall)
    (ha : NodeAvailable S key (Stored.init st) ops) (hc : ∀ op ∈ ops, op.completes = true) :
    ∃ l, CoordKept S st key ((Stored.init st).coordRun S key ops) ((Stored.init st).coordAnswers S key ops) l ∧
      ∀ s, Held l s → EverAllocated ((Stored.init st).coordAnswers S key ops) s := by
  induction ops using snoc_induction with
  | nil => exact ⟨[], CoordKept.init, by rintro s ⟨u, _, hu⟩; simp at hu⟩
  | snoc ops op ih =>
    obtain ⟨l, h, he⟩ := ih (fun pre post e => ha pre (post ++ [op]) (by rw [e, List.append_assoc]))
      (fun o ho => hc o (by simp [ho]))
    have hop := hc op (by simp)
    have hav := ha ops [op] rfl
    rw [Stored.coordRun_snoc, Stored.coordAnswers_snoc]
    refine ⟨_, h.next hS op, ?_⟩
    rintro s ⟨u, rfl, hu⟩
    generalize (Stored.init st).coordRun S key ops = σ at h hav hu
    have hold : allocPayload u ∈ l → EverAllocated ((Stored.init st).coordAnswers S key ops ++
        (σ.coordStep S key op).2.toList) u.toNat := by
      intro hl
      obtain ⟨n, hn⟩ := he _ ⟨u, rfl, hl⟩
      exact ⟨n, List.mem_append_left _ hn⟩
    rcases List.mem_append.1 hu with hu | hu
    · exact hold hu
    · cases op with
      | allocate s fails done =>
        obtain ⟨act, sys⟩ := σ
        cases act with
        | none => simp [Stored.coordAdds] at hu
        | some c =>
          by_cases hk : (c.shards.get s.toNat).isSome = true
          · simp [Stored.coordAdds, hk] at hu
          · have hdone : done = true := hop
            subst hdone
            have hn := noted_step (h.reach c rfl).inv (h.owned c rfl) (.allocate s.toNat true)
            simp only [Stored.coordAdds, hk, if_false, Bool.false_eq_true, mem_copies] at hu
            have hus : u.toNat = s.toNat := by
              have := congrArg decodeAlloc hu.1
              rw [decode_alloc, decode_alloc] at this
              exact Option.some.inj this
            have hin : u.toNat ∈ (c.next (.allocate s.toNat true)).journal := by
              rw [allocate_journal, if_neg hk, hus]; simp
            rcases hn.cause (hav c rfl) _ hin with hin | ⟨n, hn⟩
            · obtain ⟨u', hu', hl⟩ := h.journal c rfl _ hin
              have : u' = u := UInt32.toNat_inj.1 hu'
              exact hold (this ▸ hl)
            · refine ⟨n, List.mem_append_right _ ?_⟩
              rw [Option.mem_toList]
              simp only [Stored.coordStep, hk, if_false, if_true, Bool.false_eq_true]
              exact hn
      | other op => simp [Stored.coordAdds] at hu
      | restart self nodes => simp [Stored.coordAdds] at hu
      | elsewhere pid op => simp [Stored.coordAdds] at hu

/-- **C95.** Exactly: if a node was available whenever a coordinator ran, and no node was lost during a write, the shards
known after a start are those that were ever reported as allocated, in memory and on Redis, whatever was retried. -/
theorem C95_coordinator_exact (hS : KeepsMembers S st) (ops : List CoordCall) (self : Nat) (nodes : List (Nat × Bool))
    (ha : NodeAvailable S key (Stored.init st) ops) (hc : ∀ op ∈ ops, op.completes = true) :
    ∃ c, ((Stored.init st).coordRun S key (ops ++ [.restart self nodes])).actor = some c ∧
      ∀ s, (∃ n, c.Assigned s n) ↔ EverAllocated ((Stored.init st).coordAnswers S key ops) s := by
  obtain ⟨l, hl, he⟩ := coordExact_run hS ops ha hc
  obtain ⟨j, h1, h2⟩ := hl.found hS
  refine ⟨Coord.start self nodes j, ?_, fun s => ?_⟩
  · rw [Stored.coordRun_snoc]
    simp only [Stored.coordNext, Stored.coordStep, h1, Option.map_some]
  · constructor
    · rintro ⟨n, hn⟩
      refine he s ((h2 s).1 ((start_assigned self nodes j s).1 ?_))
      have hn : (Coord.start self nodes j).shards.get s = some n := hn
      rw [hn]; rfl
    · intro h
      have hs := (start_assigned self nodes j s).2 ((h2 s).2 (hl.answered s h))
      exact Option.isSome_iff_exists.1 hs

/-- the calls as operations of the coordinator alone. -/
def CoordCall.alone : CoordCall → Option CoordOp
  | .allocate s _ _ => some (.allocate s.toNat true)
  | .other (.allocate _ _) => none
  | .other (.restart _ _) => none
  | .other op => some op
  | .restart self nodes => some (.restart self nodes)
  | .elsewhere _ _ => none

theorem alone_other (op : CoordOp) : (CoordCall.other op).alone = if op.plain then some op else none := by
  cases op <;> rfl

/-- no failed attempt reached the storage, and the node is not lost during a write. -/
def CoordCall.clean : CoordCall → Bool
  | .allocate _ fails done => done && !fails.contains true
  | _ => true

/-- **C95.** Over the in-memory storage, when failed writes do not reach it, the coordinator is the one of C36 to C42 step
by step: the same state after every history. -/
theorem C95_coordinator_same (hS : KeepsInOrder S st) (self : Nat) (nodes : List (Nat × Bool)) (ops : List CoordCall)
    (hc : ∀ op ∈ ops, op.clean = true) :
    ((Stored.init st).coordRun S key (.restart self nodes :: ops)).actor =
      some ((Coord.start self nodes []).run (ops.filterMap CoordCall.alone)) := by
  have key' : ∀ ops : List CoordCall, (∀ op ∈ ops, op.clean = true) → ∃ l : List UInt32,
      ((Stored.init st).coordRun S key (.restart self nodes :: ops)).actor =
        some ((Coord.start self nodes []).run (ops.filterMap CoordCall.alone)) ∧
      ((Coord.start self nodes []).run (ops.filterMap CoordCall.alone)).journal = l.map UInt32.toNat ∧
      Kept S st key ((Stored.init st).coordRun S key (.restart self nodes :: ops)).sys (l.map allocPayload) := by
    intro ops
    have hrec : ∀ (s : Sys τ) (l : List UInt32), Kept S st key s (l.map allocPayload) →
        ((s.recovered S coordKnown key).messages.getD []).mapM decodeAlloc = some (l.map UInt32.toNat) := by
      intro s l hk
      rw [hk.recovered_eq hS coordKnown (fun p hp => by obtain ⟨u, _, rfl⟩ := List.mem_map.1 hp; rfl)]
      exact mapM_map decodeAlloc allocPayload UInt32.toNat decode_alloc l
    induction ops using snoc_induction with
    | nil =>
      intro _
      refine ⟨[], ?_, ?_, ?_⟩
      · simp only [Stored.coordRun, List.foldl_cons, List.foldl_nil, Stored.coordNext, Stored.coordStep]
        have : (Stored.init (α := Coord) st).sys = Sys.init st := rfl
        rw [this, hrec (Sys.init st) [] Kept.init]
        rfl
      · rw [List.filterMap_nil]
        show (Coord.start self nodes []).journal = []
        rw [start_eq, recoverAll_journal]; rfl
      · exact Kept.init.restart coordKnown
    | snoc ops op ih =>
      intro hc
      obtain ⟨l, h1, h2, h3⟩ := ih (fun o ho => hc o (by simp [ho]))
      have hop := hc op (by simp)
      have hi : Inv ((Coord.start self nodes []).run (ops.filterMap CoordCall.alone)) := reach_inv self nodes [] _
      have e1 : (.restart self nodes :: (ops ++ [op]) : List CoordCall) = (.restart self nodes :: ops) ++ [op] := rfl
      have e2 : ∀ a b, (Coord.start self nodes []).run (a ++ b) = ((Coord.start self nodes []).run a).run b :=
        fun a b => by simp [Coord.run]
      rw [e1, Stored.coordRun_snoc, List.filterMap_append, e2]
      generalize (Stored.init st).coordRun S key (.restart self nodes :: ops) = σ at h1 h3
      generalize (Coord.start self nodes []).run (ops.filterMap CoordCall.alone) = c at h1 h2 hi ⊢
      obtain ⟨act, sys⟩ := σ
      simp only at h1 h3
      subst h1
      cases op with
      | allocate s fails done =>
        simp only [CoordCall.clean, Bool.and_eq_true, Bool.not_eq_true', List.contains_eq_mem,
          decide_eq_false_iff_not] at hop
        obtain ⟨rfl, hf⟩ := hop
        have hcop : copies (allocPayload s) fails true = [allocPayload s] := by
          have : fails.filter id = [] := by
            rw [List.filter_eq_nil_iff]
            intro b hb
            cases b with
            | true => exact absurd hb hf
            | false => simp
          simp [copies, this]
        have hj := allocate_journal (c := c) s.toNat
        by_cases hk : (c.shards.get s.toNat).isSome = true
        · refine ⟨l, ?_, ?_, ?_⟩
          · simp [Stored.coordNext, Stored.coordStep, hk, CoordCall.alone, Coord.run]
          · simpa [CoordCall.alone, Coord.run, hk, h2] using hj
          · simpa [Stored.coordNext, Stored.coordStep, hk] using h3
        · simp only [Bool.not_eq_true] at hk
          refine ⟨l ++ [s], ?_, ?_, ?_⟩
          · simp [Stored.coordNext, Stored.coordStep, hk, CoordCall.alone, Coord.run]
          · simpa [CoordCall.alone, Coord.run, hk, h2] using hj
          · have := h3.tries (allocPayload s) fails true
            rw [hcop] at this
            simpa [Stored.coordNext, Stored.coordStep, hk] using this
      | other op =>
        cases hp : op.plain with
        | false =>
          exact ⟨l, by simp [Stored.coordNext, Stored.coordStep, hp, alone_other, Coord.run],
            by simpa [hp, alone_other, Coord.run] using h2, by simpa [Stored.coordNext, Stored.coordStep, hp] using h3⟩
        | true =>
          have hj := plain_journal hi hp
          exact ⟨l, by simp [Stored.coordNext, Stored.coordStep, hp, alone_other, Coord.run],
            by simpa [hp, alone_other, Coord.run, hj] using h2, by simpa [Stored.coordNext, Stored.coordStep, hp] using h3⟩
      | restart self' nodes' =>
        refine ⟨l, ?_, ?_, ?_⟩
        · simp only [Stored.coordNext, Stored.coordStep]
          rw [hrec sys l h3]
          simp [CoordCall.alone, Coord.run, Coord.next, Coord.step, h2]
        · simp only [CoordCall.alone, List.filterMap_cons, List.filterMap_nil, Coord.run, List.foldl_cons, List.foldl_nil]
          show (Coord.start self' nodes' c.journal).journal = _
          rw [start_eq, recoverAll_journal]; exact h2
        · exact h3.restart coordKnown
      | elsewhere pid op =>
        refine ⟨l, ?_, h2, ?_⟩
        · simp only [Stored.coordNext, Stored.coordStep]
          split <;> rfl
        · simp only [Stored.coordNext, Stored.coordStep]
          split
          · exact h3
          · rename_i hpid; exact h3.other hpid op
  obtain ⟨_, h, _⟩ := key' ops hc
  exact h

end

/-! ## Shard -/

/-- the recipe in the last of the starts of `e`. -/
def lastStart (e : Nat) (J : List (Nat × Nat)) : Option Nat := (J.reverse.find? fun p => p.1 = e).map (·.2)

theorem lastStart_snoc (e : Nat) (J : List (Nat × Nat)) (p : Nat × Nat) :
    lastStart e (J ++ [p]) = if p.1 = e then some p.2 else lastStart e J := by
  unfold lastStart
  simp only [List.reverse_append, List.reverse_cons, List.reverse_nil, List.nil_append, List.singleton_append,
    List.find?_cons]
  split <;> simp_all

theorem lastStart_append (e : Nat) (J : List (Nat × Nat)) (p : Nat × Nat) (n : Nat) :
    lastStart e (J ++ List.replicate (n + 1) p) = if p.1 = e then some p.2 else lastStart e J := by
  induction n with
  | zero => exact lastStart_snoc e J p
  | succ n ih =>
    rw [List.replicate_succ' (n := n + 1), ← List.append_assoc, lastStart_snoc, ih]
    split <;> rfl

theorem lastStart_mem {e c : Nat} {J : List (Nat × Nat)} (h : lastStart e J = some c) : (e, c) ∈ J := by
  unfold lastStart at h
  obtain ⟨p, hp, rfl⟩ := Option.map_eq_some_iff.1 h
  have h1 := List.find?_some hp
  have h2 := List.mem_reverse.1 (List.mem_of_find?_eq_some hp)
  simp only [decide_eq_true_eq] at h1
  rw [← h1]; exact h2

/-- every entity has one recipe. -/
def OneRecipe (J : List (Nat × Nat)) : Prop := ∀ e c c', (e, c) ∈ J → (e, c') ∈ J → c = c'

theorem lastStart_iff {J : List (Nat × Nat)} (hf : OneRecipe J) (e c : Nat) : lastStart e J = some c ↔ (e, c) ∈ J := by
  constructor
  · exact lastStart_mem
  · intro h
    cases hl : lastStart e J with
    | none =>
      exfalso
      unfold lastStart at hl
      simp only [Option.map_eq_none_iff, List.find?_eq_none, List.mem_reverse, decide_eq_true_eq] at hl
      exact hl _ h rfl
    | some c' => rw [hf e c' c (lastStart_mem hl) h]

theorem lastStart_congr {J J' : List (Nat × Nat)} (hf : OneRecipe J) (h : ∀ p, p ∈ J' ↔ p ∈ J) (e : Nat) :
    lastStart e J' = lastStart e J := by
  have hf' : OneRecipe J' := fun e c c' h1 h2 => hf e c c' ((h _).1 h1) ((h _).1 h2)
  refine Option.ext fun c => ?_
  rw [lastStart_iff hf, lastStart_iff hf', h]

theorem recoverAll_starts (J : List (Nat × Nat)) (e : Nat) :
    (recoverAll (J.map fun p => JEntry.start p.1 p.2)).get e = (lastStart e J).map fun c => ⟨c, .starting []⟩ := by
  induction J using snoc_induction with
  | nil => rfl
  | snoc J p ih =>
    rw [List.map_append, List.map_cons, List.map_nil, recoverAll_snoc, lastStart_snoc]
    simp only [recoverEntry, Assoc.get_insert, ih]
    by_cases h : p.1 = e
    · simp [h]
    · have : ¬ e = p.1 := fun x => h x.symm
      simp [h, this]

theorem boot_starts (J : List (Nat × Nat)) (e : Nat) :
    ((Shard.boot (J.map fun p => JEntry.start p.1 p.2)).entities.get e).map Entity.recipe = lastStart e J ∧
    (Shard.boot (J.map fun p => JEntry.start p.1 p.2)).startsUnderWay e = if (lastStart e J).isSome then 1 else 0 := by
  have hg := recoverAll_starts J e
  constructor
  · rw [boot_entities, hg]
    cases lastStart e J <;> rfl
  · have h1 := C49_restarted_once (J.map fun p => JEntry.start p.1 p.2) e
    have h2 := boot_restarts (J.map fun p => JEntry.start p.1 p.2) e
    simp only [startingIn, hg] at h2
    cases hl : lastStart e J with
    | none =>
      simp only [hl] at h2
      simp only [Option.isSome_none, Bool.false_eq_true, if_false]
      refine List.countP_eq_zero.2 fun t ht he => ?_
      have := (h2 t.c).1 ⟨t, ht, by simpa using he, rfl⟩
      simp at this
    | some c =>
      obtain ⟨t, ht, he, _⟩ := (h2 c).2 (by simp [hl, EState.isStarting])
      have : 0 < (Shard.boot (J.map fun p => JEntry.start p.1 p.2)).startsUnderWay e :=
        List.countP_pos_iff.2 ⟨t, ht, by simpa using he⟩
      simp only [Option.isSome_some, if_true]
      omega

/-- the recipe under which a running shard knows an entity. -/
def Shard.recipeOf (sh : Shard) (e : Nat) : Option Nat := (sh.entities.get e).map Entity.recipe

theorem recipe_request {sh : Shard} {r : EReq} (h : sh.starts r = none) (e : Nat) :
    (sh.next (.request r true)).recipeOf e = sh.recipeOf e := by
  unfold Shard.starts at h
  simp only [Shard.recipeOf, Shard.next, Shard.step, Shard.request]
  split
  · split
    · rename_i x hx
      simp only [Assoc.get_insert]
      split
      · rename_i he; rw [he, hx]; rfl
      · rfl
    · rename_i hx
      split
      · rename_i c hc; simp [*] at h
      · rfl
  · rfl

theorem recipe_start {sh : Shard} {r : EReq} {e c : Nat} (h : sh.starts r = some (e, c)) (e' : Nat) :
    sh.recipeOf e = none ∧ (sh.next (.request r true)).recipeOf e' = if e = e' then some c else sh.recipeOf e' := by
  unfold Shard.starts at h
  split at h
  · rename_i hk
    simp only [Bool.and_eq_true, Option.isNone_iff_eq_none] at hk
    obtain ⟨c', hc, heq⟩ := Option.map_eq_some_iff.1 h
    obtain ⟨rfl, rfl⟩ := Prod.mk.inj heq
    refine ⟨by simp [Shard.recipeOf, hk.2], ?_⟩
    simp only [Shard.recipeOf, Shard.next, Shard.step, Shard.request, hk.1, if_true, hk.2, hc, Shard.startEntity,
      Assoc.get_insert]
    by_cases he : r.entity = e'
    · simp [he]
    · have : ¬ e' = r.entity := fun x => he x.symm
      simp [he, this]
  · cases h

theorem recipe_startEntity (sh : Shard) (e c e' : Nat) :
    (sh.next (.startEntity e c true)).recipeOf e' = if e = e' then some c else sh.recipeOf e' := by
  simp only [Shard.recipeOf, Shard.next, Shard.step, Shard.handleStart, Shard.startEntity, Assoc.get_insert]
  by_cases he : e = e'
  · simp [he]
  · have : ¬ e' = e := fun x => he x.symm
    simp [he, this]

theorem recipe_started (sh : Shard) (t : StartTask) (e : Nat) : (sh.next (.started t)).recipeOf e = sh.recipeOf e := by
  simp only [Shard.recipeOf, Shard.next, Shard.step]
  split
  · simp only [Shard.started]
    split
    · rename_i x hx
      simp only [Assoc.get_insert]
      split
      · rename_i he; rw [he, hx]; rfl
      · rfl
    · rfl
  · rfl

theorem recipe_startFailed (sh : Shard) (t : StartTask) (e : Nat) :
    (sh.next (.startFailed t)).recipeOf e = sh.recipeOf e := by
  simp only [Shard.recipeOf, Shard.next, Shard.step]
  split <;> rfl

theorem recipe_childStopped (sh : Shard) (x i : Nat) (e : Nat) :
    (sh.next (.childStopped x i)).recipeOf e = sh.recipeOf e := by
  simp only [Shard.recipeOf, Shard.next, Shard.step]
  split <;> rfl

section
variable (N : Naming)

/-- the encoding of the entity and its recipe is a valid protobuf message (below 4 GB). -/
def ShardCall.Fits : ShardCall → Prop
  | .request r _ _ => ∀ c, r.recipe = some c → (Wire.StartEntity.write ⟨N.id r.entity, N.recipe c⟩).length < 2 ^ 32
  | .startEntity e c _ _ => (Wire.StartEntity.write ⟨N.id e, N.recipe c⟩).length < 2 ^ 32
  | _ => True

/-- nobody sends the shard the message `StartEntity`; no code of the crate does. -/
def ShardCall.isStart : ShardCall → Bool
  | .startEntity _ _ _ _ => true
  | _ => false

theorem decode_start (e c : Nat) (h : (Wire.StartEntity.write ⟨N.id e, N.recipe c⟩).length < 2 ^ 32) :
    decodeStart N (startPayload N e c) = some (.start e c) := by
  unfold decodeStart startPayload
  simp only [if_true, C50_start_entity _ h, N.ofId_id, N.ofRecipe_recipe, Option.bind_some, Option.map_some]

theorem copies_eq (e c : Nat) (fails : List Bool) (done : Bool) :
    copies (startPayload N e c) fails done =
      (List.replicate ((fails.filter id).length + done.toNat) (e, c)).map fun p => startPayload N p.1 p.2 := by
  unfold copies
  rw [← List.replicate_append_replicate, List.map_append, List.map_replicate, List.map_const']
  cases done <;> simp

variable (S : Storage τ) (st : τ) (key : String)

structure ShardKept (σ : Stored Shard τ) (J : List (Nat × Nat)) : Prop where
  kept : Kept S st key σ.sys (J.map fun p => startPayload N p.1 p.2)
  small : ∀ p ∈ J, (Wire.StartEntity.write ⟨N.id p.1, N.recipe p.2⟩).length < 2 ^ 32
  know : ∀ sh, σ.actor = some sh → ∀ e, sh.recipeOf e = lastStart e J

variable {N S st key}

theorem ShardKept.init : ShardKept N S st key (Stored.init st) [] := ⟨Kept.init, by simp, by rintro _ ⟨⟩⟩

/-- what a start finds, in any order. -/
theorem ShardKept.found (hS : KeepsMembers S st) {σ : Stored Shard τ} {J : List (Nat × Nat)}
    (h : ShardKept N S st key σ J) :
    ∃ J' : List (Nat × Nat), ((σ.sys.recovered S shardKnown key).messages.getD []).mapM (decodeStart N) =
      some (J'.map fun p => JEntry.start p.1 p.2) ∧ ∀ p, p ∈ J' ↔ p ∈ J := by
  have hm := h.kept.recovered hS shardKnown (fun p hp => by
    obtain ⟨q, _, rfl⟩ := List.mem_map.1 hp; rfl)
  have hd : ∀ p ∈ (σ.sys.recovered S shardKnown key).messages.getD [], ∃ q ∈ J, p = startPayload N q.1 q.2 := by
    intro p hp
    obtain ⟨q, hq, rfl⟩ := List.mem_map.1 ((hm p).1 hp)
    exact ⟨q, hq, rfl⟩
  obtain ⟨j, h1, h2⟩ := mapM_members (decodeStart N) ((σ.sys.recovered S shardKnown key).messages.getD []) (fun p hp => by
    obtain ⟨q, hq, rfl⟩ := hd p hp
    exact ⟨_, decode_start N q.1 q.2 (h.small q hq)⟩)
  have hst : ∀ b ∈ j, ∃ q ∈ J, b = .start q.1 q.2 := by
    intro b hb
    obtain ⟨p, hp, e⟩ := (h2 b).1 hb
    obtain ⟨q, hq, rfl⟩ := hd p hp
    rw [decode_start N q.1 q.2 (h.small q hq)] at e
    exact ⟨q, hq, (Option.some.inj e).symm⟩
  have hex : ∀ j : List JEntry, (∀ b ∈ j, ∃ q ∈ J, b = .start q.1 q.2) →
      ∃ J', j = List.map (fun p : Nat × Nat => JEntry.start p.1 p.2) J' ∧ ∀ p ∈ J', p ∈ J := by
    intro j
    induction j with
    | nil => intro _; exact ⟨[], rfl, by simp⟩
    | cons b j ih =>
      intro h
      obtain ⟨q, hq, rfl⟩ := h b (by simp)
      obtain ⟨J', rfl, h3⟩ := ih fun x hx => h x (by simp [hx])
      refine ⟨q :: J', rfl, fun p hp => ?_⟩
      rcases List.mem_cons.1 hp with rfl | hp
      · exact hq
      · exact h3 p hp
  obtain ⟨J', rfl, h3⟩ := hex j hst
  refine ⟨J', h1, fun p => ⟨h3 p, fun hp => ?_⟩⟩
  have := (h2 (.start p.1 p.2)).2 ⟨startPayload N p.1 p.2, (hm _).2 (List.mem_map_of_mem hp),
    decode_start N p.1 p.2 (h.small p hp)⟩
  obtain ⟨q, hq, e⟩ := List.mem_map.1 this
  injection e with e1 e2
  have : q = p := Prod.ext e1 e2
  exact this ▸ hq

theorem ShardKept.found_eq (hS : KeepsInOrder S st) {σ : Stored Shard τ} {J : List (Nat × Nat)}
    (h : ShardKept N S st key σ J) :
    ((σ.sys.recovered S shardKnown key).messages.getD []).mapM (decodeStart N) =
      some (J.map fun p => JEntry.start p.1 p.2) := by
  rw [h.kept.recovered_eq hS shardKnown (fun p hp => by obtain ⟨q, _, rfl⟩ := List.mem_map.1 hp; rfl)]
  have hsm := h.small
  clear h
  induction J with
  | nil => rfl
  | cons p J ih =>
    simp [List.mapM_cons, decode_start N p.1 p.2 (hsm p (by simp)), ih fun q hq => hsm q (by simp [hq])]

/-- after a write of `(e, c)`, finished or not. -/
theorem ShardKept.write {sys : Sys τ} {sh : Shard} {J : List (Nat × Nat)} (h : ShardKept N S st key ⟨some sh, sys⟩ J)
    {e c : Nat} (hs : (Wire.StartEntity.write ⟨N.id e, N.recipe c⟩).length < 2 ^ 32) (fails : List Bool) (done : Bool)
    (sh' : Shard) (hk : ∀ e', sh'.recipeOf e' = if e = e' then some c else sh.recipeOf e') :
    ShardKept N S st key ⟨if done then some sh' else none, persistTries S key sys (startPayload N e c) fails done⟩
      (J ++ List.replicate ((fails.filter id).length + done.toNat) (e, c)) := by
  refine ⟨?_, ?_, ?_⟩
  · have := h.kept.tries (startPayload N e c) fails done
    rwa [copies_eq, ← List.map_append] at this
  · intro p hp
    rcases List.mem_append.1 hp with hp | hp
    · exact h.small p hp
    · rw [(List.mem_replicate.1 hp).2]; exact hs
  · cases done with
    | false => rintro _ ⟨⟩
    | true =>
      rintro _ ⟨⟩ e'
      rw [Bool.toNat_true, lastStart_append, hk e', h.know sh rfl e']

theorem OneRecipe.add {J : List (Nat × Nat)} (h : OneRecipe J) {e c : Nat} (hn : lastStart e J = none) (n : Nat) :
    OneRecipe (J ++ List.replicate n (e, c)) := by
  have hno : ∀ c, (e, c) ∉ J := fun c hm => by
    rw [(lastStart_iff h e c).2 hm] at hn; cases hn
  intro x a b ha' hb'
  rcases List.mem_append.1 ha' with ha | ha <;> rcases List.mem_append.1 hb' with hb | hb
  · exact h x a b ha hb
  · obtain ⟨_, e2⟩ := List.mem_replicate.1 hb
    obtain ⟨rfl, rfl⟩ := Prod.mk.inj e2
    exact absurd ha (hno a)
  · obtain ⟨_, e2⟩ := List.mem_replicate.1 ha
    obtain ⟨rfl, rfl⟩ := Prod.mk.inj e2
    exact absurd hb (hno b)
  · obtain ⟨_, e2⟩ := List.mem_replicate.1 ha
    obtain ⟨_, e3⟩ := List.mem_replicate.1 hb
    rw [(Prod.mk.inj e2).2, (Prod.mk.inj e3).2]

/-- one step: the journal only grows, and an entity is written once when nobody sends `StartEntity`. -/
theorem ShardKept.step (hS : KeepsMembers S st)
    {σ : Stored Shard τ} {J : List (Nat × Nat)} (h : ShardKept N S st key σ J) (op : ShardCall) (hf : op.Fits N)
    (hcase : KeepsInOrder S st ∨ OneRecipe J ∧ op.isStart = false) :
    ∃ l, ShardKept N S st key (σ.shardStep N S key op) (J ++ l) ∧ (OneRecipe J → op.isStart = false → OneRecipe (J ++ l)) := by
  obtain ⟨act, sys⟩ := σ
  have same : ∀ σ' : Stored Shard τ, ShardKept N S st key σ' J →
      ∃ l, ShardKept N S st key σ' (J ++ l) ∧ (OneRecipe J → op.isStart = false → OneRecipe (J ++ l)) :=
    fun σ' h' => ⟨[], by simpa using h', fun hj _ => by simpa using hj⟩
  have known : ∀ f : Shard → Shard, (∀ sh e, (f sh).recipeOf e = sh.recipeOf e) →
      ShardKept N S st key ⟨act.map f, sys⟩ J := by
    intro f hf
    refine ⟨h.kept, h.small, ?_⟩
    rintro sh hsh e
    obtain ⟨sh0, h0, rfl⟩ := Option.map_eq_some_iff.1 hsh
    rw [hf]; exact h.know sh0 h0 e
  cases op with
  | request r fails done =>
    cases act with
    | none => exact same _ h
    | some sh =>
      cases hs : sh.starts r with
      | none =>
        have := known (fun sh' => sh'.next (.request r true))
        simp only [Stored.shardStep, hs]
        refine same _ ⟨h.kept, h.small, ?_⟩
        rintro _ ⟨⟩ e
        rw [recipe_request hs]; exact h.know sh rfl e
      | some p =>
        obtain ⟨e, c⟩ := p
        simp only [Stored.shardStep, hs]
        have hr : r.entity = e ∧ r.recipe = some c := by
          unfold Shard.starts at hs
          split at hs
          · obtain ⟨c', hc, heq⟩ := Option.map_eq_some_iff.1 hs
            obtain ⟨rfl, rfl⟩ := Prod.mk.inj heq
            exact ⟨rfl, hc⟩
          · cases hs
        have hsm := hf c hr.2
        rw [hr.1] at hsm
        refine ⟨_, h.write hsm fails done _ (fun e' => (recipe_start hs e').2), fun hj _ => hj.add ?_ _⟩
        rw [← h.know sh rfl e]
        exact (recipe_start hs e).1
  | startEntity e c fails done =>
    cases act with
    | none => exact same _ h
    | some sh =>
      simp only [Stored.shardStep]
      exact ⟨_, h.write hf fails done _ (fun e' => recipe_startEntity sh e c e'), fun _ hx => by simp [ShardCall.isStart] at hx⟩
  | started t => exact same _ (known (fun sh => sh.next (.started t)) fun sh e => recipe_started sh t e)
  | startFailed t => exact same _ (known (fun sh => sh.next (.startFailed t)) fun sh e => recipe_startFailed sh t e)
  | childStopped x i => exact same _ (known (fun sh => sh.next (.childStopped x i)) fun sh e => recipe_childStopped sh x i e)
  | restart =>
    rcases hcase with hcase | ⟨hj, _⟩
    · have h1 := h.found_eq hcase
      simp only at h1
      simp only [Stored.shardStep, h1]
      refine same _ ⟨h.kept.restart _, h.small, ?_⟩
      rintro _ ⟨⟩ e
      exact (boot_starts J e).1
    · obtain ⟨J', h1, h2⟩ := h.found hS
      simp only at h1
      simp only [Stored.shardStep, h1]
      refine same _ ⟨h.kept.restart _, h.small, ?_⟩
      rintro _ ⟨⟩ e
      rw [← lastStart_congr hj h2 e]
      exact (boot_starts J' e).1
  | elsewhere pid op =>
    simp only [Stored.shardStep]
    split
    · exact same _ h
    · rename_i hpid
      exact same _ ⟨h.kept.other hpid op, h.small, h.know⟩

theorem Stored.shardRun_append (σ : Stored Shard τ) (a b : List ShardCall) :
    σ.shardRun N S key (a ++ b) = (σ.shardRun N S key a).shardRun N S key b := by simp [Stored.shardRun]

theorem ShardKept.run (hS : KeepsMembers S st) {σ : Stored Shard τ} {J : List (Nat × Nat)}
    (h : ShardKept N S st key σ J) (ops : List ShardCall) (hf : ∀ op ∈ ops, op.Fits N)
    (hcase : KeepsInOrder S st ∨ OneRecipe J ∧ ∀ op ∈ ops, op.isStart = false) :
    ∃ l, ShardKept N S st key (σ.shardRun N S key ops) (J ++ l) ∧
      (OneRecipe J → (∀ op ∈ ops, op.isStart = false) → OneRecipe (J ++ l)) := by
  induction ops generalizing σ J with
  | nil => exact ⟨[], by simpa [Stored.shardRun] using h, fun hj _ => by simpa using hj⟩
  | cons op ops ih =>
    obtain ⟨l, h1, h2⟩ := h.step hS op (hf op (by simp)) (hcase.imp id fun x => ⟨x.1, x.2 op (by simp)⟩)
    obtain ⟨l', h3, h4⟩ := ih h1 (fun o ho => hf o (by simp [ho]))
      (hcase.imp id fun x => ⟨h2 x.1 (x.2 op (by simp)), fun o ho => x.2 o (by simp [ho])⟩)
    refine ⟨l ++ l', ?_, fun hj hn => ?_⟩
    · rw [← List.append_assoc]; exact h3
    · rw [← List.append_assoc]
      exact h4 (h2 hj (hn op (by simp))) fun o ho => hn o (by simp [ho])

/-- **C95.** On Redis and in memory, for every history of requests, retried writes, losses of the node and use of the
storage by others: a shard that is started where one ran (or was stopped) knows the same entities with the same recipes,
and starts each of them once. The hypothesis that nobody sends `StartEntity` is necessary on Redis
(`C95_start_refuted`). -/
theorem C95_shard_partial (hS : KeepsMembers S st) (ops : List ShardCall) (hf : ∀ op ∈ ops, op.Fits N)
    (hn : ∀ op ∈ ops, op.isStart = false) (sh : Shard)
    (h : ((Stored.init st).shardRun N S key ops).actor = some sh) :
    ∃ sh', ((Stored.init st).shardRun N S key (ops ++ [.restart])).actor = some sh' ∧
      ∀ e, sh'.recipeOf e = sh.recipeOf e ∧ sh'.startsUnderWay e = if (sh.recipeOf e).isSome then 1 else 0 := by
  have h0 : OneRecipe [] := fun _ _ _ h => by simp at h
  obtain ⟨J, hJ, hone⟩ := (ShardKept.init (N := N) (S := S) (st := st) (key := key)).run hS ops hf (.inr ⟨h0, hn⟩)
  simp only [List.nil_append] at hJ hone
  obtain ⟨J', h1, h2⟩ := hJ.found hS
  refine ⟨Shard.boot (J'.map fun p => JEntry.start p.1 p.2), ?_, fun e => ?_⟩
  · rw [Stored.shardRun_append]
    simp only [Stored.shardRun, List.foldl_cons, List.foldl_nil, Stored.shardStep]
    simp only [Stored.shardRun] at h1
    rw [h1]; rfl
  · have hb := boot_starts J' e
    rw [lastStart_congr (hone h0 hn) h2 e, ← hJ.know sh h e] at hb
    exact hb

/-- **C95.** In memory, also when somebody sends `StartEntity`. -/
theorem C95_shard_memory (hS : KeepsInOrder S st) (ops : List ShardCall) (hf : ∀ op ∈ ops, op.Fits N) (sh : Shard)
    (h : ((Stored.init st).shardRun N S key ops).actor = some sh) :
    ∃ sh', ((Stored.init st).shardRun N S key (ops ++ [.restart])).actor = some sh' ∧
      ∀ e, sh'.recipeOf e = sh.recipeOf e ∧ sh'.startsUnderWay e = if (sh.recipeOf e).isSome then 1 else 0 := by
  obtain ⟨J, hJ, _⟩ := (ShardKept.init (N := N) (S := S) (st := st) (key := key)).run hS.members ops hf (.inl hS)
  simp only [List.nil_append] at hJ
  have h1 := hJ.found_eq hS
  refine ⟨Shard.boot (J.map fun p => JEntry.start p.1 p.2), ?_, fun e => ?_⟩
  · rw [Stored.shardRun_append]
    simp only [Stored.shardRun, List.foldl_cons, List.foldl_nil, Stored.shardStep]
    simp only [Stored.shardRun] at h1
    rw [h1]; rfl
  · have hb := boot_starts J e
    rw [← hJ.know sh h e] at hb
    exact hb

/-- the calls as operations of the shard alone. -/
def ShardCall.alone : ShardCall → Option ShardOp
  | .request r _ _ => some (.request r true)
  | .startEntity e c _ _ => some (.startEntity e c true)
  | .started t => some (.started t)
  | .startFailed t => some (.startFailed t)
  | .childStopped e i => some (.childStopped e i)
  | .restart => none
  | .elsewhere _ _ => none

/-- the shard is not started anew, and the node is not lost during a write. -/
def ShardCall.goesOn : ShardCall → Bool
  | .request _ _ done => done
  | .startEntity _ _ _ done => done
  | .restart => false
  | _ => true

omit st in
/-- **C95.** From one start to the next a shard is the one of C43 to C49 step by step, with writes that succeed, whatever the
storage does: attempts that fail are not noticed. -/
theorem C95_shard_same (σ : Stored Shard τ) (sh : Shard) (h : σ.actor = some sh) (ops : List ShardCall)
    (hg : ∀ op ∈ ops, op.goesOn = true) :
    (σ.shardRun N S key ops).actor = some (sh.run (ops.filterMap ShardCall.alone)) := by
  induction ops generalizing σ sh with
  | nil => exact h
  | cons op ops ih =>
    have hop := hg op (by simp)
    have step : (σ.shardStep N S key op).actor = some (sh.run (([op] : List ShardCall).filterMap ShardCall.alone)) := by
      cases op with
      | request r fails done =>
        simp only [ShardCall.goesOn] at hop
        subst hop
        simp only [Stored.shardStep, h]
        split <;> rfl
      | startEntity e c fails done =>
        simp only [ShardCall.goesOn] at hop
        subst hop
        simp only [Stored.shardStep, h]
        rfl
      | started t => simp only [Stored.shardStep, h]; rfl
      | startFailed t => simp only [Stored.shardStep, h]; rfl
      | childStopped e i => simp only [Stored.shardStep, h]; rfl
      | restart => simp [ShardCall.goesOn] at hop
      | elsewhere pid op =>
        simp only [Stored.shardStep]
        split <;> exact h
    have := ih (σ.shardStep N S key op) _ step (fun o ho => hg o (by simp [ho]))
    rw [show σ.shardRun N S key (op :: ops) = (σ.shardStep N S key op).shardRun N S key ops from rfl, this]
    rw [show op :: ops = [op] ++ ops from rfl, List.filterMap_append]
    simp [Shard.run, List.foldl_append]

/-- **C95.** An entity once known to a running shard is known, with its first recipe, to every shard started later. -/
theorem C95_shard_forever_partial (hS : KeepsMembers S st) (a b : List ShardCall) (hf : ∀ op ∈ a ++ b, op.Fits N)
    (hn : ∀ op ∈ a ++ b, op.isStart = false) (sh : Shard)
    (h : ((Stored.init st).shardRun N S key a).actor = some sh) (e c : Nat) (hk : sh.recipeOf e = some c) :
    ∃ sh', ((Stored.init st).shardRun N S key (a ++ b ++ [.restart])).actor = some sh' ∧ sh'.recipeOf e = some c := by
  have h0 : OneRecipe [] := fun _ _ _ h => by simp at h
  have hna : ∀ op ∈ a, op.isStart = false := fun op ho => hn op (List.mem_append_left _ ho)
  have hnb : ∀ op ∈ b, op.isStart = false := fun op ho => hn op (List.mem_append_right _ ho)
  obtain ⟨J, hJ, hone⟩ := (ShardKept.init (N := N) (S := S) (st := st) (key := key)).run hS a
    (fun op ho => hf op (List.mem_append_left _ ho)) (.inr ⟨h0, hna⟩)
  simp only [List.nil_append] at hJ hone
  obtain ⟨l, hl, honel⟩ := hJ.run hS b (fun op ho => hf op (List.mem_append_right _ ho)) (.inr ⟨hone h0 hna, hnb⟩)
  obtain ⟨J', h1, h2⟩ := hl.found hS
  refine ⟨Shard.boot (J'.map fun p => JEntry.start p.1 p.2), ?_, ?_⟩
  · rw [Stored.shardRun_append, Stored.shardRun_append]
    simp only [Stored.shardRun, List.foldl_cons, List.foldl_nil, Stored.shardStep] at h1 ⊢
    rw [h1]; rfl
  · have hone' := honel (hone h0 hna) hnb
    have := (boot_starts J' e).1
    rw [lastStart_congr hone' h2 e] at this
    show ((Shard.boot _).entities.get e).map Entity.recipe = some c
    rw [this, lastStart_iff hone']
    refine List.mem_append_left _ (lastStart_mem ?_)
    rw [← hJ.know sh h e]; exact hk

end

/-- **C95.** Both storages satisfy what the theorems ask of a storage, from when they are empty. -/
theorem C95_storages (hashtags : Bool) (pre : String) :
    KeepsInOrder Persist.memStorage (fun _ => none) ∧
    KeepsMembers Persist.memStorage (fun _ => none) ∧
    KeepsMembers (Persist.redisStorage (Persist.redisKey hashtags pre)) (fun _ => []) :=
  ⟨Persist.mem_keeps, Persist.mem_keeps.members, Persist.redis_keeps hashtags pre⟩

/-! ### Cases -/

/-- entity `e` is called `aa…a`, recipe `c` is `c` zero bytes. -/
def unary : Naming where
  id e := String.ofList (List.replicate e 'a')
  ofId s := some s.length
  recipe c := List.replicate c 0
  ofRecipe b := some b.length
  ofId_id e := by simp
  ofRecipe_recipe c := by simp

def onRedis : Stored Shard Persist.RedisStore → List ShardCall → Stored Shard Persist.RedisStore :=
  Stored.shardRun unary (Persist.redisStorage (Persist.redisKey false "")) "k"

-- a shard with three entities, one write stored twice, a start on another node in between
example : ((onRedis (Stored.init fun _ => []) [.restart, .request ⟨1, 1, some 3, true⟩ [true, false] true,
    .request ⟨2, 2, some 1, true⟩ [] true, .restart, .request ⟨3, 3, some 0, true⟩ [] true, .request ⟨4, 1, some 9, true⟩ [] true,
    .elsewhere "j" (.persist ⟨"x", []⟩ .ok)]).actor.map fun sh => [1, 2, 3, 4].map sh.recipeOf) =
      some [some 3, some 1, some 0, none] := by decide +kernel

example : ((onRedis (Stored.init fun _ => []) [.restart, .request ⟨1, 1, some 3, true⟩ [true, false] true,
    .request ⟨2, 2, some 1, true⟩ [] true, .restart, .request ⟨3, 3, some 0, true⟩ [] true, .request ⟨4, 1, some 9, true⟩ [] true,
    .elsewhere "j" (.persist ⟨"x", []⟩ .ok), .restart]).actor.map fun sh => [1, 2, 3, 4].map sh.recipeOf) =
      some [some 3, some 1, some 0, none] := by decide +kernel

example : ∀ op ∈ [ShardCall.restart, .request ⟨1, 1, some 3, true⟩ [true, false] true, .request ⟨2, 2, some 1, true⟩ [] true],
    op.Fits unary := by
  intro op h
  simp only [List.mem_cons, List.not_mem_nil, or_false] at h
  rcases h with rfl | rfl | rfl
  · trivial
  · rintro c ⟨⟩; decide +kernel
  · rintro c ⟨⟩; decide +kernel

-- shards 7 and 8, the write of 8 stored twice, a start, shard 9, the node lost while shard 10 is written
example :
    let ops : List CoordCall := [.restart 1 [(2, true)], .allocate 8 [true] true, .allocate 7 [] true, .restart 2 [(1, true)],
      .allocate 9 [false] true, .other (.rebalanceShards [7]), .allocate 10 [] false, .restart 1 [(2, true)]]
    let S := Persist.redisStorage (Persist.redisKey true "p")
    (((Stored.init fun _ => []).coordRun S "k" ops).actor.map fun c => [7, 8, 9, 10].map fun s => (c.shards.get s).isSome)
      = some [true, true, true, false] ∧
    ((Stored.init fun _ => []).coordAnswers S "k" ops).length = 3 := by decide +kernel

/-- **C95 fails** on Redis when somebody sends `StartEntity` for an entity that has another recipe: after the first start
finds events, the new event is given the number of the newest one, and sorts before it when its bytes do. The shard knows
recipe 1; started again it knows recipe 2, the old one. -/
theorem C95_start_refuted :
    ((onRedis (Stored.init fun _ => []) [.restart, .request ⟨1, 1, some 2, true⟩ [] true, .restart,
      .startEntity 1 1 [] true]).actor.map fun sh => sh.recipeOf 1) = some (some 1) ∧
    ((onRedis (Stored.init fun _ => []) [.restart, .request ⟨1, 1, some 2, true⟩ [] true, .restart,
      .startEntity 1 1 [] true, .restart]).actor.map fun sh => sh.recipeOf 1) = some (some 2) := by decide +kernel

/-- a coordinator whose node is lost after the write and before the answer leaves a shard nobody was told about: it is
known after the next start. The condition `completes` of `C95_coordinator_exact` is necessary. -/
theorem C95_lost_node_refuted :
    let ops : List CoordCall := [.restart 1 [], .allocate 8 [true] false]
    let S := Persist.redisStorage (Persist.redisKey false "")
    (Stored.init fun _ => []).coordAnswers S "k" ops = [] ∧
    (((Stored.init fun _ => []).coordRun S "k" (ops ++ [.restart 1 []])).actor.map fun c => c.shards.get 8) = some (some 1) := by
  decide +kernel

end Verif.Sharding
