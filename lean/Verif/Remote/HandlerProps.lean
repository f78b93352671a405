import Verif.Remote.HandlerModel
import Verif.Remote.CodecProps

/-!
# C35: a message from another node has exactly one outcome
-/

namespace Verif.Remote
open Verif.Proto Verif.Proto.Network

section
variable {A M R : Type}

/-! ### Specification -/

/-- the actor is first found by the lookup numbered `k`, `1 ≤ k ≤ 9`. -/
def FoundAt (find : Nat → Option A) (k : Nat) (a : A) : Prop :=
  1 ≤ k ∧ k ≤ 9 ∧ find k = some a ∧ ∀ j, 1 ≤ j → j < k → find j = none

/-- none of the nine lookups finds the actor. -/
def Missing (find : Nat → Option A) : Prop := ∀ j, 1 ≤ j → j ≤ 9 → find j = none

/-- what a message that reaches actor `a` must lead to. -/
inductive Outcome (b : Behav A M R) (a : A) (buf : Bytes) : List (A × M) → Except ActorRefErr Bytes → Prop
  | handled {m r bs} (hd : b.decode buf = .ok m) (hs : b.send a m = .ok r) (he : b.encode r = .ok bs) :
      Outcome b a buf [(a, m)] (.ok bs)
  | undecodable {e} (hd : b.decode buf = .error e) : Outcome b a buf [] (.error (.deserialisation e))
  | unencodable {m r e} (hd : b.decode buf = .ok m) (hs : b.send a m = .ok r)
      (he : b.encode r = .error e) : Outcome b a buf [(a, m)] (.error (.serialisation e))
  | failed {m e} (hd : b.decode buf = .ok m) (hs : b.send a m = .error e) :
      Outcome b a buf [(a, m)] (.error .resultChannelClosed)

/-! ### Lemmas -/

theorem found_or_missing (find : Nat → Option A) : Missing find ∨ ∃ k a, FoundAt find k a := by
  by_cases h : Missing find
  · exact .inl h
  · right
    have : ∃ j, 1 ≤ j ∧ j ≤ 9 ∧ find j ≠ none := by
      unfold Missing at h
      apply Classical.byContradiction
      intro hn
      apply h
      intro j h1 h2
      apply Classical.byContradiction
      intro h3
      exact hn ⟨j, h1, h2, h3⟩
    obtain ⟨j, h1, h2, h3⟩ := this
    clear h
    induction j using Nat.strongRecOn with
    | ind j ih =>
      by_cases hf : ∃ i, 1 ≤ i ∧ i < j ∧ find i ≠ none
      · obtain ⟨i, hi1, hi2, hi3⟩ := hf
        exact ih i hi2 hi1 (by omega) hi3
      · obtain ⟨a, ha⟩ := Option.ne_none_iff_exists'.1 h3
        refine ⟨j, a, h1, h2, ha, ?_⟩
        intro i hi1 hi2
        apply Classical.byContradiction
        intro hn
        exact hf ⟨i, hi1, hi2, hn⟩

theorem deliverTo_outcome (b : Behav A M R) (a : A) (buf : Bytes) :
    Outcome b a buf (deliverTo b a buf).1 (recv (deliverTo b a buf).2) := by
  unfold deliverTo
  split
  · rename_i e h; exact .undecodable h
  · rename_i m h
    split
    · rename_i e hs; exact .failed h hs
    · rename_i r hs
      split
      · rename_i bs he; exact .handled h hs he
      · rename_i e he; exact .unencodable h hs he

theorem handleAttempt_found (b : Behav A M R) (find : Nat → Option A) (id : String) (buf : Bytes)
    (k : Nat) (a : A) (hk : k ≤ 9) (hf : find k = some a) (n : Nat) (hn : 1 ≤ n) (hle : n ≤ k)
    (hbefore : ∀ j, n ≤ j → j < k → find j = none) :
    handleAttempt b find id buf n =
      ⟨k - n + 1, (deliverTo b a buf).1, (deliverTo b a buf).2⟩ := by
  obtain ⟨d, hd⟩ : ∃ d, d = k - n := ⟨_, rfl⟩
  induction d generalizing n with
  | zero =>
    obtain rfl : n = k := by omega
    unfold handleAttempt
    rw [hf]
    simp
  | succ d ih =>
    unfold handleAttempt
    rw [hbefore n (by omega) (by omega)]
    have h1 : ¬ (n + 1 ≥ maxRetries) := by unfold maxRetries; omega
    simp only [h1, if_false]
    rw [ih (n + 1) (by omega) (by omega) (fun j h1 h2 => hbefore j (by omega) h2) (by omega)]
    simp only [Attempted.mk.injEq, and_self, and_true]
    omega

theorem handleAttempt_missing (b : Behav A M R) (find : Nat → Option A) (id : String) (buf : Bytes)
    (n : Nat) (hn : 1 ≤ n) (hle : n ≤ 9) (hm : ∀ j, n ≤ j → j ≤ 9 → find j = none) :
    handleAttempt b find id buf n = ⟨10 - n, [], some (.error (.notFound id))⟩ := by
  obtain ⟨d, hd⟩ : ∃ d, d = 9 - n := ⟨_, rfl⟩
  induction d generalizing n with
  | zero =>
    obtain rfl : n = 9 := by omega
    unfold handleAttempt
    rw [hm 9 (by omega) (by omega)]
    simp [maxRetries]
  | succ d ih =>
    unfold handleAttempt
    rw [hm n (by omega) (by omega)]
    have h1 : ¬ (n + 1 ≥ maxRetries) := by unfold maxRetries; omega
    simp only [h1, if_false]
    rw [ih (n + 1) (by omega) (by omega) (fun j h1 h2 => hm j (by omega) h2) (by omega)]
    simp only [Attempted.mk.injEq, and_self, and_true]
    omega

/-! ### Properties -/

/-- **C35.** If the actor is found, the message is delivered to that actor at most once (exactly once
if it decodes) and the outcome is the one the specification demands. -/
theorem C35_found (b : Behav A M R) (find : Nat → Option A) (ident id : String) (buf : Bytes)
    (k : Nat) (a : A) (h : FoundAt find k a) :
    Outcome b a buf (handleAttempt b find id buf 1).delivered
      (handleMessage (some b) find ident id buf) ∧
    (handleAttempt b find id buf 1).lookups = k := by
  obtain ⟨h1, h2, h3, h4⟩ := h
  have he := handleAttempt_found b find id buf k a h2 h3 1 (by omega) h1 h4
  simp only [handleMessage, he]
  exact ⟨deliverTo_outcome b a buf, by omega⟩

/-- **C35.** If it is not found by nine lookups, nothing is delivered and the outcome names the
missing actor. -/
theorem C35_missing (b : Behav A M R) (find : Nat → Option A) (ident id : String) (buf : Bytes)
    (h : Missing find) :
    handleMessage (some b) find ident id buf = .error (.notFound id) ∧
    (handleAttempt b find id buf 1).delivered = [] ∧
    (handleAttempt b find id buf 1).lookups = 9 := by
  have he := handleAttempt_missing b find id buf 1 (by omega) (by omega) h
  rw [he]
  exact ⟨by simp [handleMessage, he, recv], rfl, rfl⟩

/-- **C35.** The actor is looked up at least once and at most nine times, whatever the registry does. -/
theorem C35_bounded_lookups (b : Behav A M R) (find : Nat → Option A) (id : String) (buf : Bytes) :
    1 ≤ (handleAttempt b find id buf 1).lookups ∧ (handleAttempt b find id buf 1).lookups ≤ 9 := by
  rcases found_or_missing find with h | ⟨k, a, h⟩
  · rw [(C35_missing b find "" id buf h).2.2]; omega
  · rw [(C35_found b find "" id buf k a h).2]
    exact ⟨h.1, h.2.1⟩

/-- **C35.** The error tells the causes apart: each error arises in exactly one circumstance. -/
theorem C35_error_says_why (b : Behav A M R) (find : Nat → Option A) (ident id : String)
    (buf : Bytes) (e : ActorRefErr) :
    handleMessage (some b) find ident id buf = .error e ↔
      (Missing find ∧ e = .notFound id) ∨
      ∃ k a, FoundAt find k a ∧
        ((∃ x, b.decode buf = .error x ∧ e = .deserialisation x) ∨
         (∃ m r x, b.decode buf = .ok m ∧ b.send a m = .ok r ∧ b.encode r = .error x ∧
            e = .serialisation x) ∨
         (∃ m x, b.decode buf = .ok m ∧ b.send a m = .error x ∧ e = .resultChannelClosed)) := by
  constructor
  · intro h
    rcases found_or_missing find with hm | ⟨k, a, hf⟩
    · left
      rw [(C35_missing b find ident id buf hm).1] at h
      cases h
      exact ⟨hm, rfl⟩
    · right
      have ho := (C35_found b find ident id buf k a hf).1
      rw [h] at ho
      refine ⟨k, a, hf, ?_⟩
      generalize hd : (handleAttempt b find id buf 1).delivered = d at ho
      cases ho with
      | undecodable h1 => exact .inl ⟨_, h1, rfl⟩
      | unencodable h1 hs he => exact .inr (.inl ⟨_, _, _, h1, hs, he, rfl⟩)
      | failed h1 hs => exact .inr (.inr ⟨_, _, h1, hs, rfl⟩)
  · rintro (⟨hm, rfl⟩ | ⟨k, a, hf, h⟩)
    · exact (C35_missing b find ident id buf hm).1
    · have ho := (C35_found b find ident id buf k a hf).1
      generalize hd : (handleAttempt b find id buf 1).delivered = d at ho
      generalize handleMessage (some b) find ident id buf = o at ho ⊢
      rcases h with ⟨x, h1, rfl⟩ | ⟨m, r, x, h1, h2, h3, rfl⟩ | ⟨m, x, h1, h2, rfl⟩ <;>
        cases ho <;> simp_all

/-- **C35.** Success means an actor found, decoded message, handled, encoded result. -/
theorem C35_success (b : Behav A M R) (find : Nat → Option A) (ident id : String)
    (buf bs : Bytes) :
    handleMessage (some b) find ident id buf = .ok bs ↔
      ∃ k a m r, FoundAt find k a ∧ b.decode buf = .ok m ∧ b.send a m = .ok r ∧ b.encode r = .ok bs := by
  constructor
  · intro h
    rcases found_or_missing find with hm | ⟨k, a, hf⟩
    · rw [(C35_missing b find ident id buf hm).1] at h; cases h
    · have ho := (C35_found b find ident id buf k a hf).1
      rw [h] at ho
      generalize hd : (handleAttempt b find id buf 1).delivered = d at ho
      cases ho with
      | handled h1 hs he => exact ⟨k, a, _, _, hf, h1, hs, he⟩
  · rintro ⟨k, a, m, r, hf, h1, h2, h3⟩
    have ho := (C35_found b find ident id buf k a hf).1
    generalize hd : (handleAttempt b find id buf 1).delivered = d at ho
    generalize handleMessage (some b) find ident id buf = o at ho ⊢
    cases ho <;> simp_all

/-- **C35.** A message type nobody registered is reported as unsupported. -/
theorem C35_no_handler (find : Nat → Option A) (ident id : String) (buf : Bytes) :
    handleMessage (none : Option (Behav A M R)) find ident id buf = .error (.notSupported id ident "") :=
  rfl

/-- **C35.** Sending straight to a local reference: one result if asked for, none otherwise, and the
message is delivered at most once, and only if it decodes and the reference has the right type. -/
theorem C35_direct (b : Behav A M R) (actor : Option A) (buf : Bytes) (wants : Bool) :
    (handleDirect b actor buf wants).2.length = (if wants then 1 else 0) ∧
    ((handleDirect b actor buf wants).1 = [] ↔
      (actor = none ∨ ∃ e, b.decode buf = .error e)) ∧
    ((handleDirect b actor buf wants).1 ≠ [] →
      ∃ a m, actor = some a ∧ b.decode buf = .ok m ∧ (handleDirect b actor buf wants).1 = [(a, m)]) := by
  unfold handleDirect
  rcases actor with _ | a <;> rcases hd : b.decode buf with e | m <;> cases wants <;> simp
  rcases hs : b.send a m with e | r
  · simp
  · simp only
    rcases he : b.encode r with e | bs <;> simp

/-- **C35.** What the direct result says. -/
theorem C35_direct_result (b : Behav A M R) (actor : Option A) (buf : Bytes)
    (x : Except ActorRefErr Bytes) (hx : (handleDirect b actor buf true).2 = [x]) :
    (∃ a m r bs, actor = some a ∧ b.decode buf = .ok m ∧ b.send a m = .ok r ∧
        b.encode r = .ok bs ∧ x = .ok bs) ∨
    (∃ e, b.decode buf = .error e ∧ x = .error (.deserialisation e)) ∨
    (actor = none ∧ (∃ m, b.decode buf = .ok m) ∧ x = .error .invalidRef) ∨
    (∃ a m r e, actor = some a ∧ b.decode buf = .ok m ∧ b.send a m = .ok r ∧
        b.encode r = .error e ∧ x = .error (.serialisation e)) ∨
    (∃ a m e, actor = some a ∧ b.decode buf = .ok m ∧ b.send a m = .error e ∧ x = .error e) := by
  unfold handleDirect at hx
  rcases actor with _ | a <;> rcases hd : b.decode buf with e | m <;> simp [hd] at hx
  · right; left; exact ⟨e, rfl, hx.symm⟩
  · right; right; left; exact ⟨rfl, ⟨m, rfl⟩, hx.symm⟩
  · right; left; exact ⟨e, rfl, hx.symm⟩
  · rcases hs : b.send a m with e | r <;> simp only [hs] at hx
    · right; right; right; right; exact ⟨a, m, e, rfl, rfl, hs, by simpa using hx.symm⟩
    · rcases he : b.encode r with e | bs <;> simp only [he] at hx
      · right; right; right; left; exact ⟨a, m, r, e, rfl, rfl, hs, he, by simpa using hx.symm⟩
      · left; exact ⟨a, m, r, bs, rfl, rfl, hs, he, by simpa using hx.symm⟩

/-! ### The reply -/

/-- what a reply tells the requesting node: for which request, and what (after the error codec). -/
def Reply.says : Reply → Option (String × Except ActorRefErr Bytes)
  | .onSession (.result e) => some (e.messageId, .ok e.result)
  | .toNode _ (.err e) => (e.error.bind ActorRefErr.fromProto).map fun x => (e.messageId, .error x)
  | .completeLocal mid e => some (mid, .error e)
  | _ => none

/-- **C35.** A request that wants a response and has a well-formed id gets exactly one reply, for that
id, with the outcome. An error is sent to the node the request came from. -/
theorem C35_one_reply (norm : String → Option String) (self : UInt64)
    (handlers : String → Option (Behav A M R)) (find : Nat → Option A) (msg : MessageRequest)
    (mid : String) (hid : norm msg.messageId = some mid) (hr : msg.requiresResponse = true) :
    ∃ r, sessionHandleMessage norm self handlers find msg = [r] ∧
      r.says = some (mid, handleMessage (handlers msg.handlerType) find msg.handlerType msg.actorId
        msg.message) ∧
      ∀ n e, r = .toNode n e → n = msg.originNodeId := by
  unfold sessionHandleMessage sessionReply
  rcases handleMessage (handlers msg.handlerType) find msg.handlerType msg.actorId msg.message
    with e | bs
  · simp only [hid, notifyRpcErr]
    split
    · exact ⟨_, rfl, rfl, by simp⟩
    · refine ⟨_, rfl, ?_, ?_⟩
      · simp [Reply.says, C21_error_roundtrip]
      · simp
  · simp only [hr, if_true, hid]
    exact ⟨_, rfl, rfl, by simp⟩

/-- **C35.** At most one reply in any case, and none to a successful notification. -/
theorem C35_at_most_one_reply (norm : String → Option String) (self : UInt64)
    (handlers : String → Option (Behav A M R)) (find : Nat → Option A) (msg : MessageRequest) :
    (sessionHandleMessage norm self handlers find msg).length ≤ 1 ∧
    (msg.requiresResponse = false → ∀ bs, handleMessage (handlers msg.handlerType) find
        msg.handlerType msg.actorId msg.message = .ok bs →
      sessionHandleMessage norm self handlers find msg = []) := by
  unfold sessionHandleMessage sessionReply
  rcases handleMessage (handlers msg.handlerType) find msg.handlerType msg.actorId msg.message
    with e | bs
  · simp only
    split <;> simp
  · simp only
    split
    · split <;> simp_all
    · simp

end

/-- The full claim over requests: every request that wants a response gets a reply. -/
def C35_full : Prop :=
  ∀ (norm : String → Option String) (self : UInt64) (handlers : String → Option (Behav Nat Nat Nat))
    (find : Nat → Option Nat) (msg : MessageRequest), msg.requiresResponse = true →
    ∃ r, sessionHandleMessage norm self handlers find msg = [r] ∧ r ≠ .panicked

/-- **C35 refuted for malformed ids.** The task panics before anything is sent. -/
theorem C35_malformed_id_refuted : ¬ C35_full := by
  intro h
  obtain ⟨r, h1, h2⟩ := h (fun _ => none) 1 (fun _ => none) (fun _ => none)
    { messageId := "x", requiresResponse := true } rfl
  simp only [sessionHandleMessage, sessionReply, handleMessage, List.cons.injEq, and_true] at h1
  exact h2 h1.symm

/-- **C35 (causes), refuted for the actor's own error.** Through `handle_attempt` the error of the
actor is lost: the caller sees only a closed channel, whatever the actor reported. -/
theorem C35_actor_error_lost_refuted :
    ∃ (b b' : Behav Unit Unit Unit), b.send () () ≠ b'.send () () ∧
      ∀ find ident id buf, handleMessage (some b) find ident id buf =
        handleMessage (some b') find ident id buf := by
  refine ⟨⟨fun _ => .ok (), fun _ _ => .error .actorUnavailable, fun _ => .ok []⟩,
    ⟨fun _ => .ok (), fun _ _ => .error .resultSendFailed, fun _ => .ok []⟩, by simp, ?_⟩
  intro find ident id buf
  rcases found_or_missing find with hm | ⟨k, a, hf⟩
  · rw [(C35_missing _ find ident id buf hm).1, (C35_missing _ find ident id buf hm).1]
  · rw [(C35_error_says_why _ find ident id buf .resultChannelClosed).2
      (.inr ⟨k, a, hf, .inr (.inr ⟨(), .actorUnavailable, rfl, rfl, rfl⟩)⟩),
      (C35_error_says_why _ find ident id buf .resultChannelClosed).2
      (.inr ⟨k, a, hf, .inr (.inr ⟨(), .resultSendFailed, rfl, rfl, rfl⟩)⟩)]

/-! ### Which actor is found -/

theorem cache_get_add (c : RefCache) (id id' : String) (i : Inst) :
    (c.add id i).get id' = if id' = id then some i else c.get id' := by
  unfold RefCache.add RefCache.get
  by_cases h : id' = id
  · subst h; simp
  · have h' : ¬ id = id' := fun e => h e.symm
    simp only [List.find?_cons, h', decide_false, h, if_false]
    congr 1
    rw [List.find?_filter]
    congr 1
    funext p
    by_cases hp : p.1 = id' <;> simp [hp, h]

theorem usable_spec {c : RefCache} {valid : Inst → Bool} {ty : Nat} {id : String} {i : Inst}
    (h : c.usable valid ty id = some i) : c.get id = some i ∧ i.ty = ty ∧ valid i = true := by
  unfold RefCache.usable at h
  cases hg : c.get id with
  | none => rw [hg] at h; simp at h
  | some j =>
    rw [hg] at h
    simp only [Option.bind_some] at h
    split at h
    · cases h; rename_i hh; exact ⟨rfl, hh.1, hh.2⟩
    · cases h

theorem lookups_len (c : RefCache) (ls : List Lookup) : (lookups c ls).length = ls.length := by
  induction ls generalizing c with
  | nil => rfl
  | cons l ls ih => simp [lookups, ih]

theorem lookups_origin (c : RefCache) (ls : List Lookup) (n : Nat) (i : Inst)
    (h : (lookups c ls)[n]? = some (some i)) :
    ∃ l, ls[n]? = some l ∧
      (l.reg = some i ∨
        (l.valid i = true ∧ i.ty = l.ty ∧
          (c.get l.id = some i ∨ ∃ m l', m < n ∧ ls[m]? = some l' ∧ l'.id = l.id ∧ l'.reg = some i))) := by
  induction ls generalizing c n with
  | nil => simp [lookups] at h
  | cons l ls ih =>
    cases n with
    | zero =>
      refine ⟨l, rfl, ?_⟩
      simp only [lookups, List.getElem?_cons_zero, Option.some.injEq] at h
      unfold getActorRef at h
      split at h
      · rename_i j hj
        simp only [Option.some.injEq] at h; subst h
        obtain ⟨h1, h2, h3⟩ := usable_spec hj
        exact .inr ⟨h3, h2, .inl h1⟩
      · split at h
        · rename_i j hj
          simp only [Option.some.injEq] at h; subst h
          exact .inl hj
        · cases h
    | succ n =>
      simp only [lookups, List.getElem?_cons_succ] at h
      obtain ⟨l', hl', hh⟩ := ih _ n h
      refine ⟨l', by simpa using hl', ?_⟩
      rcases hh with hh | ⟨h1, h2, h3⟩
      · exact .inl hh
      · right
        refine ⟨h1, h2, ?_⟩
        rcases h3 with h3 | ⟨m, l'', hm, hl'', h4, h5⟩
        · unfold getActorRef at h3
          split at h3
          · exact .inl h3
          · split at h3
            · rename_i j hj
              rw [cache_get_add] at h3
              split at h3
              · rename_i hid
                right
                exact ⟨0, l, by omega, rfl, hid.symm, by rw [hj]; exact h3⟩
              · exact .inl h3
            · exact .inl h3
        · right
          exact ⟨m + 1, l'', by omega, by simpa using hl'', h4, h5⟩

/-- **C35.** Soundness of the lookup over the life of a process: the actor found for an id is
registered under it now, or was registered under that id at an earlier lookup, has the wanted type and
still runs. -/
theorem C35_lookup_sound (ls : List Lookup) (n : Nat) (i : Inst)
    (h : (lookups [] ls)[n]? = some (some i)) :
    ∃ l, ls[n]? = some l ∧
      (l.reg = some i ∨
        (l.valid i = true ∧ i.ty = l.ty ∧
          ∃ m l', m < n ∧ ls[m]? = some l' ∧ l'.id = l.id ∧ l'.reg = some i)) := by
  obtain ⟨l, h1, h2⟩ := lookups_origin [] ls n i h
  refine ⟨l, h1, ?_⟩
  rcases h2 with h2 | ⟨h2, h3, h4⟩
  · exact .inl h2
  · rcases h4 with h4 | h4
    · simp [RefCache.get] at h4
    · exact .inr ⟨h2, h3, h4⟩

/-- **C35.** Completeness: a registered actor is always found (it or another running one of the same
type that was registered under that id before). -/
theorem C35_lookup_complete (ls : List Lookup) (n : Nat) (l : Lookup) (hl : ls[n]? = some l)
    (i : Inst) (hr : l.reg = some i) : ∃ j, (lookups [] ls)[n]? = some (some j) := by
  suffices ∀ c, ∃ j, (lookups c ls)[n]? = some (some j) from this []
  induction ls generalizing n with
  | nil => simp at hl
  | cons l' ls ih =>
    intro c
    cases n with
    | zero =>
      simp only [List.getElem?_cons_zero, Option.some.injEq] at hl
      subst hl
      simp only [lookups, List.getElem?_cons_zero, Option.some.injEq]
      unfold getActorRef
      split
      · exact ⟨_, rfl⟩
      · rw [hr]; exact ⟨_, rfl⟩
    | succ n =>
      simp only [List.getElem?_cons_succ] at hl
      simp only [lookups, List.getElem?_cons_succ]
      exact ih n hl _

/-- **C35.** If there is one actor system in the process and an actor runs under an id only while it
is the one registered (nobody else registered under that id later while it runs), the lookup is
exact. -/
theorem C35_lookup_exact_partial (ls : List Lookup)
    (hexcl : ∀ (m n : Nat) (l l' : Lookup) (i : Inst), m < n → ls[m]? = some l → ls[n]? = some l' → l.id = l'.id →
      l.reg = some i → l'.valid i = true → i.ty = l'.ty → l'.reg = some i)
    (n : Nat) (l : Lookup) (hl : ls[n]? = some l) : (lookups [] ls)[n]? = some l.reg := by
  have hlen : n < (lookups [] ls).length := by
    rw [lookups_len]
    exact (List.getElem?_eq_some_iff.1 hl).1
  have hget : (lookups [] ls)[n]? = some (lookups [] ls)[n] := List.getElem?_eq_getElem hlen
  cases ho : (lookups [] ls)[n] with
  | none =>
    rw [ho] at hget
    cases hr : l.reg with
    | none => exact hget
    | some i =>
      obtain ⟨j, hj⟩ := C35_lookup_complete ls n l hl i hr
      rw [hget] at hj; cases hj
  | some i =>
    rw [ho] at hget
    obtain ⟨l', hl', h⟩ := C35_lookup_sound ls n i hget
    rw [hl] at hl'; cases hl'
    rcases h with h | ⟨h1, h2, m, l', hm, hl', h3, h4⟩
    · rw [hget, h]
    · rw [hget, hexcl m n l' l i hm hl' hl h3 h4 h1 h2]

/-- **C35 refuted for two systems in one process.** The table of references is shared by all actor
systems of the process: a message for actor "a" of node 2 is given to actor "a" of node 1, although
node 2 has a running actor of that id. -/
theorem C35_shared_cache_refuted :
    ∃ ls : List Lookup, (∀ l ∈ ls, ∀ i, l.reg = some i → i.sys = l.sys ∧ l.valid i = true) ∧
      ∃ (n : Nat) (l : Lookup) (i : Inst), ls[n]? = some l ∧ (∃ j, l.reg = some j) ∧ (lookups [] ls)[n]? = some (some i) ∧
        i.sys ≠ l.sys :=
  ⟨[⟨1, 0, "a", some ⟨1, 0, 10⟩, fun _ => true⟩, ⟨2, 0, "a", some ⟨2, 0, 20⟩, fun _ => true⟩],
    by simp, 1, ⟨2, 0, "a", some ⟨2, 0, 20⟩, fun _ => true⟩, ⟨1, 0, 10⟩, rfl, ⟨_, rfl⟩, by
      simp [lookups, getActorRef, RefCache.usable, RefCache.get, RefCache.add], by decide⟩

/-! Concrete cases. -/

private def echo : Behav Nat Bytes Bytes :=
  { decode := fun bs => if bs = [0] then .error .deserializationErr else .ok bs
    send := fun a bs => if a = 9 then .error .actorUnavailable else .ok (bs ++ [1])
    encode := fun bs => if bs.length > 5 then .error .serializationErr else .ok bs }

private def late : Nat → Option Nat := fun n => if n < 4 then none else some 3

example : FoundAt late 4 3 := by
  refine ⟨by omega, by omega, rfl, ?_⟩
  intro j _ h; simp [late, h]
example : handleMessage (some echo) late "m" "a" [7] = .ok [7, 1] :=
  (C35_success echo late "m" "a" [7] [7, 1]).2
    ⟨4, 3, [7], [7, 1], ⟨by omega, by omega, rfl, fun j _ h => by simp [late, h]⟩, rfl, rfl, rfl⟩
example : Missing (fun _ => none : Nat → Option Nat) := fun _ _ _ => rfl
example : ∃ r, sessionHandleMessage (fun s => some s) 1 (fun _ => some echo) late
    { messageId := "7", actorId := "a", message := [0], requiresResponse := true, originNodeId := 2 } = [r] ∧
    r.says = some ("7", .error (.deserialisation .deserializationErr)) := by
  obtain ⟨r, h1, h2, _⟩ := C35_one_reply (fun s => some s) 1 (fun _ => some echo) late
    { messageId := "7", actorId := "a", message := [0], requiresResponse := true, originNodeId := 2 }
    "7" rfl rfl
  refine ⟨r, h1, ?_⟩
  rw [h2, (C35_error_says_why echo late "" "a" [0] (.deserialisation .deserializationErr)).2]
  exact .inr ⟨4, 3, ⟨by omega, by omega, rfl, fun j _ h => by simp [late, h]⟩,
    .inl ⟨.deserializationErr, rfl, rfl⟩⟩
example : lookups [] [⟨1, 0, "a", some ⟨1, 0, 10⟩, fun _ => true⟩,
    ⟨1, 0, "a", some ⟨1, 0, 11⟩, fun i => i.key != 10⟩] = [some ⟨1, 0, 10⟩, some ⟨1, 0, 11⟩] := by decide

end Verif.Remote
