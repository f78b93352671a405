import Verif.Remote.ClientModel

/-!
# C24, C25: buffered writes and reconnection
-/

namespace Verif.Remote
open Verif.Proto

/-- the messages written to the client, in order. -/
def writes (ops : List ClientOp) : List Bytes := ops.filterMap fun
  | .write bs => some bs
  | _ => none

theorem writes_snoc (ops : List ClientOp) (op : ClientOp) :
    writes (ops ++ [op]) = writes ops ++ writes [op] := by
  simp [writes, List.filterMap_append]

theorem crun_snoc (lim : Nat) (σ : Client) (ops : List ClientOp) (op : ClientOp) :
    σ.run lim (ops ++ [op]) = (σ.run lim ops).step lim op := by simp [Client.run]

/-! ### The buffer counter -/

def total (l : List Bytes) : Nat := (l.map List.length).sum

theorem flush_split (lim : Nat) (lasts : Option Nat) (l : List Bytes) :
    (flushLoop lim lasts l).1 ++ (flushLoop lim lasts l).2.1 = l := by
  induction l generalizing lasts with
  | nil => rfl
  | cons b r ih =>
    simp only [flushLoop]
    split
    · simp [ih]
    · rfl

theorem foldl_sub (l : List Bytes) (n : Nat) :
    l.foldl (fun n b => n - b.length) n = n - total l := by
  induction l generalizing n with
  | nil => simp [total]
  | cons b r ih => simp [ih, total, Nat.sub_sub]

theorem disc_buf (σ : Client) : σ.disconnected.buf = σ.buf ∧ σ.disconnected.bytes = σ.bytes ∧
    σ.disconnected.sent = σ.sent := by
  unfold Client.disconnected
  split
  · split <;> simp
  · simp
  · simp
  · simp

theorem flush_bytes (lim : Nat) (lasts : Option Nat) (σ : Client) (h : σ.bytes = total σ.buf) :
    (σ.flush lim lasts).bytes = total (σ.flush lim lasts).buf := by
  have hs := flush_split lim lasts σ.buf
  have ht : total σ.buf = total (flushLoop lim lasts σ.buf).1 + total (flushLoop lim lasts σ.buf).2.1 := by
    have := congrArg total hs
    rw [← this]; simp [total]
  simp only [Client.flush, foldl_sub, h, ht]
  omega

theorem step_bytes (lim : Nat) (σ : Client) (op : ClientOp) (h : σ.bytes = total σ.buf) :
    (σ.step lim op).bytes = total (σ.step lim op).buf := by
  have hb : ∀ bs, (σ.buffer bs).bytes = total (σ.buffer bs).buf := by
    intro bs; simp [Client.buffer, total, h]
  have hd : ∀ τ : Client, τ.bytes = total τ.buf → τ.disconnected.bytes = total τ.disconnected.buf := by
    intro τ ht; rw [(disc_buf τ).1, (disc_buf τ).2.1]; exact ht
  cases op with
  | breakLink => exact h
  | write bs =>
    simp only [Client.step, Client.write]
    split
    · exact hb bs
    · split
      · exact h
      · exact hd _ (hb bs)
    · exact hd _ h
    · exact h
  | loopEnds =>
    simp only [Client.step]
    split
    · exact h
    · split
      · exact h
      · exact hd _ h
  | connect o =>
    simp only [Client.step, Client.connect]
    split
    · exact h
    · split
      · exact h
      · exact h
      · cases o with
        | failed => exact hd _ h
        | closedEarly => exact h
        | identified lasts => exact flush_bytes lim lasts _ h

/-- **C24.** The byte counter always equals the bytes buffered, whatever happens. -/
theorem C24_byte_counter (lim : Nat) (ops : List ClientOp) :
    (Client.init.run lim ops).bytes = ((Client.init.run lim ops).buf.map List.length).sum := by
  induction ops using snoc_induction with
  | nil => rfl
  | snoc ops op ih => rw [crun_snoc]; exact step_bytes lim _ op ih

/-! ### Order -/

/-- frames the codec accepts. -/
def AllSendable (lim : Nat) (ops : List ClientOp) : Prop := ∀ bs, .write bs ∈ ops → bs.length ≤ lim

theorem flush_complete (lim : Nat) (lasts : Option Nat) (l : List Bytes) (h : ∀ b ∈ l, b.length ≤ lim)
    (hup : (flushLoop lim lasts l).2.2 = true) : (flushLoop lim lasts l).2.1 = [] := by
  induction l generalizing lasts with
  | nil => rfl
  | cons b r ih =>
    simp only [flushLoop] at hup ⊢
    split
    · rename_i hc
      rw [if_pos hc] at hup
      exact ih _ (fun x hx => h x (by simp [hx])) hup
    · rename_i hc
      rw [if_neg hc] at hup
      simp only at hup
      exfalso
      apply hc
      simp [canSend, hup, h b (by simp)]

structure CInv (lim : Nat) (ws : List Bytes) (σ : Client) : Prop where
  order : σ.gaveUp = false → σ.st ≠ .stuck → σ.sent ++ σ.buf = ws
  size : ∀ b ∈ σ.buf, b.length ≤ lim
  clear : σ.st = .connected → σ.up = true → σ.buf = []
  gave : σ.gaveUp = false → σ.st ≠ .terminated

theorem CInv.disc {lim : Nat} {ws : List Bytes} {σ : Client} (h : CInv lim ws σ) :
    CInv lim ws σ.disconnected := by
  unfold Client.disconnected
  split
  · rename_i n hst
    split
    · exact ⟨by simp, h.size, by simp, by simp⟩
    · exact ⟨fun hg _ => h.order hg (by simp [hst]), h.size, by simp, by simp⟩
  · rename_i hst
    exact ⟨fun hg _ => h.order hg (by simp [hst]), h.size, by simp, by simp⟩
  · exact ⟨h.order, h.size, h.clear, h.gave⟩
  · exact h

/-- the same when the state was connected with a buffer being appended. -/
theorem CInv.discOf {lim : Nat} {ws : List Bytes} {σ : Client}
    (horder : σ.gaveUp = false → σ.sent ++ σ.buf = ws) (hsize : ∀ b ∈ σ.buf, b.length ≤ lim)
    (hst : σ.st = .connected) : CInv lim ws σ.disconnected := by
  unfold Client.disconnected
  rw [hst]
  exact ⟨fun hg _ => horder hg, hsize, by simp, by simp⟩

theorem CInv.step {lim : Nat} {ws : List Bytes} {σ : Client} (h : CInv lim ws σ) (op : ClientOp)
    (hs : ∀ bs, op = .write bs → bs.length ≤ lim) :
    CInv lim (ws ++ writes [op]) (σ.step lim op) := by
  have w1 : ∀ bs, writes [.write bs] = [bs] := fun _ => rfl
  have w2 : ∀ o, writes [.connect o] = [] := fun _ => rfl
  have w3 : writes [.breakLink] = [] := rfl
  have w4 : writes [.loopEnds] = [] := rfl
  have hb : ∀ bs, bs.length ≤ lim → ∀ b ∈ (σ.buffer bs).buf, b.length ≤ lim := by
    intro bs hbs b hm
    simp only [Client.buffer, List.mem_append, List.mem_singleton] at hm
    rcases hm with hm | rfl
    · exact h.size b hm
    · exact hbs
  cases op with
  | breakLink =>
    simp only [Client.step, w3, List.append_nil]
    exact ⟨h.order, h.size, by simp, h.gave⟩
  | write bs =>
    have hbs := hs bs rfl
    simp only [Client.step, Client.write, w1]
    split
    · rename_i n hst
      refine ⟨?_, hb bs hbs, by simp [Client.buffer, hst], h.gave⟩
      intro hg hns
      have := h.order hg (by simp [hst])
      simp only [Client.buffer, ← List.append_assoc, this]
    · rename_i hst
      split
      · rename_i hc
        have hup : σ.up = true := by simp [canSend] at hc; exact hc.1
        have he := h.clear hst hup
        refine ⟨?_, h.size, fun _ _ => he, h.gave⟩
        intro hg hns
        have := h.order hg (by simp [hst])
        simp only [he, List.append_nil] at this ⊢
        rw [this]
      · refine CInv.discOf ?_ (hb bs hbs) hst
        intro hg
        have := h.order hg (by simp [hst])
        simp only [Client.buffer, ← List.append_assoc, this]
    · rename_i hst
      have hgu : σ.gaveUp = true := by
        cases hg : σ.gaveUp with
        | true => rfl
        | false => exact absurd hst (h.gave hg)
      have : σ.disconnected = { σ with connects := σ.connects + 1 } := by
        simp [Client.disconnected, hst]
      rw [this]
      exact ⟨by simp [hgu], h.size, by simp [hst], by simp [hgu]⟩
    · rename_i hst
      exact ⟨fun _ hn => absurd hst hn, h.size, h.clear, h.gave⟩
  | loopEnds =>
    simp only [Client.step, w4, List.append_nil]
    split
    · exact h
    · split
      · exact h
      · exact CInv.disc (σ := { σ with loops := σ.loops - 1 }) ⟨h.order, h.size, h.clear, h.gave⟩
  | connect o =>
    simp only [Client.step, Client.connect, w2, List.append_nil]
    split
    · exact h
    · have h' : CInv lim ws { σ with connects := σ.connects - 1 } := ⟨h.order, h.size, h.clear, h.gave⟩
      split
      · exact h'
      · exact h'
      · rename_i hn1 hn2
        cases o with
        | failed => exact CInv.disc h'
        | closedEarly => exact ⟨by simp, h.size, by simp, fun hg => by simp⟩
        | identified lasts =>
          simp only
          have hsp := flush_split lim lasts σ.buf
          refine ⟨?_, ?_, ?_, ?_⟩
          · intro hg _
            have := h.order hg (by simpa using hn2)
            simp only [Client.flush, List.append_assoc, hsp, this]
          · intro b hb
            apply h.size b
            rw [← hsp]
            simp only [Client.flush] at hb
            exact List.mem_append_right _ hb
          · intro _ hup
            exact flush_complete lim lasts σ.buf h.size hup
          · intro _; simp [Client.flush]

theorem CInv.run (lim : Nat) (ops : List ClientOp) (hs : AllSendable lim ops) :
    CInv lim (writes ops) (Client.init.run lim ops) := by
  induction ops using snoc_induction with
  | nil => exact ⟨by simp [Client.run, Client.init, writes], by simp [Client.run, Client.init],
      by simp [Client.run, Client.init], by simp [Client.run, Client.init]⟩
  | snoc ops op ih =>
    rw [crun_snoc, writes_snoc]
    exact (ih (fun bs hm => hs bs (by simp [hm]))).step op (fun bs he => hs bs (by simp [he]))

/-- **C24 (frames within the size limit).** Until the client gives up, what has been sent followed by
what is buffered is exactly what was written, in order: nothing is lost, duplicated or reordered,
however connections come and go. The missing case is `C24_oversize_refuted`. -/
theorem C24_order_partial (lim : Nat) (ops : List ClientOp) (hs : AllSendable lim ops)
    (hg : (Client.init.run lim ops).gaveUp = false) (hns : (Client.init.run lim ops).st ≠ .stuck) :
    (Client.init.run lim ops).sent ++ (Client.init.run lim ops).buf = writes ops :=
  (CInv.run lim ops hs).order hg hns

/-- **C24 (frames within the size limit).** After the next connection that lasts for the flush,
everything written so far has been sent. -/
theorem C24_flushed_partial (lim : Nat) (ops : List ClientOp) (hs : AllSendable lim ops)
    (hg : (Client.init.run lim ops).gaveUp = false) (hns : (Client.init.run lim ops).st ≠ .stuck)
    (hc : (Client.init.run lim ops).st ≠ .connected) (hp : (Client.init.run lim ops).connects ≠ 0) :
    (Client.init.run lim (ops ++ [.connect (.identified none)])).sent = writes ops ∧
    (Client.init.run lim (ops ++ [.connect (.identified none)])).buf = [] := by
  have h := CInv.run lim ops hs
  rw [crun_snoc]
  generalize Client.init.run lim ops = σ at *
  have hall : ∀ l : List Bytes, (∀ b ∈ l, b.length ≤ lim) → flushLoop lim none l = (l, [], true) := by
    intro l hl
    induction l with
    | nil => rfl
    | cons b r ih =>
      simp only [flushLoop, Option.map_none]
      rw [ih (fun x hx => hl x (by simp [hx])), if_pos]
      simp [canSend, hl b (by simp)]
  have hstep : (σ.step lim (.connect (.identified none))).sent = σ.sent ++ σ.buf ∧
      (σ.step lim (.connect (.identified none))).buf = [] := by
    simp only [Client.step, Client.connect, if_neg hp]
    cases hst : σ.st with
    | connected => exact absurd hst hc
    | stuck => exact absurd hst hns
    | idle n => simp [Client.flush, hall σ.buf h.size]
    | terminated => simp [Client.flush, hall σ.buf h.size]
  rw [hstep.1, hstep.2, h.order hg hns]
  exact ⟨rfl, rfl⟩

theorem flushLoop_take (lim n : Nat) (l : List Bytes) (hl : ∀ b ∈ l, b.length ≤ lim) :
    (flushLoop lim (some n) l).1 = l.take n ∧ (flushLoop lim (some n) l).2.1 = l.drop n := by
  induction l generalizing n with
  | nil => simp [flushLoop]
  | cons b r ih =>
    cases n with
    | zero => simp [flushLoop, canSend]
    | succ n =>
      have := ih n (fun x hx => hl x (by simp [hx]))
      simp [flushLoop, canSend, hl b (by simp), this]

/-- **C24 (a connection that breaks during the flush).** If the socket takes `n` more messages, the first `n` of those
waiting are sent, the others stay, in order, for the next connection. -/
theorem C24_flush_breaks (lim n : Nat) (ops : List ClientOp) (hs : AllSendable lim ops)
    (hns : (Client.init.run lim ops).st ≠ .stuck)
    (hc : (Client.init.run lim ops).st ≠ .connected) (hp : (Client.init.run lim ops).connects ≠ 0) :
    (Client.init.run lim (ops ++ [.connect (.identified (some n))])).sent =
      (Client.init.run lim ops).sent ++ (Client.init.run lim ops).buf.take n ∧
    (Client.init.run lim (ops ++ [.connect (.identified (some n))])).buf = (Client.init.run lim ops).buf.drop n := by
  have h := CInv.run lim ops hs
  rw [crun_snoc]
  generalize Client.init.run lim ops = σ at *
  have ht := flushLoop_take lim n σ.buf h.size
  simp only [Client.step, Client.connect, if_neg hp]
  cases hst : σ.st with
  | connected => exact absurd hst hc
  | stuck => exact absurd hst hns
  | idle n => simp [Client.flush, ht]
  | terminated => simp [Client.flush, ht]

/-- three messages wait and the socket takes two. -/
example : (Client.init.run 10 [.write [1], .write [2], .write [3], .connect (.identified (some 2))]).sent = [[1], [2]] ∧
    (Client.init.run 10 [.write [1], .write [2], .write [3], .connect (.identified (some 2))]).buf = [[3]] := by decide

/-- The full claim, over all messages. -/
def C24_full (lim : Nat) : Prop :=
  ∀ ops, (Client.init.run lim ops).gaveUp = false → (Client.init.run lim ops).st ≠ .stuck →
    (Client.init.run lim ops).sent ++ (Client.init.run lim ops).buf = writes ops

/-- **C24 refuted.** For every frame limit: a message above it, then a small one, both written before
the connection; then a third once connected. The third is sent, the second is not. -/
theorem C24_oversize_refuted (lim : Nat) : ¬ C24_full lim := by
  intro h
  have hbig : ¬ (List.replicate (lim + 1) (0 : UInt8)).length ≤ lim := by simp
  have := h [.write (List.replicate (lim + 1) 0), .write [], .connect (.identified none), .write []]
  simp [Client.run, Client.step, Client.write, Client.connect, Client.init, Client.buffer,
    Client.flush, flushLoop, canSend, writes, show ¬ lim + 1 ≤ lim by omega] at this

theorem flush_blocked (lim : Nat) (lasts : Option Nat) (big : Bytes) (rest : List Bytes)
    (hbig : lim < big.length) : flushLoop lim lasts (big :: rest) = ([], big :: rest, lasts != some 0) := by
  have : ¬ big.length ≤ lim := by omega
  simp [flushLoop, canSend, this]

theorem oversize_step (lim : Nat) (big : Bytes) (hbig : lim < big.length) (σ : Client)
    (rest : List Bytes) (h : σ.buf = big :: rest) (op : ClientOp) :
    ∃ more, (σ.step lim op).buf = big :: (rest ++ more) := by
  have hkeep : ∀ τ : Client, τ.buf = σ.buf → ∃ more, τ.buf = big :: (rest ++ more) := by
    intro τ ht; exact ⟨[], by rw [ht, h]; simp⟩
  cases op with
  | breakLink => exact hkeep _ rfl
  | write bs =>
    simp only [Client.step, Client.write]
    split
    · exact ⟨[bs], by simp [Client.buffer, h]⟩
    · split
      · exact hkeep _ rfl
      · exact ⟨[bs], by rw [(disc_buf _).1]; simp [Client.buffer, h]⟩
    · exact hkeep _ (disc_buf _).1
    · exact hkeep _ rfl
  | loopEnds =>
    simp only [Client.step]
    split
    · exact hkeep _ rfl
    · split
      · exact hkeep _ rfl
      · exact hkeep _ (disc_buf _).1
  | connect o =>
    simp only [Client.step, Client.connect]
    split
    · exact hkeep _ rfl
    · split
      · exact hkeep _ rfl
      · exact hkeep _ rfl
      · cases o with
        | failed => exact hkeep _ (disc_buf _).1
        | closedEarly => exact hkeep _ rfl
        | identified lasts =>
          refine hkeep _ ?_
          simp only [Client.flush, h, flush_blocked lim lasts big rest hbig]

/-- **C24, what really happens.** Once a message above the frame limit is at the head of the buffer,
nothing buffered behind it is ever sent, whatever happens afterwards. -/
theorem C24_oversize_blocks (lim : Nat) (big : Bytes) (hbig : lim < big.length) (σ : Client)
    (rest : List Bytes) (h : σ.buf = big :: rest) (ops : List ClientOp) :
    ∃ more, (σ.run lim ops).buf = big :: (rest ++ more) := by
  induction ops using snoc_induction with
  | nil => exact ⟨[], by simp [Client.run, h]⟩
  | snoc ops op ih =>
    obtain ⟨more, hm⟩ := ih
    obtain ⟨more', hm'⟩ := oversize_step lim big hbig (σ.run lim ops) (rest ++ more) hm op
    exact ⟨more ++ more', by rw [crun_snoc, hm', List.append_assoc]⟩

/-! ### C25 -/

structure RInv (σ : Client) : Prop where
  retry : ∀ n, σ.st = .idle n → 1 ≤ σ.connects
  bound : ∀ n, σ.st = .idle n → n ≤ 10

theorem RInv.step {σ : Client} (lim : Nat) (h : RInv σ) (op : ClientOp) : RInv (σ.step lim op) := by
  have hd : ∀ τ : Client, τ.st = σ.st → RInv τ.disconnected := by
    intro τ ht
    unfold Client.disconnected
    split
    · rename_i n hn
      split
      · constructor <;> simp
      · refine ⟨fun _ _ => by simp, fun m hm => ?_⟩
        simp only [CState.idle.injEq] at hm; omega
    · constructor <;> simp_all
    · rename_i hs; constructor <;> simp [hs]
    · rename_i hs; constructor <;> simp [hs]
  cases op with
  | breakLink => exact ⟨h.retry, h.bound⟩
  | write bs =>
    simp only [Client.step, Client.write]
    split
    · exact ⟨h.retry, h.bound⟩
    · split
      · exact ⟨h.retry, h.bound⟩
      · exact hd _ rfl
    · exact hd _ rfl
    · exact h
  | loopEnds =>
    simp only [Client.step]
    split
    · exact h
    · split
      · exact h
      · exact hd _ rfl
  | connect o =>
    simp only [Client.step, Client.connect]
    split
    · exact h
    · split
      · rename_i hst; constructor <;> simp [hst]
      · rename_i hst; constructor <;> simp [hst]
      · cases o with
        | failed => exact hd _ rfl
        | closedEarly => constructor <;> simp
        | identified lasts => constructor <;> simp [Client.flush]

/-- **C25.** A client that is not connected and has neither given up nor got stuck always has another
attempt on its way. -/
theorem C25_retries (lim : Nat) (ops : List ClientOp) (n : Nat)
    (h : (Client.init.run lim ops).st = .idle n) : 1 ≤ (Client.init.run lim ops).connects := by
  have : RInv (Client.init.run lim ops) := by
    clear h
    induction ops using snoc_induction with
    | nil => constructor <;> simp [Client.run, Client.init]
    | snoc ops op ih => rw [crun_snoc]; exact ih.step lim op
  exact this.retry n h

/-- **C25.** A successful connection resets the count. -/
theorem C25_success_resets (lim : Nat) (σ : Client) (lasts : Option Nat)
    (hp : σ.connects ≠ 0) (hns : σ.st ≠ .stuck) :
    (σ.step lim (.connect (.identified lasts))).st = .connected := by
  simp only [Client.step, Client.connect, if_neg hp]
  cases hst : σ.st <;> simp_all [Client.flush]

/-- an orderly history: each attempt fails, or succeeds and is later lost, noticed once by the
receive loop. -/
inductive Try where
  | fail
  | okThenLost
deriving DecidableEq, Repr

def Try.ops : Try → List ClientOp
  | .fail => [.connect .failed]
  | .okThenLost => [.connect (.identified none), .loopEnds]

/-- the full claim over orderly histories: the client gives up exactly if more than ten attempts in a
row have failed. -/
def C25_full (lim : Nat) : Prop :=
  ∀ ts : List Try, (Client.init.run lim (ts.flatMap Try.ops)).gaveUp = true ↔
    ∃ pre post, ts = pre ++ List.replicate 11 .fail ++ post

/-- what one attempt does to the state and the flag. -/
theorem try_step (lim : Nat) (σ : Client) (n : Nat) (hst : σ.st = .idle n) (hc : 1 ≤ σ.connects)
    (t : Try) :
    (t = .fail → n < 10 → (σ.run lim t.ops).st = .idle (n + 1) ∧ 1 ≤ (σ.run lim t.ops).connects ∧
        (σ.run lim t.ops).gaveUp = σ.gaveUp) ∧
    (t = .fail → 10 ≤ n → (σ.run lim t.ops).gaveUp = true) ∧
    (t = .okThenLost → (σ.run lim t.ops).st = .idle 1 ∧ 1 ≤ (σ.run lim t.ops).connects ∧
        (σ.run lim t.ops).gaveUp = σ.gaveUp) := by
  have hc' : σ.connects ≠ 0 := by omega
  refine ⟨?_, ?_, ?_⟩
  · rintro rfl hn
    simp [Try.ops, Client.run, Client.step, Client.connect, hc', hst, Client.disconnected]
    rw [if_neg (by omega)]
    exact ⟨rfl, by simp, rfl⟩
  · rintro rfl hn
    simp [Try.ops, Client.run, Client.step, Client.connect, hc', hst, Client.disconnected]
    rw [if_pos (by omega)]
  · rintro rfl
    simp [Try.ops, Client.run, Client.step, Client.connect, hc', hst, Client.disconnected, Client.flush]

theorem gaveUp_step (lim : Nat) (σ : Client) (op : ClientOp) (h : σ.gaveUp = true) :
    (σ.step lim op).gaveUp = true := by
  have hd : ∀ τ : Client, τ.gaveUp = true → τ.disconnected.gaveUp = true := by
    intro τ ht
    unfold Client.disconnected
    split
    · split <;> simp [ht]
    · exact ht
    · exact ht
    · exact ht
  cases op with
  | breakLink => exact h
  | write bs =>
    simp only [Client.step, Client.write]
    split
    · exact h
    · split
      · exact h
      · exact hd _ h
    · exact hd _ h
    · exact h
  | loopEnds =>
    simp only [Client.step]
    split
    · exact h
    · split
      · exact h
      · exact hd _ h
  | connect o =>
    simp only [Client.step, Client.connect]
    split
    · exact h
    · split
      · exact h
      · exact h
      · cases o with
        | failed => exact hd _ h
        | closedEarly => exact h
        | identified lasts => exact h

theorem gaveUp_run (lim : Nat) (σ : Client) (ops : List ClientOp) (h : σ.gaveUp = true) :
    (σ.run lim ops).gaveUp = true := by
  induction ops generalizing σ with
  | nil => exact h
  | cons op ops ih => exact ih _ (gaveUp_step lim σ op h)

theorem run_append (lim : Nat) (σ : Client) (a b : List ClientOp) :
    σ.run lim (a ++ b) = (σ.run lim a).run lim b := by simp [Client.run]

/-- from `idle n`, the client gives up exactly after `11 - n` failures in a row, or after ten
following a lost connection. -/
theorem tries (lim : Nat) (ts : List Try) (σ : Client) (n : Nat) (hst : σ.st = .idle n) (hn : n ≤ 10)
    (hc : 1 ≤ σ.connects) (hg : σ.gaveUp = false) :
    (σ.run lim (ts.flatMap Try.ops)).gaveUp = true ↔
      (∃ post, ts = List.replicate (11 - n) .fail ++ post) ∨
      (∃ pre post, ts = pre ++ .okThenLost :: (List.replicate 10 .fail ++ post)) := by
  induction ts generalizing σ n with
  | nil =>
    simp only [List.flatMap_nil, Client.run, List.foldl_nil, hg, Bool.false_eq_true, false_iff, not_or]
    refine ⟨?_, ?_⟩
    · rintro ⟨post, h⟩
      have := congrArg List.length h
      simp at this; omega
    · rintro ⟨pre, post, h⟩; simp at h
  | cons t ts ih =>
    obtain ⟨h1, h2, h3⟩ := try_step lim σ n hst hc t
    simp only [List.flatMap_cons]
    rw [run_append]
    cases t with
    | fail =>
      by_cases hlt : n < 10
      · obtain ⟨a1, a2, a3⟩ := h1 rfl hlt
        rw [ih _ (n + 1) a1 (by omega) a2 (by rw [a3]; exact hg)]
        have h11 : 11 - n = (11 - (n + 1)) + 1 := by omega
        constructor
        · rintro (⟨post, rfl⟩ | ⟨pre, post, rfl⟩)
          · left; exact ⟨post, by rw [h11, List.replicate_succ]; rfl⟩
          · right; exact ⟨.fail :: pre, post, rfl⟩
        · rintro (⟨post, h⟩ | ⟨pre, post, h⟩)
          · left
            rw [h11, List.replicate_succ] at h
            simp only [List.cons_append, List.cons.injEq, true_and] at h
            exact ⟨post, h⟩
          · right
            cases pre with
            | nil => simp at h
            | cons p pre =>
              simp only [List.cons_append, List.cons.injEq] at h
              exact ⟨pre, post, h.2⟩
      · have a := h2 rfl (by omega)
        have hn10 : n = 10 := by omega
        subst hn10
        constructor
        · intro _; left; exact ⟨ts, rfl⟩
        · intro _; exact gaveUp_run lim _ _ a
    | okThenLost =>
      obtain ⟨a1, a2, a3⟩ := h3 rfl
      rw [ih _ 1 a1 (by omega) a2 (by rw [a3]; exact hg)]
      constructor
      · rintro (⟨post, rfl⟩ | ⟨pre, post, rfl⟩)
        · right; exact ⟨[], post, rfl⟩
        · right; exact ⟨.okThenLost :: pre, post, rfl⟩
      · rintro (⟨post, h⟩ | ⟨pre, post, h⟩)
        · have h11 : 11 - n = (11 - n - 1) + 1 := by omega
          rw [h11, List.replicate_succ] at h
          simp at h
        · cases pre with
          | nil =>
            simp only [List.nil_append, List.cons.injEq, true_and] at h
            left; exact ⟨post, h⟩
          | cons p pre =>
            simp only [List.cons_append, List.cons.injEq] at h
            right; exact ⟨pre, post, h.2⟩

/-- **C25, exactly, over orderly histories.** The client gives up exactly if it has never connected and
eleven attempts failed in a row, or if ten attempts in a row failed after a lost connection. -/
theorem C25_orderly_partial (lim : Nat) (ts : List Try) :
    (Client.init.run lim (ts.flatMap Try.ops)).gaveUp = true ↔
      (∃ post, ts = List.replicate 11 .fail ++ post) ∨
      (∃ pre post, ts = pre ++ .okThenLost :: (List.replicate 10 .fail ++ post)) :=
  tries lim ts Client.init 0 rfl (by omega) (by decide) rfl

/-- **C25.** So eleven failures in a row always make it give up. -/
theorem C25_eleven_failures (lim : Nat) (pre post : List Try) :
    (Client.init.run lim ((pre ++ List.replicate 11 Try.fail ++ post).flatMap Try.ops)).gaveUp = true := by
  rw [C25_orderly_partial]
  -- the last success before the failures, if any
  induction pre using snoc_induction generalizing post with
  | nil => left; exact ⟨post, rfl⟩
  | snoc pre t ih =>
    cases t with
    | okThenLost =>
      right
      exact ⟨pre, .fail :: post, by simp [List.replicate]⟩
    | fail =>
      have := ih (Try.fail :: post)
      have e : pre ++ [Try.fail] ++ List.replicate 11 Try.fail ++ post =
          pre ++ List.replicate 11 Try.fail ++ Try.fail :: post := by simp [List.replicate]
      rw [e]; exact this

/-- **C25 refuted (off by one).** After a lost connection ten failed attempts are enough. -/
theorem C25_off_by_one_refuted (lim : Nat) : ¬ C25_full lim := by
  intro h
  have h1 := (C25_orderly_partial lim (.okThenLost :: List.replicate 10 .fail)).2
    (.inr ⟨[], [], by simp⟩)
  obtain ⟨pre, post, h2⟩ := (h _).1 h1
  have hl := congrArg List.length h2
  simp at hl
  obtain rfl : pre = [] := List.eq_nil_of_length_eq_zero (by omega)
  simp [List.replicate] at h2

/-- **C25 refuted (a peer that closes early).** If a peer accepts the connection and closes it before
identifying itself - for instance because it refuses the token - the client never retries and never
gives up, whatever happens afterwards. -/
theorem C25_closed_early_hangs (lim : Nat) (σ : Client) (hst : σ.st = .stuck) (ops : List ClientOp) :
    (σ.run lim ops).st = .stuck ∧ (σ.run lim ops).gaveUp = σ.gaveUp ∧ (σ.run lim ops).sent = σ.sent := by
  induction ops generalizing σ with
  | nil => exact ⟨hst, rfl, rfl⟩
  | cons op ops ih =>
    have : (σ.step lim op).st = .stuck ∧ (σ.step lim op).gaveUp = σ.gaveUp ∧
        (σ.step lim op).sent = σ.sent := by
      cases op <;> simp [Client.step, Client.connect, Client.write, hst]
      split <;> simp [hst]
    obtain ⟨a, b, c⟩ := ih _ this.1
    exact ⟨a, b.trans this.2.1, c.trans this.2.2⟩

theorem C25_closed_early_refuted (lim : Nat) (ops : List ClientOp) :
    (Client.init.run lim (.connect .closedEarly :: ops)).st = .stuck ∧
    (Client.init.run lim (.connect .closedEarly :: ops)).gaveUp = false := by
  have h := C25_closed_early_hangs lim (Client.init.step lim (.connect .closedEarly)) rfl ops
  exact ⟨h.1, h.2.1⟩

/-- **C25 refuted (a loss noticed twice).** When a write notices the lost connection before the receive
loop does, the late report of the loop is taken for another failed attempt - or, if the client has
reconnected meanwhile, for the loss of the new, working connection. -/
theorem C25_late_report_refuted (lim : Nat) :
    let σ := Client.init.run lim
      [.connect (.identified none), .breakLink, .write [], .connect (.identified none)]
    (σ.st = .connected ∧ σ.up = true) ∧ (σ.step lim .loopEnds).st = .idle 1 := by
  simp [Client.run, Client.step, Client.connect, Client.write, Client.init, Client.disconnected,
    Client.flush, flushLoop, Client.buffer, canSend]

/-! Concrete cases. -/
example :
    let σ := Client.init.run 100
      [.write [1], .connect .failed, .write [2], .connect (.identified (some 1)), .write [3],
       .connect (.identified none), .write [4]]
    σ.sent = [[1], [2], [3], [4]] ∧ σ.buf = [] ∧ σ.gaveUp = false ∧ σ.st ≠ .stuck := by decide
example : AllSendable 100 [.write [1], .connect .failed] := by
  intro bs h; simp at h; subst h; decide
example : (Client.init.run 100 ((List.replicate 11 Try.fail).flatMap Try.ops)).gaveUp = true ∧
    (Client.init.run 100 ((List.replicate 10 Try.fail).flatMap Try.ops)).gaveUp = false := by decide
example : (Client.init.run 2 [.write [1, 2, 3], .write [4]]).buf = [[1, 2, 3], [4]] := by decide

end Verif.Remote
