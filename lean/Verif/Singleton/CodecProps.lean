import Verif.Singleton.CodecModel
import Verif.Proto.SingletonLemmas

/-!
# C62: singleton messages round-trip

Every message one singleton manager sends to another arrives as the same message. No assumption on the
size is needed: each is at most 16 bytes long.
-/

namespace Verif.Singleton
open Verif.Proto Verif.Singleton.Wire
open Verif.Remote (ReadRes)

theorem varint_length (k n : Nat) (h : n < 128 ^ (k + 1)) : (varint n).length ≤ k + 1 := by
  induction k generalizing n with
  | zero =>
    unfold varint
    rw [if_pos (by simpa using h)]
    simp
  | succ k ih =>
    unfold varint
    split
    · simp
    · have : n / 128 < 128 ^ (k + 1) := Nat.div_lt_of_lt_mul (by rw [Nat.pow_succ] at h; omega)
      have := ih _ this
      simp only [List.length_cons]; omega

theorem one_varint_length (n : Nat) (h : n < 2 ^ 64) : (encodeFields (fVarint 1 n)).length < 2 ^ 32 := by
  unfold fVarint
  split
  · simp [encodeFields]
  · have h1 := varint_length 9 n (by omega)
    have h2 := varint_length 0 8 (by decide)
    simp only [encodeFields, List.flatMap_cons, List.flatMap_nil, List.append_nil, encodeField, WireVal.wireType, WireVal.body,
      List.length_append, Nat.one_mul, Nat.add_zero] at *
    omega

/-- **C62.** A request for the lease arrives as the same request. -/
theorem C62_request (m : RequestLease) : RequestLease.read m.write = .ok m := by
  unfold RequestLease.read RequestLease.write
  rw [Singleton.RequestLease.read_write _ (one_varint_length _ m.src.toNat_lt)]; rfl

/-- **C62.** An acknowledgement arrives as the same acknowledgement. -/
theorem C62_ack (m : LeaseAck) : LeaseAck.read m.write = .ok m := by
  unfold LeaseAck.read LeaseAck.write
  rw [Singleton.LeaseAck.read_write _ (one_varint_length _ m.src.toNat_lt)]; rfl

/-- **C62.** So does the announcement of an instance. -/
theorem C62_started (m : SingletonStarted) : SingletonStarted.read m.write = .ok m := by
  unfold SingletonStarted.read SingletonStarted.write
  rw [Singleton.SingletonStarted.read_write _ (one_varint_length _ m.src.toNat_lt)]; rfl

/-- **C62.** And that of its end. -/
theorem C62_stopped (m : SingletonStopped) : SingletonStopped.read m.write = .ok m := by
  unfold SingletonStopped.read SingletonStopped.write
  rw [Singleton.SingletonStopped.read_write _ (one_varint_length _ m.src.toNat_lt)]; rfl

/-- **C62.** The answer to a status request arrives as the same answer. -/
theorem C62_status (s : SingletonState) : SingletonState.read s.write = .ok s := by
  unfold SingletonState.read SingletonState.write
  rw [Singleton.ManagerStatus.read_write _ (by cases s <;> decide +kernel)]
  cases s <;> rfl

example : (RequestLease.write ⟨300⟩) = [8, 172, 2] := by decide +kernel
example : RequestLease.read [8, 172, 2] = .ok ⟨300⟩ := by
  have := C62_request ⟨300⟩
  rwa [show RequestLease.write ⟨300⟩ = [8, 172, 2] by decide +kernel] at this

/-- **C62, unknown states**: a status this version does not know panics. -/
theorem C62_unknown_status_refuted : SingletonState.read [8, 5] = .panic := by decide +kernel

end Verif.Singleton
