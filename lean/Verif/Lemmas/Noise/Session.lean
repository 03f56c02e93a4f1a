import Verif.Lemmas.Noise.Cipher
import Verif.Spec.Noise
/-!
# The session in transport mode: every outcome of every call
-/

namespace SV2.Noise
variable {P : Prims}

namespace NoiseSession

/-- The cipher state a session sends with. -/
def sendCs (s : NoiseSession) : CipherState := if s.i then s.cs1 else s.cs2
/-- The cipher state a session receives with. -/
def recvCs (s : NoiseSession) : CipherState := if s.i then s.cs2 else s.cs1
def setSend (s : NoiseSession) (cs : CipherState) : NoiseSession :=
  if s.i then { s with cs1 := cs } else { s with cs2 := cs }
def setRecv (s : NoiseSession) (cs : CipherState) : NoiseSession :=
  if s.i then { s with cs2 := cs } else { s with cs1 := cs }

section
variable (s : NoiseSession) (cs : CipherState)
@[simp] theorem setSend_mc : (s.setSend cs).mc = s.mc := by unfold setSend; split <;> rfl
@[simp] theorem setRecv_mc : (s.setRecv cs).mc = s.mc := by unfold setRecv; split <;> rfl
@[simp] theorem setSend_i : (s.setSend cs).i = s.i := by unfold setSend; split <;> simp_all
@[simp] theorem setRecv_i : (s.setRecv cs).i = s.i := by unfold setRecv; split <;> simp_all
@[simp] theorem setSend_hs : (s.setSend cs).hs = s.hs := by unfold setSend; split <;> rfl
@[simp] theorem setRecv_hs : (s.setRecv cs).hs = s.hs := by unfold setRecv; split <;> rfl
@[simp] theorem setSend_h : (s.setSend cs).h = s.h := by unfold setSend; split <;> rfl
@[simp] theorem setRecv_h : (s.setRecv cs).h = s.h := by unfold setRecv; split <;> rfl
@[simp] theorem setSend_tr : (s.setSend cs).is_transport = s.is_transport := by
  unfold setSend; split <;> rfl
@[simp] theorem setRecv_tr : (s.setRecv cs).is_transport = s.is_transport := by
  unfold setRecv; split <;> rfl
@[simp] theorem setSend_sendCs : (s.setSend cs).sendCs = cs := by
  unfold setSend sendCs; split <;> simp_all
@[simp] theorem setRecv_recvCs : (s.setRecv cs).recvCs = cs := by
  unfold setRecv recvCs; split <;> simp_all
@[simp] theorem setSend_recvCs : (s.setSend cs).recvCs = s.recvCs := by
  unfold setSend recvCs; split <;> simp_all
@[simp] theorem setRecv_sendCs : (s.setRecv cs).sendCs = s.sendCs := by
  unfold setRecv sendCs; split <;> simp_all
end

theorem send_badLength (rnd : Keypair) (s : NoiseSession) (b : Bytes)
    (h : b.length < 16 ∨ 65535 < b.length) :
    s.sendMessage P rnd b = (.err .unsupportedMessageLengthError, s, b) := by
  unfold sendMessage
  rw [if_pos (by simpa [MAC_LENGTH, MAX_MESSAGE] using h)]

theorem recv_badLength (s : NoiseSession) (b : Bytes) (h : b.length < 16 ∨ 65535 < b.length) :
    s.recvMessage P b = (.err .unsupportedMessageLengthError, s, b) := by
  unfold recvMessage
  rw [if_pos (by simpa [MAC_LENGTH, MAX_MESSAGE] using h)]

theorem send_transport (rnd : Keypair) (s : NoiseSession) (b : Bytes)
    (h : ¬ (b.length < 16 ∨ 65535 < b.length)) (hm : 2 ≤ s.mc) :
    s.sendMessage P rnd b = match s.sendCs.writeMessageRegular P b with
      | (.ok (), cs, buf) => (s.setSend cs).count buf
      | (.err e, cs, buf) => (.err e, s.setSend cs, buf)
      | (.panic, cs, buf) => (.panic, s.setSend cs, buf) := by
  unfold sendMessage
  rw [if_neg (by simpa [MAC_LENGTH, MAX_MESSAGE] using h), if_neg (by omega), if_neg (by omega)]
  unfold sendCs setSend
  split
  · rfl
  · rfl

theorem recv_transport (s : NoiseSession) (b : Bytes)
    (h : ¬ (b.length < 16 ∨ 65535 < b.length)) (hm : 2 ≤ s.mc) :
    s.recvMessage P b = match s.recvCs.readMessageRegular P b with
      | (.ok (), cs, buf) => (s.setRecv cs).count buf
      | (.err e, cs, buf) => (.err e, s.setRecv cs, buf)
      | (.panic, cs, buf) => (.panic, s.setRecv cs, buf) := by
  unfold recvMessage
  rw [if_neg (by simpa [MAC_LENGTH, MAX_MESSAGE] using h), if_neg (by omega), if_neg (by omega)]
  unfold recvCs setRecv
  split
  · rfl
  · rfl

@[simp] theorem setSend_self (s : NoiseSession) : s.setSend s.sendCs = s := by
  unfold setSend sendCs; split <;> rfl
@[simp] theorem setRecv_self (s : NoiseSession) : s.setRecv s.recvCs = s := by
  unfold setRecv recvCs; split <;> rfl

/-- Every outcome of a send in transport mode. -/
theorem send_cases (rnd : Keypair) (s : NoiseSession) (b : Bytes) (hm : 2 ≤ s.mc) :
    (16 ≤ b.length ∧ b.length ≤ 65535 ∧ s.sendCs.n ≠ MAX_NONCE ∧ s.sendCs.k ≠ EMPTY ∧
      s.sendMessage P rnd b = (s.setSend ⟨s.sendCs.k, s.sendCs.n + 1⟩).count
        (CipherState.sealed P s.sendCs.k s.sendCs.n [] (body b))) ∨
    (∃ e, s.sendMessage P rnd b = (.err e, s, b)) := by
  by_cases h : b.length < 16 ∨ 65535 < b.length
  · exact .inr ⟨_, send_badLength rnd s b h⟩
  · rw [send_transport rnd s b h hm]
    rcases CipherState.write_cases (P := P) s.sendCs b (by omega) with ⟨h1, h2, h3⟩ | ⟨e, h3⟩
    · left
      rw [h3]
      exact ⟨by omega, by omega, h1, h2, rfl⟩
    · right
      rw [h3]
      exact ⟨e, by simp⟩

/-- Every outcome of a receive in transport mode. -/
theorem recv_cases (s : NoiseSession) (b : Bytes) (hm : 2 ≤ s.mc) :
    (∃ (hl : 16 ≤ b.length) (p : Bytes), b.length ≤ 65535 ∧ s.recvCs.n ≠ MAX_NONCE ∧
      s.recvCs.k ≠ EMPTY ∧
      P.aeadOpen s.recvCs.k (prepNonce s.recvCs.n) [] (body b) (CipherState.tagArr b hl) = some p ∧
      s.recvMessage P b = (s.setRecv ⟨s.recvCs.k, s.recvCs.n + 1⟩).count (p ++ tag b)) ∨
    (∃ e, s.recvMessage P b = (.err e, s, b)) := by
  by_cases h : b.length < 16 ∨ 65535 < b.length
  · exact .inr ⟨_, recv_badLength s b h⟩
  · rw [recv_transport s b h hm]
    rcases CipherState.read_cases (P := P) s.recvCs b (by omega) with ⟨p, h1, h2, h3, h4⟩ | ⟨e, h3⟩
    · left
      rw [h4]
      exact ⟨by omega, p, by omega, h1, h2, h3, rfl⟩
    · right
      rw [h3]
      exact ⟨e, by simp⟩

theorem count_ok (s : NoiseSession) (b : Bytes) (h : s.mc + 1 < 2 ^ 128) :
    s.count b = (.ok (), { s with mc := s.mc + 1 }, b) := by
  rw [count, if_pos h]

theorem count_cases (s : NoiseSession) (b : Bytes) :
    (s.mc + 1 < 2 ^ 128 ∧ s.count b = (.ok (), { s with mc := s.mc + 1 }, b)) ∨
    (¬ s.mc + 1 < 2 ^ 128 ∧ s.count b = (.panic, s, b)) := by
  unfold count
  split <;> simp_all

end NoiseSession

/-! ## The nonce -/

theorem prepNonce_eq (n : UInt64) : prepNonce n = NX.nonce n.toNat := by
  apply arr_ext
  have h := n.toNat_lt
  simp only [prepNonce, NX.nonce, toLE, List.range, List.range.loop, List.map, List.replicate,
    List.cons_append, List.nil_append, Nat.div_div_eq_div_mul, Nat.pow_succ, Nat.pow_zero, Nat.one_mul,
    Nat.mul_assoc, Nat.div_one]

theorem sealed_eq (k : Arr 32) (n : UInt64) (ad p : Bytes) :
    CipherState.sealed P k n ad p = NX.enc P k n.toNat ad p := by
  simp [CipherState.sealed, NX.enc, prepNonce_eq]

end SV2.Noise
