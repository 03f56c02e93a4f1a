import Verif.Model.Crypto.Prims
import Verif.Lemmas.Crypto.X25519
import Verif.Lemmas.Noise.Accepted
/-!
# The primitives of the RFCs satisfy the laws
-/

namespace SV2.Crypto

open Noise

theorem zipWith_xor_cancel (a b : Bytes) (h : a.length ≤ b.length) :
    List.zipWith (· ^^^ ·) (List.zipWith (· ^^^ ·) a b) b = a := by
  induction a generalizing b with
  | nil => simp
  | cons x xs ih =>
    cases b with
    | nil => simp at h
    | cons y ys =>
      simp only [List.zipWith_cons_cons]
      rw [ih ys (by simpa using h), UInt8.xor_assoc, UInt8.xor_self, UInt8.xor_zero]

theorem ChaCha20.xor_xor (key : Arr 32) (counter : UInt32) (nonce : Arr 12) (data : Bytes) :
    ChaCha20.xor key counter nonce (ChaCha20.xor key counter nonce data) = data := by
  have hl := ChaCha20.length_xor key counter nonce data
  conv => lhs; unfold ChaCha20.xor
  rw [show (List.zipWith (· ^^^ ·) data (ChaCha20.stream key nonce ((data.length + 63) / 64) counter)) =
    ChaCha20.xor key counter nonce data from rfl, hl]
  apply zipWith_xor_cancel
  rw [ChaCha20.length_stream]
  omega

theorem Aead.open_seal (k : Arr 32) (n : Arr 12) (ad p : Bytes) :
    Aead.aeadOpen k n ad (Aead.aeadSeal k n ad p).1 (Aead.aeadSeal k n ad p).2 = some p := by
  simp only [Aead.aeadOpen, Aead.aeadSeal, if_true, ChaCha20.xor_xor]

theorem Aead.seal_open (k : Arr 32) (n : Arr 12) (ad c : Bytes) (mac : Arr 16) (p : Bytes)
    (h : Aead.aeadOpen k n ad c mac = some p) : Aead.aeadSeal k n ad p = (c, mac) := by
  simp only [Aead.aeadOpen] at h
  split at h
  · rename_i ht
    simp only [Option.some.injEq] at h
    subst h
    simp only [Aead.aeadSeal, ChaCha20.xor_xor, ht]
  · cases h

theorem rfc_seal : rfc.aeadSeal = Aead.aeadSeal := rfl
theorem rfc_open : rfc.aeadOpen = Aead.aeadOpen := rfl
theorem rfc_dh_eq : rfc.dh = X25519.x25519 := rfl
theorem rfc_public : rfc.publicOf = X25519.base := rfl
theorem rfc_hash : rfc.hash = Blake2s.hash := rfl

theorem rfc_correct : AeadCorrect rfc := by
  intro k n ad p
  rw [rfc_seal, rfc_open]
  exact Aead.open_seal k n ad p

theorem rfc_tight : AeadTight rfc := by
  intro k n ad c mac p h
  rw [rfc_open] at h
  rw [rfc_seal]
  exact Aead.seal_open k n ad c mac p h

theorem lowOrder_of_mem : ∀ u ∈ Curve.lowOrder, Curve.LowOrder u := by decide +kernel

theorem rfc_dh : DhLaws rfc where
  comm a b := by rw [rfc_dh_eq, rfc_public]; exact X25519.x25519_comm a b
  public_ok a h := by
    rw [rfc_public] at h
    exact (X25519.base_value a).2 (lowOrder_of_mem _ ((forbidden_iff (X25519.base a)).mp h))

end SV2.Crypto
