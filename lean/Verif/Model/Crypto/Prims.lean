import Verif.Model.Crypto.Blake2s
import Verif.Model.Noise.Types
/-!
# The primitives of the RFCs

The parameter of the Noise model filled with the algorithms that the dependencies of nx-noise implement: BLAKE2s (RFC
7693), ChaCha20-Poly1305 (RFC 8439), X25519 (RFC 7748).  That the crates compute these functions is not proved; the crates
are not part of the repository.
-/

namespace SV2.Crypto

theorem ChaCha20.length_block (key : Arr 32) (counter : UInt32) (nonce : Arr 12) :
    (ChaCha20.block key counter nonce).length = 64 := X25519.length_toLE _ _

theorem ChaCha20.length_stream (key : Arr 32) (nonce : Arr 12) (n : Nat) (counter : UInt32) :
    (ChaCha20.stream key nonce n counter).length = 64 * n := by
  induction n generalizing counter with
  | zero => rfl
  | succ n ih => simp only [ChaCha20.stream, List.length_append, ih, ChaCha20.length_block]; omega

theorem ChaCha20.length_xor (key : Arr 32) (counter : UInt32) (nonce : Arr 12) (data : Bytes) :
    (ChaCha20.xor key counter nonce data).length = data.length := by
  simp only [ChaCha20.xor, List.length_zipWith, ChaCha20.length_stream]; omega

/-- What nx-noise gets from `blake2_rfc` and `hacl_star` (prims.rs, types.rs). -/
def rfc : Noise.Prims where
  hash := Blake2s.hash
  aeadSeal := Aead.aeadSeal
  seal_length _ _ _ _ := ChaCha20.length_xor _ _ _ _
  aeadOpen := Aead.aeadOpen
  open_length k n ad c mac p h := by
    unfold Aead.aeadOpen at h
    split at h
    · cases h; exact ChaCha20.length_xor _ _ _ _
    · cases h
  dh := X25519.x25519
  publicOf := X25519.base

end SV2.Crypto
