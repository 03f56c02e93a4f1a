import Verif.Model.Noise.Unused
import Verif.Lemmas.Noise.NX
import Verif.Spec.Toy
/-!
# C70: key derivation on slices, and the functions that nothing calls
-/

namespace SV2
open Noise

variable (P : Prims)

/-! ## Specification -/

/-- HMAC (RFC 2104) with BLAKE2s, whose block has 64 bytes, for keys of at most one block. -/
def Spec.hmac (key data : Bytes) : Arr 32 :=
  let block := key ++ List.replicate (64 - key.length) 0
  P.hash (block.map (· ^^^ 0x5c) ++ (P.hash (block.map (· ^^^ 0x36) ++ data)).toList)

/-- `HKDF` of the Noise specification, with any number of outputs: `output(i) = HMAC(temp_key, output(i-1) || i)`. -/
def Spec.hkdf (ck ikm : Bytes) (n : Nat) : List (Arr 32) :=
  let temp := (Spec.hmac P ck ikm).toList
  let rec go : Nat → Nat → Bytes → List (Arr 32)
    | 0, _, _ => []
    | n + 1, i, prev =>
      let o := Spec.hmac P temp (prev ++ [UInt8.ofNat i])
      o :: go n (i + 1) o.toList
  go n 1 []

/-! ## C70 -/

theorem xorInto_eq (c : UInt8) : ∀ (key : Bytes) (n : Nat), xorInto (List.replicate n c) key =
    if key.length ≤ n then some ((key ++ List.replicate (n - key.length) 0).map (· ^^^ c)) else none
  | [], n => by cases n <;> simp [xorInto, List.replicate_succ]
  | k :: key, 0 => by simp [xorInto]
  | k :: key, n + 1 => by
    rw [List.replicate_succ, xorInto, xorInto_eq c key n]
    split <;> rename_i h
    · rw [if_pos (by simp; omega)]
      simp [UInt8.xor_comm]
    · rw [if_neg (by simp; omega)]
      rfl

/-- `hmac` computes HMAC for keys of at most 64 bytes, and panics for longer ones (which HMAC would hash) and for an
output slice that does not have 32 bytes. -/
theorem C70_hmac (key data out : Bytes) : hmacSlices P key data out =
    if key.length ≤ 64 ∧ out.length = 32 then .ok (Spec.hmac P key data).toList else .panic := by
  unfold hmacSlices Spec.hmac
  simp only [xorInto_eq]
  by_cases h : key.length ≤ 64 <;> by_cases h2 : out.length = 32 <;> simp [h, h2]

/- A key of the size of a block, one longer, and an output slice that is too short. -/
example : hmacSlices P (List.replicate 64 7) [1] (List.replicate 32 0) =
    .ok (Spec.hmac P (List.replicate 64 7) [1]).toList := by rw [C70_hmac]; rfl
example : hmacSlices P (List.replicate 65 7) [1] (List.replicate 32 0) = .panic := by rw [C70_hmac]; rfl
example : hmacSlices P [7] [1] (List.replicate 31 0) = .panic := by rw [C70_hmac]; rfl

/-- `hkdf` with a 32-byte chaining key and 32-byte output slices writes the first outputs of `HKDF`, as many as asked
for (three for any number but 1 and 2), and leaves the other slices alone. -/
theorem C70_hkdf (ck : Arr 32) (ikm : Bytes) (outputs : Nat) (a b c : Arr 32) :
    ∃ o1 o2 o3, [o1, o2, o3] = Spec.hkdf P ck.toList ikm 3 ∧
      hkdfSlices P ck.toList ikm outputs a.toList b.toList c.toList =
        .ok (if outputs = 1 then (o1.toList, b.toList, c.toList)
          else if outputs = 2 then (o1.toList, o2.toList, c.toList)
          else (o1.toList, o2.toList, o3.toList)) := by
  refine ⟨_, _, _, rfl, ?_⟩
  have hm : ∀ (k : Arr 32) (d : Bytes) (o : Arr 32), hmacSlices P k.toList d o.toList =
      .ok (Spec.hmac P k.toList d).toList := by
    intro k d o
    rw [C70_hmac, if_pos ⟨by rw [k.len]; omega, o.len⟩]
  have hw : ∀ (k : Arr 32) (x : UInt8), withCounter k.toList x = .ok (k.toList ++ [x]) := by
    intro k x
    unfold withCounter
    have := k.len
    rw [if_neg (by show ¬ k.toList.length < 32; omega), List.take_of_length_le (by show k.toList.length ≤ 32; omega)]
  unfold hkdfSlices
  simp only [hm, hw, bind, Out.bind, pure]
  split
  · rfl
  · split <;> rfl

/-- The functions `hmac` and `hkdf` of the rest of the model are these, at the lengths that `state.rs` uses. -/
theorem C70_as_used (ck : Arr 32) (ikm : Bytes) (a b c : Arr 32) :
    hmacSlices P ck.toList ikm a.toList = .ok (hmac P ck ikm).toList ∧
    hkdfSlices P ck.toList ikm 2 a.toList b.toList c.toList =
      .ok ((hkdf2 P ck ikm).1.toList, (hkdf2 P ck ikm).2.toList, c.toList) := by
  have hm : ∀ (k : Arr 32) (d : Bytes), Spec.hmac P k.toList d = hmac P k d := by
    intro k d
    rw [hmac_eq]
    simp only [Spec.hmac, NX.hmac, k.len]
  constructor
  · rw [C70_hmac, if_pos ⟨by rw [ck.len]; omega, a.len⟩, hm]
  · obtain ⟨o1, o2, o3, ho, hk⟩ := C70_hkdf P ck ikm 2 a b c
    rw [hk]
    simp only [Spec.hkdf, Spec.hkdf.go, List.cons.injEq, List.nil_append, hm] at ho
    obtain ⟨rfl, rfl, _⟩ := ho
    simp only [hkdf2]
    rfl

/-- `mix_key_and_hash` is `MixKeyAndHash` of the Noise specification: three outputs of HKDF, the chaining key, the value
mixed into the hash, and the new cipher key with nonce 0.  It never panics. -/
theorem C70_mix_key_and_hash (ss : SymmetricState) (ikm : Bytes) :
    ∃ ck temp_h temp_k, [ck, temp_h, temp_k] = Spec.hkdf P ss.ck.toList ikm 3 ∧
      ss.mixKeyAndHash P ikm = .ok ⟨⟨temp_k, 0⟩, ck, P.hash (ss.h.toList ++ temp_h.toList)⟩ := by
  obtain ⟨o1, o2, o3, ho, hk⟩ := C70_hkdf P ss.ck ikm 3 EMPTY EMPTY EMPTY
  refine ⟨o1, o2, o3, ho, ?_⟩
  have hf : ∀ a : Arr 32, fromSliceHashlen a.toList = .ok a := by
    intro a
    unfold fromSliceHashlen
    rw [dif_pos (by simp [a.len])]
    congr 1
    apply arr_ext
    exact List.take_of_length_le (by rw [a.len]; omega)
  unfold SymmetricState.mixKeyAndHash
  rw [hk]
  simp [hf, bind, Out.bind, pure, SymmetricState.mixHash, hashWithContext, CipherState.fromKey]

/-- `initialize_symmetric` is `InitializeSymmetric`, for every protocol name: a name of at most 32 bytes is padded with
zeros, a longer one hashed; hash and chaining key are equal, and there is no key. -/
theorem C70_initialize (name : Bytes) :
    let ss := SymmetricState.initializeSymmetric P name
    (name.length ≤ 32 → ss.h.toList = name ++ List.replicate (32 - name.length) 0) ∧
    (32 < name.length → ss.h = P.hash name) ∧
    ss.ck = ss.h ∧ ss.cs.hasKey = false ∧ ss.cs.n = 0 ∧ ss.getHandshakeHash = .ok ss.h := by
  intro ss
  refine ⟨?_, ?_, rfl, rfl, rfl, ?_⟩
  · intro h
    simp only [ss, SymmetricState.initializeSymmetric, dif_pos h]
  · intro h
    simp only [ss, SymmetricState.initializeSymmetric, dif_neg (Nat.not_le.mpr h)]
  · unfold SymmetricState.getHandshakeHash fromSliceHashlen
    rw [dif_pos (by simp [ss.h.len])]
    congr 1
    apply arr_ext
    exact List.take_of_length_le (by rw [ss.h.len]; omega)

/-- `set_nonce` sets what `get_nonce` returns and what the next message is encrypted under; no other change. -/
theorem C70_nonce (cs : CipherState) (n : UInt64) (ad p : Bytes) (hk : cs.hasKey = true) :
    (cs.setNonce n).getNonce = n ∧ (cs.setNonce n).k = cs.k ∧ (cs.setNonce cs.getNonce) = cs ∧
    (n ≠ MAX_NONCE → ∃ mac, (cs.setNonce n).encryptWithAd P ad p =
      (.ok mac, cs.setNonce (n + 1), (P.aeadSeal cs.k (NX.nonce n.toNat) ad p).1) ∧
      mac = (P.aeadSeal cs.k (NX.nonce n.toNat) ad p).2) ∧
    (cs.setNonce MAX_NONCE).encryptWithAd P ad p = (.err .exhaustedNonceError, cs.setNonce MAX_NONCE, p) := by
  refine ⟨rfl, rfl, rfl, ?_, ?_⟩
  · intro hn
    have hk' : cs.k ≠ EMPTY := by
      intro h
      simp [CipherState.hasKey, isEmptyKey, h] at hk
    refine ⟨_, ?_, rfl⟩
    rw [CipherState.encrypt_ok (cs.setNonce n) ad p hn hk', prepNonce_eq]
    rfl
  · exact CipherState.encrypt_exhausted _ ad p rfl

example : (CipherState.fromKey (Arr.replicate 32 3)).hasKey = true := by decide

end SV2
