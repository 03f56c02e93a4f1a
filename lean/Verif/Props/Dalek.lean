import Verif.Lemmas.Crypto.Dalek
import Verif.Props.Authority
/-!
# C77: the public keys that ed25519-dalek accepts
-/

namespace SV2
open Crypto Noise Examples Handshake

set_option maxRecDepth 100000

theorem dalek_publicOf (strict : Bool) : (dalek strict).publicOf = Ed25519.publicOf := rfl
theorem dalek_verify (strict : Bool) : (dalek strict).verify = Ed25519.verifyCrate := rfl
theorem dalek_sign (strict : Bool) : (dalek strict).sign = Ed25519.sign := rfl
theorem dalek_base58 (strict : Bool) : (dalek strict).base58 = Base58.decode := rfl
theorem dalek_validKey (strict : Bool) (k : Arr 32) :
    (dalek strict).validKey k = (Ed25519.decodeCrate k).isSome := rfl

/-- With a key that RFC 8032 accepts the crate does what the RFC says. -/
theorem C77_agrees (key : Arr 32) (h : (Ed25519.decode key).isSome = true) :
    Ed25519.decodeCrate key = Ed25519.decode key ∧
    ∀ m sig, Ed25519.verifyCrate key m sig = Ed25519.verify key m sig := by
  refine ⟨?_, Ed25519.verifyCrate_of_decode h⟩
  obtain ⟨E, hE⟩ := Option.isSome_iff_exists.mp h
  rw [hE, Ed25519.decodeCrate_of_decode hE]

/- The keys of RFC 8032 are of this kind. -/
example : (Ed25519.decode (Ed25519.publicOf (hexKey 5))).isSome = true := Ed25519.valid_publicOf _

/-- It accepts twenty-six encodings more, in little-endian: `p` plus one of twelve numbers, with and without the top bit;
and 1 and `p - 1` with the top bit. -/
theorem C77_extra_keys (key : Arr 32) :
    ((Ed25519.decodeCrate key).isSome = true ∧ Ed25519.decode key = none) ↔
      (∃ y sign, y ∈ [0, 1, 3, 4, 5, 6, 9, 10, 14, 15, 16, 18] ∧ sign < 2 ∧
        fromLE key.toList = 2 ^ 255 - 19 + y + 2 ^ 255 * sign) ∨
      fromLE key.toList = 2 ^ 255 + 1 ∨ fromLE key.toList = 2 ^ 256 - 20 := by
  rw [Ed25519.extra_iff]
  have hp : X25519.p = 2 ^ 255 - 19 := by decide
  unfold Ed25519.extraKeys
  rw [hp]
  generalize fromLE key.toList = n
  simp only [List.mem_append, List.mem_map, List.mem_cons, List.not_mem_nil, or_false, Ed25519.smallY]
  constructor
  · rintro ((⟨y, hy, rfl⟩ | ⟨y, hy, rfl⟩) | rfl | rfl)
    · exact .inl ⟨y, 0, hy, by omega, by omega⟩
    · exact .inl ⟨y, 1, hy, by omega, by omega⟩
    · exact .inr (.inl (by omega))
    · exact .inr (.inr (by omega))
  · rintro (⟨y, sign, hy, hs, rfl⟩ | rfl | rfl)
    · left
      rcases (show sign = 0 ∨ sign = 1 by omega) with rfl | rfl
      · exact .inl ⟨y, hy, by omega⟩
      · exact .inr ⟨y, hy, by omega⟩
    · exact .inr (.inl (by omega))
    · exact .inr (.inr (by omega))

/-- Twenty-six different ones. -/
example : Ed25519.extraKeys.length = 26 ∧ Ed25519.extraKeys.Nodup ∧ ∀ n ∈ Ed25519.extraKeys, n < 2 ^ 256 := by
  decide +kernel

/-- The crate satisfies what C32 and C58 assume, as the RFC does. -/
theorem C77_laws (strict : Bool) : SigLaws (dalek strict) where
  verify_sign kp m := by
    rw [dalek_verify, dalek_publicOf, dalek_sign]
    exact (Ed25519.verifyCrate_of_decode (Ed25519.valid_publicOf kp) _ _).trans (Ed25519.verify_sign kp m)
  valid kp := by
    rw [dalek_validKey, dalek_publicOf, (C77_agrees _ (Ed25519.valid_publicOf kp)).1]
    exact Ed25519.valid_publicOf kp

/-- An honest certificate is accepted exactly until it expires, with the crate's functions. -/
theorem C77_certificate (strict : Bool) (seed : Arr 32) (c : SignedCertificate) (now : SystemTime)
    (hnow : 0 ≤ now.nanos) :
    ∃ m sent, SignatureNoiseMessage.fromAuthKey (E := dalek strict) seed c = .ok m ∧ serialize m = .ok sent ∧
    ∃ m' cf, deserialize (SignatureNoiseMessage (dalek strict)) sent = .ok m' ∧
      CertificateFormat.new (Base58.encode (Ed25519.publicOf seed).toList) c.public_key m' = .ok cf ∧
      (cf.verify now = .ok () ↔ now.seconds % 2 ^ 32 < c.not_valid_after.toNat) ∧
      (¬ now.seconds % 2 ^ 32 < c.not_valid_after.toNat →
        ∃ msg, cf.verify now = .err (.requirementError msg)) := by
  refine C32_honest (C77_laws strict) seed c _ ?_ now hnow
  rw [dalek_base58, dalek_publicOf]
  exact Base58.decode_encode _

/-- The example of the library, with the crate's functions. -/
theorem C77_example (strict : Bool) (seed : Arr 32) (sI : Keypair) (eI eR sR : Arr 32)
    (now1 now2 t1 t2 : SystemTime) (hn1 : 0 ≤ now1.nanos) (hn2 : 0 ≤ now2.nanos) (ht2 : 0 ≤ t2.nanos)
    (hwin : now1.seconds % 2 ^ 32 < (now2.seconds + 5) % 2 ^ 32)
    (hk : (exampleRun rfc eI eR sR).KeysNonzero rfc) (hkt : ((exampleRun rfc eI eR sR).keys rfc).2 ≠ NX.zeros) :
    ∃ i1 w1 pool w2 w3 m,
      send rfc (Keypair.default rfc eI)
        (Miner.new rfc sI (Base58.encode (Ed25519.publicOf seed).toList)).noise_session freshBuffer = .ok (i1, w1) ∧
      (Pool.new (E := dalek strict) rfc seed sR).handle rfc (Keypair.default rfc eR) now1 now2
        (tryRead freshBuffer w1) = .ok (pool, w2, w3) ∧
      Miner.listen rfc (dalek strict) ⟨Base58.encode (Ed25519.publicOf seed).toList, i1⟩ freshBuffer
          [(t1, w2), (t2, w3)] =
        ([decide (t2.seconds % 2 ^ 32 < (now2.seconds + 5) % 2 ^ 32)], .ok m) ∧
      m.noise_session.getRemoteStaticPublicKey = some (rfc.publicOf sR) ∧
      InSync m.noise_session pool.noise_session ((exampleRun rfc eI eR sR).keys rfc) 0 1 := by
  refine C58_honest rfc (dalek strict) rfc_correct rfc_dh (C77_laws strict) seed _ ?_ sI eI eR sR now1 now2 t1 t2
    hn1 hn2 ht2 hwin hk hkt
  rw [dalek_base58, dalek_publicOf]
  exact Base58.decode_encode _

/- The hypotheses are those of C71_example. -/
example : (exampleRun rfc sampleRun.eI sampleRun.eR sampleRun.sR).KeysNonzero rfc ∧
    ((exampleRun rfc sampleRun.eI sampleRun.eR sampleRun.sR).keys rfc).2 ≠ NX.zeros := by
  unfold NX.Run.KeysNonzero
  decide +kernel

/-- For every key whatsoever the second half of a signature is determined by the first. -/
theorem C77_second_half (key : Arr 32) (m : Bytes) (sig sig' : Arr 64)
    (hR : sig.toList.take 32 = sig'.toList.take 32)
    (h : Ed25519.verifyCrate key m sig = true) (h' : Ed25519.verifyCrate key m sig' = true) : sig = sig' := by
  cases hE : Ed25519.decodeCrate key with
  | none =>
    rw [Ed25519.verifyCrate, hE, Ed25519.check] at h
    cases h
  | some E =>
    obtain ⟨A, hA, -⟩ := Ed25519.decodeCrate_rep hE
    rw [Ed25519.verifyCrate_eq key E hE A hA] at h h'
    rw [← hR] at h'
    have hlen : ∀ s : Arr 64, (s.toList.drop 32).length = 32 := fun s => by rw [List.length_drop, s.len]
    have hs : fromLE (sig.toList.drop 32) = fromLE (sig'.toList.drop 32) :=
      Ed25519.smul_B_inj h.1 h'.1 (sub_left_injective (Ed25519.enc_inj (h.2.trans h'.2.symm)))
    apply arr_ext
    rw [← List.take_append_drop 32 sig.toList, ← List.take_append_drop 32 sig'.toList, hR,
      ← toLE_fromLE' 32 _ (hlen sig), ← toLE_fromLE' 32 _ (hlen sig'), hs]

example : Ed25519.verifyCrate (Ed25519.publicOf (hexKey 5)) [1] (Ed25519.sign (hexKey 5) [1]) = true :=
  (Ed25519.verifyCrate_of_decode (Ed25519.valid_publicOf _) _ _).trans (Ed25519.verify_sign _ _)

/-- The neutral point has four encodings that are accepted: an authority key that is any of them makes one constant
signature valid for every message (C72 for the crate). -/
theorem C77_neutral (sign y : Nat) (hs : sign < 2) (hy : y = 1 ∨ y = 2 ^ 255 - 18) (m : Bytes) :
    Ed25519.verifyCrate (Ed25519.keyOf (y + 2 ^ 255 * sign)) m neutralSignature = true := by
  have hd : ∀ sign < 2, ∀ y, y = 1 ∨ y = 2 ^ 255 - 18 →
      Ed25519.decodeCrate (Ed25519.keyOf (y + 2 ^ 255 * sign)) = some ⟨0, 1, 1, 0⟩ := by
    intro sign hs y hy
    rcases (show sign = 0 ∨ sign = 1 by omega) with rfl | rfl <;> rcases hy with rfl | rfl <;> decide +kernel
  rw [Ed25519.verifyCrate_eq _ _ (hd sign hs y hy) 0 Ed25519.rep_zero]
  have ht : neutralSignature.toList.take 32 = neutralKey.toList := by decide
  have hz : fromLE (neutralSignature.toList.drop 32) = 0 := by decide
  rw [hz, ht]
  refine ⟨by decide, ?_⟩
  rw [zero_smul, smul_zero, sub_zero]
  exact neutral_enc.symm

/-- Three of the four are refused by the RFC. -/
example : Ed25519.decode (Ed25519.keyOf 1) ≠ none ∧ Ed25519.decode (Ed25519.keyOf (1 + 2 ^ 255)) = none ∧
    Ed25519.decode (Ed25519.keyOf (2 ^ 255 - 18)) = none ∧ Ed25519.decode (Ed25519.keyOf (2 ^ 256 - 18)) = none := by
  decide +kernel

end SV2
