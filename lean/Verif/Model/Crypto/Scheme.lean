import Verif.Model.Crypto.Ed25519
/-!
# Ed25519 and base58 as the dependencies of the certificates
-/

namespace SV2.Crypto

/-- `ed25519_dalek` and `bitcoin::util::base58` as RFC 8032 and the definition of base58 have them.  `strict`: with an
`ed25519` crate of at least 1.3, whose `Signature::new` panics when the top three bits are set. -/
def authority (strict : Bool) : SigScheme where
  KeyPair := Arr 32
  publicOf := Ed25519.publicOf
  decodable sig := !strict || Ed25519.decodable sig
  sign := Ed25519.sign
  sign_decodable seed m := by
    rw [Bool.or_eq_true]
    right
    unfold Ed25519.decodable Ed25519.sign
    have hR : ∀ R : Arr 32, ∀ s : Nat, s < Ed25519.L → fromLE ((R.toList ++ toLE 32 s).drop 32) < 2 ^ 253 := by
      intro R s hs
      rw [List.drop_left' R.len]
      have : ∀ n v, fromLE (toLE n v) ≤ v := by
        intro n
        induction n with
        | zero => intro v; simp [toLE, fromLE]
        | succ n ih =>
          intro v
          have := ih (v / 256)
          simp only [toLE, fromLE, UInt8.toNat_ofNat']
          omega
      exact Nat.lt_of_le_of_lt (this 32 s) (Nat.lt_trans hs (by decide))
    simp only [decide_eq_true_eq]
    exact hR _ _ (Nat.mod_lt _ (by decide))
  validKey k := (Ed25519.decode k).isSome
  verify := Ed25519.verify
  base58 := Base58.decode

/-- The same with the public keys that the crate `ed25519_dalek` accepts. -/
def dalek (strict : Bool) : SigScheme :=
  { authority strict with
    validKey := fun k => (Ed25519.decodeCrate k).isSome
    verify := Ed25519.verifyCrate }

end SV2.Crypto
