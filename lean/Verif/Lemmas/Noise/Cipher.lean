import Verif.Model.Noise.Session
import Verif.Lemmas.Codec
/-!
# The cipher state: every outcome of every call
-/

namespace SV2.Noise
variable {P : Prims}

theorem arr_ext {n : Nat} {a b : Arr n} (h : a.toList = b.toList) : a = b := by
  cases a; cases b; cases h; rfl

theorem isEmptyKey_iff (k : Arr 32) : isEmptyKey k = true ↔ k = EMPTY := by simp [isEmptyKey]

theorem hasKey_iff (cs : CipherState) : cs.hasKey = true ↔ cs.k ≠ EMPTY := by
  simp [CipherState.hasKey, isEmptyKey]

theorem MAX_NONCE_toNat : MAX_NONCE.toNat = 2 ^ 64 - 1 := by decide

theorem lt_of_ne_max {n : UInt64} (h : n ≠ MAX_NONCE) : n.toNat + 1 < 2 ^ 64 := by
  have h1 := n.toNat_lt
  have h2 : n.toNat ≠ MAX_NONCE.toNat := fun e => h (UInt64.toNat_inj.mp e)
  rw [MAX_NONCE_toNat] at h2
  omega

theorem toNat_succ {n : UInt64} (h : n ≠ MAX_NONCE) : (n + 1).toNat = n.toNat + 1 := by
  have := lt_of_ne_max h
  rw [UInt64.toNat_add]
  simp
  omega

theorem nonceIncrement_ok {n : UInt64} (h : n ≠ MAX_NONCE) : nonceIncrement n = .ok (n + 1) := by
  rw [nonceIncrement, if_pos (lt_of_ne_max h)]

/-- The text part and the tag part of a buffer. -/
def body (b : Bytes) : Bytes := b.take (b.length - 16)
def tag (b : Bytes) : Bytes := b.drop (b.length - 16)

theorem take_body (b : Bytes) : b.take (b.length - MAC_LENGTH) = body b := rfl
theorem drop_tag (b : Bytes) : b.drop (b.length - MAC_LENGTH) = tag b := rfl

theorem body_tag (b : Bytes) : body b ++ tag b = b := List.take_append_drop _ _

theorem tag_length {b : Bytes} (h : 16 ≤ b.length) : (tag b).length = 16 := by
  simp [tag]; omega

theorem body_append (c : Bytes) (m : Arr 16) : body (c ++ m.toList) = c := by
  simp [body, m.len]

theorem tag_append (c : Bytes) (m : Arr 16) : tag (c ++ m.toList) = m.toList := by
  simp [tag, m.len]

namespace CipherState

theorem encrypt_exhausted (cs : CipherState) (ad p : Bytes) (h : cs.n = MAX_NONCE) :
    cs.encryptWithAd P ad p = (.err .exhaustedNonceError, cs, p) := by
  simp [encryptWithAd, nonceValue, h]

theorem encrypt_noKey (cs : CipherState) (ad p : Bytes) (h : cs.n ≠ MAX_NONCE) (hk : cs.k = EMPTY) :
    cs.encryptWithAd P ad p = (.err .emptyKeyError, cs, p) := by
  simp [encryptWithAd, nonceValue, h, hasKey, isEmptyKey, hk]

theorem encrypt_ok (cs : CipherState) (ad p : Bytes) (h : cs.n ≠ MAX_NONCE) (hk : cs.k ≠ EMPTY) :
    cs.encryptWithAd P ad p = (.ok (P.aeadSeal cs.k (prepNonce cs.n) ad p).2, ⟨cs.k, cs.n + 1⟩,
      (P.aeadSeal cs.k (prepNonce cs.n) ad p).1) := by
  simp [encryptWithAd, nonceValue, h, hasKey, isEmptyKey, hk, nonceIncrement_ok h]

theorem decrypt_exhausted (cs : CipherState) (ad c : Bytes) (m : Arr 16) (h : cs.n = MAX_NONCE) :
    cs.decryptWithAd P ad c m = (.err .exhaustedNonceError, cs, c) := by
  simp [decryptWithAd, nonceValue, h]

theorem decrypt_noKey (cs : CipherState) (ad c : Bytes) (m : Arr 16) (h : cs.n ≠ MAX_NONCE)
    (hk : cs.k = EMPTY) : cs.decryptWithAd P ad c m = (.err .emptyKeyError, cs, c) := by
  simp [decryptWithAd, nonceValue, h, hasKey, isEmptyKey, hk]

theorem decrypt_none (cs : CipherState) (ad c : Bytes) (m : Arr 16) (h : cs.n ≠ MAX_NONCE)
    (hk : cs.k ≠ EMPTY) (ho : P.aeadOpen cs.k (prepNonce cs.n) ad c m = none) :
    cs.decryptWithAd P ad c m = (.err .decryptionError, cs, c) := by
  simp [decryptWithAd, nonceValue, h, hasKey, isEmptyKey, hk, ho]

theorem decrypt_some (cs : CipherState) (ad c p : Bytes) (m : Arr 16) (h : cs.n ≠ MAX_NONCE)
    (hk : cs.k ≠ EMPTY) (ho : P.aeadOpen cs.k (prepNonce cs.n) ad c m = some p) :
    cs.decryptWithAd P ad c m = (.ok (), ⟨cs.k, cs.n + 1⟩, p) := by
  simp [decryptWithAd, nonceValue, h, hasKey, isEmptyKey, hk, ho, nonceIncrement_ok h]

/-- All outcomes of `decryptWithAd`. -/
theorem decrypt_cases (cs : CipherState) (ad c : Bytes) (m : Arr 16) :
    (∃ p, cs.n ≠ MAX_NONCE ∧ cs.k ≠ EMPTY ∧ P.aeadOpen cs.k (prepNonce cs.n) ad c m = some p ∧
      cs.decryptWithAd P ad c m = (.ok (), ⟨cs.k, cs.n + 1⟩, p)) ∨
    (∃ e, cs.decryptWithAd P ad c m = (.err e, cs, c)) := by
  by_cases hn : cs.n = MAX_NONCE
  · exact .inr ⟨_, decrypt_exhausted cs ad c m hn⟩
  by_cases hk : cs.k = EMPTY
  · exact .inr ⟨_, decrypt_noKey cs ad c m hn hk⟩
  rcases ho : P.aeadOpen cs.k (prepNonce cs.n) ad c m with _ | p
  · exact .inr ⟨_, decrypt_none cs ad c m hn hk ho⟩
  · exact .inl ⟨p, hn, hk, rfl, decrypt_some cs ad c p m hn hk ho⟩

/-- All outcomes of `encryptWithAd`. -/
theorem encrypt_cases (cs : CipherState) (ad p : Bytes) :
    (cs.n ≠ MAX_NONCE ∧ cs.k ≠ EMPTY ∧
      cs.encryptWithAd P ad p = (.ok (P.aeadSeal cs.k (prepNonce cs.n) ad p).2, ⟨cs.k, cs.n + 1⟩,
      (P.aeadSeal cs.k (prepNonce cs.n) ad p).1)) ∨
    (∃ e, cs.encryptWithAd P ad p = (.err e, cs, p)) := by
  by_cases hn : cs.n = MAX_NONCE
  · exact .inr ⟨_, encrypt_exhausted cs ad p hn⟩
  by_cases hk : cs.k = EMPTY
  · exact .inr ⟨_, encrypt_noKey cs ad p hn hk⟩
  · exact .inl ⟨hn, hk, encrypt_ok cs ad p hn hk⟩

/-- The wire form of one transport message. -/
def sealed (P : Prims) (k : Arr 32) (n : UInt64) (ad p : Bytes) : Bytes :=
  (P.aeadSeal k (prepNonce n) ad p).1 ++ (P.aeadSeal k (prepNonce n) ad p).2.toList

theorem sealed_length (k : Arr 32) (n : UInt64) (ad p : Bytes) :
    (sealed P k n ad p).length = p.length + 16 := by
  simp [sealed, P.seal_length, (P.aeadSeal k (prepNonce n) ad p).2.len]

theorem write_ok (cs : CipherState) (b : Bytes) (hl : 16 ≤ b.length) (h : cs.n ≠ MAX_NONCE)
    (hk : cs.k ≠ EMPTY) :
    cs.writeMessageRegular P b = (.ok (), ⟨cs.k, cs.n + 1⟩, sealed P cs.k cs.n [] (body b)) := by
  unfold writeMessageRegular
  rw [if_neg (by simp [MAC_LENGTH]; omega)]
  simp only [take_body, encrypt_ok cs [] (body b) h hk]
  rfl

/-- All outcomes of `writeMessageRegular` for a buffer with room for the tag. -/
theorem write_cases (cs : CipherState) (b : Bytes) (hl : 16 ≤ b.length) :
    (cs.n ≠ MAX_NONCE ∧ cs.k ≠ EMPTY ∧
      cs.writeMessageRegular P b = (.ok (), ⟨cs.k, cs.n + 1⟩, sealed P cs.k cs.n [] (body b))) ∨
    (∃ e, cs.writeMessageRegular P b = (.err e, cs, b)) := by
  rcases encrypt_cases (P := P) cs [] (body b) with ⟨hn, hk, _⟩ | ⟨e, he⟩
  · exact .inl ⟨hn, hk, write_ok cs b hl hn hk⟩
  · right
    refine ⟨e, ?_⟩
    unfold writeMessageRegular
    rw [if_neg (by simp [MAC_LENGTH]; omega)]
    simp only [take_body, drop_tag, he, body_tag]

theorem write_exhausted (cs : CipherState) (b : Bytes) (hl : 16 ≤ b.length) (h : cs.n = MAX_NONCE) :
    cs.writeMessageRegular P b = (.err .exhaustedNonceError, cs, b) := by
  unfold writeMessageRegular
  rw [if_neg (by simp [MAC_LENGTH]; omega)]
  simp only [take_body, drop_tag, encrypt_exhausted cs [] (body b) h, body_tag]

theorem write_noKey (cs : CipherState) (b : Bytes) (hl : 16 ≤ b.length) (h : cs.n ≠ MAX_NONCE)
    (hk : cs.k = EMPTY) : cs.writeMessageRegular P b = (.err .emptyKeyError, cs, b) := by
  unfold writeMessageRegular
  rw [if_neg (by simp [MAC_LENGTH]; omega)]
  simp only [take_body, drop_tag, encrypt_noKey cs [] (body b) h hk, body_tag]

/-- The tag of a buffer, as an array. -/
def tagArr (b : Bytes) (hl : 16 ≤ b.length) : Arr 16 := ⟨tag b, tag_length hl⟩

theorem read_eq (cs : CipherState) (b : Bytes) (hl : 16 ≤ b.length) :
    cs.readMessageRegular P b =
      let r := cs.decryptWithAd P [] (body b) (tagArr b hl)
      (r.1, r.2.1, r.2.2 ++ tag b) := by
  unfold readMessageRegular
  rw [if_neg (by simp [MAC_LENGTH]; omega)]
  have : Arr.ofSlice? 16 (List.drop (b.length - MAC_LENGTH) b) = some (tagArr b hl) :=
    Arr.ofSlice?_eq (tagArr b hl)
  simp only [this]
  rfl

/-- All outcomes of `readMessageRegular` for a buffer that can hold a tag. -/
theorem read_cases (cs : CipherState) (b : Bytes) (hl : 16 ≤ b.length) :
    (∃ p, cs.n ≠ MAX_NONCE ∧ cs.k ≠ EMPTY ∧
      P.aeadOpen cs.k (prepNonce cs.n) [] (body b) (tagArr b hl) = some p ∧
      cs.readMessageRegular P b = (.ok (), ⟨cs.k, cs.n + 1⟩, p ++ tag b)) ∨
    (∃ e, cs.readMessageRegular P b = (.err e, cs, b)) := by
  rcases decrypt_cases (P := P) cs [] (body b) (tagArr b hl) with ⟨p, hn, hk, ho, hd⟩ | ⟨e, he⟩
  · left
    refine ⟨p, hn, hk, ho, ?_⟩
    rw [read_eq cs b hl, hd]
  · right
    refine ⟨e, ?_⟩
    rw [read_eq cs b hl, he]
    simp [body_tag]

end CipherState

end SV2.Noise
