import Verif.Model.Noise.Types
import Verif.Spec.Hex
import Verif.Lemmas.Noise.Cipher
/-!
# C51: keys from hexadecimal strings
-/

namespace SV2
open Noise

/-- A statement about all bytes. -/
theorem forall_byte {p : UInt8 → Prop} (h : ∀ n : Fin 256, p (UInt8.ofNat n.val)) (c : UInt8) : p c := by
  have := h ⟨c.toNat, c.toNat_lt⟩
  simpa using this

theorem hexVal_none : ∀ c, hexVal c = none → Hex.lower c ∉ Hex.digits :=
  forall_byte (by decide +kernel)

theorem hexVal_some : ∀ c v, hexVal c = some v → v.toNat < 16 ∧ Hex.digits.getD v.toNat 0 = Hex.lower c := by
  have : ∀ c, ∀ v ∈ hexVal c, v.toNat < 16 ∧ Hex.digits.getD v.toNat 0 = Hex.lower c :=
    forall_byte (by decide +kernel)
  exact this

theorem digit_inj (a b : Nat) (ha : a < 16) (hb : b < 16) (h : Hex.digits.getD a 0 = Hex.digits.getD b 0) : a = b := by
  have : ∀ a : Nat, a < 16 → ∀ b : Nat, b < 16 → Hex.digits.getD a 0 = Hex.digits.getD b 0 → a = b := by
    decide +kernel
  exact this a ha b hb h

theorem digit_mem : ∀ a, a < 16 → Hex.digits.getD a 0 ∈ Hex.digits := by decide +kernel

theorem combine (hi lo : UInt8) (h1 : hi.toNat < 16) (h2 : lo.toNat < 16) :
    (hi <<< 4 ||| lo).toNat = hi.toNat * 16 + lo.toNat := by
  have : ∀ (a b : Fin 16), (UInt8.ofNat a.val <<< 4 ||| UInt8.ofNat b.val).toNat = a.val * 16 + b.val := by
    decide +kernel
  simpa using this ⟨_, h1⟩ ⟨_, h2⟩

theorem hexDecode_iff : ∀ (t b : Bytes), hexDecode t = some b ↔ t.map Hex.lower = Hex.text b
  | [], b => by
    cases b <;> simp [hexDecode, Hex.text]
  | [c], b => by
    cases b with
    | nil => simp [hexDecode, Hex.text]
    | cons x b => simp [hexDecode, Hex.text]
  | a :: c :: t, b => by
    have ih := hexDecode_iff t
    cases b with
    | nil =>
      simp only [hexDecode, Hex.text, List.map_cons, List.flatMap_nil, reduceCtorEq, iff_false]
      intro h
      simp only [Option.bind_eq_bind, Option.bind_eq_some_iff] at h
      obtain ⟨_, _, _, _, _, _, h⟩ := h
      cases h
    | cons x b =>
      simp only [hexDecode, Option.bind_eq_bind, Option.bind_eq_some_iff, Option.pure_def, Option.some.injEq,
        List.cons.injEq, Hex.text, List.flatMap_cons, List.map_cons, List.cons_append, List.nil_append]
      constructor
      · rintro ⟨hi, h1, lo, h2, tl, h3, rfl, rfl⟩
        have e1 := hexVal_some _ _ h1
        have e2 := hexVal_some _ _ h2
        rw [combine hi lo e1.1 e2.1, show (hi.toNat * 16 + lo.toNat) / 16 = hi.toNat by omega,
          show (hi.toNat * 16 + lo.toNat) % 16 = lo.toNat by omega]
        exact ⟨e1.2.symm, e2.2.symm, (ih tl).mp h3⟩
      · rintro ⟨h1, h2, h3⟩
        have hx := x.toNat_lt
        cases e1 : hexVal a with
        | none => exact absurd (h1 ▸ digit_mem _ (by omega)) (hexVal_none _ e1)
        | some hi =>
          cases e2 : hexVal c with
          | none => exact absurd (h2 ▸ digit_mem _ (by omega)) (hexVal_none _ e2)
          | some lo =>
            refine ⟨hi, rfl, lo, rfl, b, (ih b).mpr h3, ?_, rfl⟩
            have f1 := hexVal_some _ _ e1
            have f2 := hexVal_some _ _ e2
            have g1 := digit_inj _ _ f1.1 (by omega) (f1.2.trans h1)
            have g2 := digit_inj _ _ f2.1 (by omega) (f2.2.trans h2)
            apply UInt8.toNat_inj.mp
            rw [combine hi lo f1.1 f2.1]
            omega

/-- `from_str` of `Key`, `Psk`, `PrivateKey` and `PublicKey` gives `k` exactly for the 64 hexadecimal digits of `k`,
in either case. -/
theorem C51_from_str (s : String) (k : Arr 32) :
    keyFromStr s = .ok k ↔ (strBytes s).map Hex.lower = Hex.text k.toList := by
  rw [← hexDecode_iff]
  unfold keyFromStr decodeStr32
  cases h : hexDecode (strBytes s) with
  | none => simp
  | some x =>
    simp only [Option.some.injEq]
    split
    · rename_i hl
      simp only [Out.ok.injEq]
      constructor
      · intro h; rw [← h]
      · intro h; exact arr_ext h
    · rename_i hl
      simp only [reduceCtorEq, false_iff]
      intro h
      exact hl (by rw [h]; exact k.len)

/-- Every other string is an `InvalidInputError`; there is no panic. -/
theorem C51_otherwise (s : String) :
    (∃ k : Arr 32, (strBytes s).map Hex.lower = Hex.text k.toList) ∨ keyFromStr s = .err .invalidInputError := by
  cases h : keyFromStr s with
  | ok k => exact .inl ⟨k, (C51_from_str s k).mp h⟩
  | err e =>
    right
    unfold keyFromStr decodeStr32 at h
    split at h
    · split at h
      · cases h
      · cases h; rfl
    · cases h; rfl
  | panic =>
    unfold keyFromStr decodeStr32 at h
    split at h
    · split at h <;> cases h
    · cases h

/-- A string that is accepted has 64 bytes. -/
theorem C51_length (s : String) (k : Arr 32) (h : keyFromStr s = .ok k) : (strBytes s).length = 64 := by
  have := congrArg List.length ((C51_from_str s k).mp h)
  rw [List.length_map] at this
  rw [this, Hex.text, List.length_flatMap]
  simp [List.map_const', k.len]

/-- The hexadecimal string of some bytes. -/
def hexString (b : Bytes) : String :=
  String.ofList (b.flatMap fun x => ["0123456789abcdef".toList.getD (x.toNat / 16) '0',
    "0123456789abcdef".toList.getD (x.toNat % 16) '0'])

theorem strBytes_ofList (l : List Char) : strBytes (String.ofList l) = l.flatMap String.utf8EncodeChar := by
  simp [strBytes, List.utf8Encode]

theorem strBytes_hexString (b : Bytes) : strBytes (hexString b) = Hex.text b := by
  have hd : ∀ i : Fin 16, String.utf8EncodeChar ("0123456789abcdef".toList.getD i.val '0') = [Hex.digits.getD i.val 0] := by
    decide +kernel
  rw [hexString, strBytes_ofList, List.flatMap_assoc, Hex.text]
  congr 1
  funext x
  have := x.toNat_lt
  have h1 := hd ⟨x.toNat / 16, by omega⟩
  have h2 := hd ⟨x.toNat % 16, by omega⟩
  simp only at h1 h2
  simp only [List.flatMap_cons, List.flatMap_nil, h1, h2, List.cons_append, List.nil_append, List.append_nil]

theorem lower_text (b : Bytes) : (Hex.text b).map Hex.lower = Hex.text b := by
  have hd : ∀ i : Fin 16, Hex.lower (Hex.digits.getD i.val 0) = Hex.digits.getD i.val 0 := by decide +kernel
  rw [Hex.text, List.map_flatMap]
  congr 1
  funext x
  have := x.toNat_lt
  have h1 := hd ⟨x.toNat / 16, by omega⟩
  have h2 := hd ⟨x.toNat % 16, by omega⟩
  simp only at h1 h2
  simp only [List.map_cons, List.map_nil, h1, h2]

/-- Every key has such a string. -/
theorem C51_every_key (k : Arr 32) : keyFromStr (hexString k.toList) = .ok k := by
  rw [C51_from_str, strBytes_hexString, lower_text]

/-- So `PublicKey::from_str` accepts each of the low-order points that `from_bytes` rejects. -/
theorem C51_low_order (k : Arr 32) (h : k.toList ∈ forbiddenCurveValues) :
    publicKeyFromBytes k = .err .invalidPublicKeyError ∧ ∃ s : String, keyFromStr s = .ok k :=
  ⟨by simp [publicKeyFromBytes, h], _, C51_every_key k⟩

example : keyFromStr "4A3acbfdb163dec651dfa3194dece676d437029c62a408b4c5ea9114246e4893" =
    .ok ⟨[0x4a, 0x3a, 0xcb, 0xfd, 0xb1, 0x63, 0xde, 0xc6, 0x51, 0xdf, 0xa3, 0x19, 0x4d, 0xec, 0xe6, 0x76, 0xd4, 0x37,
      0x02, 0x9c, 0x62, 0xa4, 0x08, 0xb4, 0xc5, 0xea, 0x91, 0x14, 0x24, 0x6e, 0x48, 0x93], rfl⟩ := by decide +kernel

/-- One of them. -/
example : publicKeyFromBytes ⟨1 :: List.replicate 31 0, rfl⟩ = .err .invalidPublicKeyError := by decide +kernel

/-! ## C65 -/

variable (P : Prims)

/-- **C65.** A key is empty exactly if its 32 bytes are zero. -/
theorem C65_is_empty (k : Arr 32) : isEmptyKey k = true ↔ ∀ x ∈ k.toList, x = 0 := by
  have he : EMPTY.toList = List.replicate 32 0 := rfl
  simp only [isEmptyKey, decide_eq_true_eq]
  constructor
  · rintro rfl x hx
    rw [he] at hx
    exact List.eq_of_mem_replicate hx
  · intro h
    refine arr_ext ?_
    rw [he]
    exact List.eq_replicate_iff.mpr ⟨k.len, h⟩

/-- **C65.** `from_key` fails, with `InvalidKeyError`, exactly for the empty key; otherwise the pair consists of the key
and its public key, and is the one `default` makes when it draws that key. -/
theorem C65_from_key (k : Arr 32) :
    ((∀ x ∈ k.toList, x = 0) ∧ Keypair.fromKey P k = .err .invalidKeyError) ∨
    ((∃ x ∈ k.toList, x ≠ 0) ∧ ∃ kp, Keypair.fromKey P k = .ok kp ∧ kp.private_key = k ∧ kp.getPublicKey = P.publicOf k ∧
      generatePublicKey P k = .ok kp.getPublicKey ∧ kp = Keypair.default P k) := by
  have he := C65_is_empty k
  unfold Keypair.fromKey generatePublicKey
  cases h : isEmptyKey k
  · right
    have : ¬ ∀ x ∈ k.toList, x = 0 := fun hh => by rw [he.mpr hh] at h; cases h
    refine ⟨by simpa using this, ⟨k, P.publicOf k⟩, by simp, rfl, rfl, by simp [Keypair.getPublicKey], rfl⟩
  · exact .inl ⟨he.mp h, by simp⟩

/-- **C65.** `Key::generate_public_key` has no such check: it returns a public key for the empty key too, the one for which
`PrivateKey::generate_public_key` reports an error. -/
theorem C65_key_unchecked (k : Arr 32) :
    (generatePublicKey P k = .ok (keyGeneratePublicKey P k)) ∨
    (generatePublicKey P k = .err .invalidKeyError ∧ keyGeneratePublicKey P k = P.publicOf EMPTY) := by
  unfold generatePublicKey
  cases h : isEmptyKey k
  · exact .inl (by simp [keyGeneratePublicKey])
  · simp only [isEmptyKey, decide_eq_true_eq] at h
    exact .inr ⟨by simp, by rw [h]; rfl⟩

/-- **C65.** A cleared pair is empty in both halves, equals `new_empty`, and no new pair can be made from its private key. -/
theorem C65_clear (kp : Keypair) : kp.clear = Keypair.empty ∧ kp.clear.isEmpty = true ∧
    isEmptyKey kp.clear.getPublicKey = true ∧ Keypair.fromKey P kp.clear.private_key = .err .invalidKeyError := by
  have : isEmptyKey EMPTY = true := by decide
  exact ⟨rfl, this, this, by simp [Keypair.fromKey, generatePublicKey, Keypair.clear, clearKey, this]⟩

/-- **C65.** `Keypair::is_empty` looks at the private half only. -/
theorem C65_pair_is_empty (kp : Keypair) : kp.isEmpty = true ↔ ∀ x ∈ kp.private_key.toList, x = 0 :=
  C65_is_empty kp.private_key

end SV2
