import Verif.Lemmas.Noise.Session
/-!
# The handshake: every outcome of every call
-/

namespace SV2.Noise
variable {P : Prims}

open CipherState (sealed tagArr)

theorem zero_ne_max : (0 : UInt64) ≠ MAX_NONCE := by decide

namespace SymmetricState

/-- `encrypt_and_hash` with a fresh key. -/
theorem encrypt_ok (ss : SymmetricState) (b : Bytes) (hl : 16 ≤ b.length) (hn : ss.cs.n = 0)
    (hk : ss.cs.k ≠ EMPTY) :
    ss.encryptAndHash P b = (.ok (),
      ⟨⟨ss.cs.k, 1⟩, ss.ck, P.hash (ss.h.toList ++ sealed P ss.cs.k 0 ss.h.toList (body b))⟩,
      sealed P ss.cs.k 0 ss.h.toList (body b)) := by
  unfold encryptAndHash
  rw [if_neg (by simp [MAC_LENGTH]; omega)]
  simp only [take_body, CipherState.encrypt_ok ss.cs ss.h.toList (body b) (by rw [hn]; exact zero_ne_max) hk]
  rw [hn]
  rfl

theorem encrypt_noKey (ss : SymmetricState) (b : Bytes) (hl : 16 ≤ b.length) (hn : ss.cs.n = 0)
    (hk : ss.cs.k = EMPTY) : ss.encryptAndHash P b = (.err .emptyKeyError, ss, b) := by
  unfold encryptAndHash
  rw [if_neg (by simp [MAC_LENGTH]; omega)]
  simp only [take_body, drop_tag,
    CipherState.encrypt_noKey ss.cs ss.h.toList (body b) (by rw [hn]; exact zero_ne_max) hk, body_tag]

theorem encrypt_short (ss : SymmetricState) (b : Bytes) (hl : b.length < 16) :
    ss.encryptAndHash P b = (.err .missingneError, ss, b) := by
  unfold encryptAndHash
  rw [if_pos (by simpa [MAC_LENGTH] using hl)]

theorem decrypt_panic (ss : SymmetricState) (b : Bytes) (hl : b.length < 16 ∨ 2048 < b.length) :
    ss.decryptAndHash P b = (.panic, ss, b) := by
  unfold decryptAndHash
  split
  · rfl
  · split
    · rfl
    · rename_i h1 h2
      simp only [MAC_LENGTH] at h2
      omega

theorem decrypt_eq (ss : SymmetricState) (b : Bytes) (hl : 16 ≤ b.length) (hl2 : b.length ≤ 2048) :
    ss.decryptAndHash P b = match ss.cs.decryptWithAd P ss.h.toList (body b) (tagArr b hl) with
      | (.ok (), cs', p) => (.ok (), mixHash P { ss with cs := cs' } b, p ++ tag b)
      | (.err e, cs', p) => (.err e, { ss with cs := cs' }, p ++ tag b)
      | (.panic, cs', p) => (.panic, { ss with cs := cs' }, p ++ tag b) := by
  unfold decryptAndHash
  rw [if_neg (by omega), if_neg (by simp [MAC_LENGTH]; omega)]
  have : Arr.ofSlice? 16 (List.drop (b.length - MAC_LENGTH) b) = some (tagArr b hl) :=
    Arr.ofSlice?_eq (tagArr b hl)
  simp only [this]
  rfl

theorem decrypt_some (ss : SymmetricState) (b p : Bytes) (hl : 16 ≤ b.length) (hl2 : b.length ≤ 2048)
    (hn : ss.cs.n = 0) (hk : ss.cs.k ≠ EMPTY)
    (ho : P.aeadOpen ss.cs.k (prepNonce 0) ss.h.toList (body b) (tagArr b hl) = some p) :
    ss.decryptAndHash P b =
      (.ok (), ⟨⟨ss.cs.k, 1⟩, ss.ck, P.hash (ss.h.toList ++ b)⟩, p ++ tag b) := by
  rw [decrypt_eq ss b hl hl2,
    CipherState.decrypt_some ss.cs _ _ p _ (by rw [hn]; exact zero_ne_max) hk (by rw [hn]; exact ho), hn]
  rfl

theorem decrypt_none (ss : SymmetricState) (b : Bytes) (hl : 16 ≤ b.length) (hl2 : b.length ≤ 2048)
    (hn : ss.cs.n = 0) (hk : ss.cs.k ≠ EMPTY)
    (ho : P.aeadOpen ss.cs.k (prepNonce 0) ss.h.toList (body b) (tagArr b hl) = none) :
    ss.decryptAndHash P b = (.err .decryptionError, ss, b) := by
  rw [decrypt_eq ss b hl hl2,
    CipherState.decrypt_none ss.cs _ _ _ (by rw [hn]; exact zero_ne_max) hk (by rw [hn]; exact ho)]
  simp [body_tag]

theorem decrypt_noKey (ss : SymmetricState) (b : Bytes) (hl : 16 ≤ b.length) (hl2 : b.length ≤ 2048)
    (hn : ss.cs.n = 0) (hk : ss.cs.k = EMPTY) :
    ss.decryptAndHash P b = (.err .emptyKeyError, ss, b) := by
  rw [decrypt_eq ss b hl hl2,
    CipherState.decrypt_noKey ss.cs _ _ _ (by rw [hn]; exact zero_ne_max) hk]
  simp [body_tag]

end SymmetricState

theorem take32_take32 (b : Bytes) : (b.take 32).take 32 = b.take 32 := by rw [List.take_take, Nat.min_self]

/-- The first 32 bytes as an array. -/
def first32 (b : Bytes) (h : 32 ≤ b.length) : Arr 32 := ⟨b.take 32, by simp; omega⟩

theorem fromSliceHashlen_eq (b : Bytes) (h : 32 ≤ b.length) :
    fromSliceHashlen b = .ok (first32 b h) := by
  unfold fromSliceHashlen
  rw [dif_pos (by simp; omega)]
  rfl

theorem key_forbidden (b : Bytes) (h : 32 ≤ b.length) (hf : b.take 32 ∈ forbiddenCurveValues) :
    (fromSliceHashlen b >>= publicKeyFromBytes) = .err .invalidPublicKeyError := by
  rw [fromSliceHashlen_eq b h]
  show publicKeyFromBytes _ = _
  rw [publicKeyFromBytes, if_pos (by exact hf)]

theorem key_ok (b : Bytes) (h : 32 ≤ b.length) (hf : b.take 32 ∉ forbiddenCurveValues) :
    (fromSliceHashlen b >>= publicKeyFromBytes) = .ok (first32 b h) := by
  rw [fromSliceHashlen_eq b h]
  show publicKeyFromBytes _ = _
  rw [publicKeyFromBytes, if_neg (by exact hf)]

namespace HandshakeState

/-- The ephemeral key pair that a write uses. -/
def useE (hs : HandshakeState) (rnd : Keypair) : HandshakeState :=
  if hs.e.isEmpty then { hs with e := rnd } else hs

@[simp] theorem useE_ss (hs : HandshakeState) (rnd : Keypair) : (hs.useE rnd).ss = hs.ss := by
  unfold useE; split <;> rfl
@[simp] theorem useE_s (hs : HandshakeState) (rnd : Keypair) : (hs.useE rnd).s = hs.s := by
  unfold useE; split <;> rfl
@[simp] theorem useE_rs (hs : HandshakeState) (rnd : Keypair) : (hs.useE rnd).rs = hs.rs := by
  unfold useE; split <;> rfl
@[simp] theorem useE_re (hs : HandshakeState) (rnd : Keypair) : (hs.useE rnd).re = hs.re := by
  unfold useE; split <;> rfl
@[simp] theorem useE_psk (hs : HandshakeState) (rnd : Keypair) : (hs.useE rnd).psk = hs.psk := by
  unfold useE; split <;> rfl

/-! ### First message -/

theorem writeA_short (rnd : Keypair) (hs : HandshakeState) (b : Bytes) (h : b.length < 32) :
    hs.writeMessageA P rnd b = (.err .missingneError, hs, b) := by
  unfold writeMessageA
  rw [if_pos (by simpa [DHLEN] using h)]

theorem writeA_ok (rnd : Keypair) (hs : HandshakeState) (b : Bytes) (h : 32 ≤ b.length) :
    hs.writeMessageA P rnd b = (.ok (),
      { hs.useE rnd with ss := (hs.ss.mixHash P (hs.useE rnd).e.public_key.toList).mixHash P (b.drop 32) },
      (hs.useE rnd).e.public_key.toList ++ b.drop 32) := by
  unfold writeMessageA
  rw [if_neg (by simp [DHLEN]; omega)]
  simp only [useE]
  split <;> rfl

theorem readA_short (hs : HandshakeState) (b : Bytes) (h : b.length < 48) :
    hs.readMessageA P b = (.err .missingreError, hs, b) := by
  unfold readMessageA
  rw [if_pos (by simpa [DHLEN, MAC_LENGTH] using h)]

theorem readA_forbidden (hs : HandshakeState) (b : Bytes) (h : 48 ≤ b.length)
    (hf : b.take 32 ∈ forbiddenCurveValues) :
    hs.readMessageA P b = (.err .invalidPublicKeyError, hs, b) := by
  unfold readMessageA
  rw [if_neg (by simp [DHLEN, MAC_LENGTH]; omega)]
  simp only [show DHLEN = 32 from rfl]
  rw [key_forbidden (b.take 32) (by simp; omega) (by rw [take32_take32]; exact hf)]

theorem first32_take (b : Bytes) (h : 32 ≤ b.length) :
    first32 (b.take 32) (by simp; omega) = first32 b h := by
  apply arr_ext
  exact take32_take32 b

theorem readA_ok (hs : HandshakeState) (b : Bytes) (h : 48 ≤ b.length)
    (hf : b.take 32 ∉ forbiddenCurveValues) :
    hs.readMessageA P b = (.ok (),
      { hs with re := first32 b (by omega)
                ss := (hs.ss.mixHash P (b.take 32)).mixHash P (b.drop 32) }, b) := by
  unfold readMessageA
  rw [if_neg (by simp [DHLEN, MAC_LENGTH]; omega)]
  simp only [show DHLEN = 32 from rfl]
  rw [key_ok (b.take 32) (by simp; omega) (by rw [take32_take32]; exact hf), first32_take b (by omega)]
  simp [first32, take32_take32]

/-! ### Second message, writing -/

/-- The state after `e, ee`. -/
def wrA (P : Prims) (hs : HandshakeState) : HandshakeState :=
  { hs with ss := (hs.ss.mixHash P hs.e.public_key.toList).mixKey P (P.dh hs.e.private_key hs.re).toList }

/-- The encrypted static key. -/
def wrS (P : Prims) (hs : HandshakeState) : Bytes :=
  sealed P (hs.wrA P).ss.cs.k 0 (hs.wrA P).ss.h.toList hs.s.public_key.toList

/-- The state after `e, ee, s, es`. -/
def wrB (P : Prims) (hs : HandshakeState) : HandshakeState :=
  { hs with ss :=
      SymmetricState.mixKey P ⟨⟨(hs.wrA P).ss.cs.k, 1⟩, (hs.wrA P).ss.ck,
        P.hash ((hs.wrA P).ss.h.toList ++ hs.wrS P)⟩ (P.dh hs.s.private_key hs.re).toList }

/-- The encrypted payload. -/
def wrP (P : Prims) (hs : HandshakeState) (payload : Bytes) : Bytes :=
  sealed P (hs.wrB P).ss.cs.k 0 (hs.wrB P).ss.h.toList payload

/-- The symmetric state at the end. -/
def wrSS (P : Prims) (hs : HandshakeState) (payload : Bytes) : SymmetricState :=
  ⟨⟨(hs.wrB P).ss.cs.k, 1⟩, (hs.wrB P).ss.ck, P.hash ((hs.wrB P).ss.h.toList ++ hs.wrP P payload)⟩

theorem body_key (k : Arr 32) (m : Bytes) (hm : m.length = 16) : body (k.toList ++ m) = k.toList := by
  simp [body, k.len, hm]

/-- Every outcome of `write_message_b`. -/
theorem writeB_cases (rnd : Keypair) (hs : HandshakeState) (b : Bytes) :
    (b.length < 32 ∧ hs.writeMessageB P rnd b = (.err .missingneError, hs, b)) ∨
    (32 ≤ b.length ∧ b.length < 80 ∧ ∃ b', b'.length = b.length ∧
      hs.writeMessageB P rnd b = (.err .missingneError, (hs.useE rnd).wrA P, b')) ∨
    (80 ≤ b.length ∧ ((hs.useE rnd).wrA P).ss.cs.k = EMPTY ∧ ∃ b', b'.length = b.length ∧
      hs.writeMessageB P rnd b = (.err .emptyKeyError, (hs.useE rnd).wrA P, b')) ∨
    (80 ≤ b.length ∧ b.length < 96 ∧ ((hs.useE rnd).wrA P).ss.cs.k ≠ EMPTY ∧
      ∃ b', b'.length = b.length ∧
      hs.writeMessageB P rnd b = (.err .missingneError, (hs.useE rnd).wrB P, b')) ∨
    (96 ≤ b.length ∧ ((hs.useE rnd).wrA P).ss.cs.k ≠ EMPTY ∧ ((hs.useE rnd).wrB P).ss.cs.k = EMPTY ∧
      ∃ b', b'.length = b.length ∧
      hs.writeMessageB P rnd b = (.err .emptyKeyError, (hs.useE rnd).wrB P, b')) ∨
    (96 ≤ b.length ∧ ((hs.useE rnd).wrA P).ss.cs.k ≠ EMPTY ∧ ((hs.useE rnd).wrB P).ss.cs.k ≠ EMPTY ∧
      hs.writeMessageB P rnd b = (.ok (((hs.useE rnd).wrSS P (body (b.drop 80))).h,
          ((hs.useE rnd).wrSS P (body (b.drop 80))).split P),
        { hs.useE rnd with ss := ((hs.useE rnd).wrSS P (body (b.drop 80))).clear },
        (hs.useE rnd).e.public_key.toList ++ (hs.useE rnd).wrS P ++
          (hs.useE rnd).wrP P (body (b.drop 80)))) := by
  have hE : ∀ hs : HandshakeState, (if hs.e.isEmpty then { hs with e := rnd } else hs) = hs.useE rnd :=
    fun _ => rfl
  unfold writeMessageB
  simp only [hE]
  generalize hs.useE rnd = hs'
  by_cases h1 : b.length < 32
  · left
    refine ⟨h1, ?_⟩
    rw [if_pos (by simpa [DHLEN] using h1)]
  rw [if_neg (by simpa [DHLEN] using h1)]
  have hlen : (b.drop DHLEN).length = b.length - 32 := by simp [DHLEN]
  by_cases h2 : b.length < 80
  · right; left
    refine ⟨by omega, h2, ?_⟩
    rw [if_pos (by rw [hlen]; simp [DHLEN, MAC_LENGTH]; omega)]
    exact ⟨_, by simp [hs'.e.public_key.len, DHLEN]; omega, rfl⟩
  rw [if_neg (by rw [hlen]; simp [DHLEN, MAC_LENGTH]; omega)]
  have hns : (hs'.s.public_key.toList ++ List.drop DHLEN (List.take (DHLEN + MAC_LENGTH)
      (b.drop DHLEN))).length = 48 := by
    simp [hs'.s.public_key.len, DHLEN, MAC_LENGTH]; omega
  have hbody : body (hs'.s.public_key.toList ++ List.drop DHLEN (List.take (DHLEN + MAC_LENGTH)
      (b.drop DHLEN))) = hs'.s.public_key.toList := by
    apply body_key
    simp [DHLEN, MAC_LENGTH]; omega
  by_cases h3 : (hs'.wrA P).ss.cs.k = EMPTY
  · right; right; left
    refine ⟨by omega, h3, ?_⟩
    erw [SymmetricState.encrypt_noKey (P := P) (hs'.wrA P).ss _ (by rw [hns]; decide) rfl h3]
    refine ⟨_, ?_, rfl⟩
    simp only [List.length_append, hs'.e.public_key.len, List.length_drop, DHLEN, MAC_LENGTH] at hns ⊢
    omega
  have hrest : (List.drop (DHLEN + MAC_LENGTH) (b.drop DHLEN)) = b.drop 80 := by
    simp [DHLEN, MAC_LENGTH, List.drop_drop]
  have henc := SymmetricState.encrypt_ok (P := P) (hs'.wrA P).ss (hs'.s.public_key.toList ++
    List.drop DHLEN (List.take (DHLEN + MAC_LENGTH) (b.drop DHLEN))) (by rw [hns]; decide) rfl h3
  rw [hbody] at henc
  simp only [wrA] at henc
  simp only [Keypair.dh]
  erw [henc]
  simp only [hrest]
  have hwS : (hs'.wrS P).length = 48 := by
    unfold wrS
    rw [CipherState.sealed_length, hs'.s.public_key.len]
  by_cases h4 : b.length < 96
  · right; right; right; left
    refine ⟨by omega, h4, h3, ?_⟩
    erw [SymmetricState.encrypt_short (P := P) (hs'.wrB P).ss _ (by simp; omega)]
    refine ⟨_, ?_, rfl⟩
    show (hs'.e.public_key.toList ++ hs'.wrS P ++ b.drop 80).length = _
    simp only [List.length_append, hwS, hs'.e.public_key.len, List.length_drop]
    omega
  by_cases h5 : (hs'.wrB P).ss.cs.k = EMPTY
  · right; right; right; right; left
    refine ⟨by omega, h3, h5, ?_⟩
    erw [SymmetricState.encrypt_noKey (P := P) (hs'.wrB P).ss _ (by simp; omega) rfl h5]
    refine ⟨_, ?_, rfl⟩
    show (hs'.e.public_key.toList ++ hs'.wrS P ++ b.drop 80).length = _
    simp only [List.length_append, hwS, hs'.e.public_key.len, List.length_drop]
    omega
  · right; right; right; right; right
    refine ⟨by omega, h3, h5, ?_⟩
    erw [SymmetricState.encrypt_ok (P := P) (hs'.wrB P).ss _ (by simp; omega) rfl h5]
    rfl

/-! ### Second message, reading -/

/-- The state after `e, ee`. -/
def rdA (P : Prims) (hs : HandshakeState) (re : Arr 32) : HandshakeState :=
  { hs with re := re, ss := (hs.ss.mixHash P re.toList).mixKey P (P.dh hs.e.private_key re).toList }

/-- The state after `e, ee, s`, where `encS` is the encrypted static key. -/
def rdS (P : Prims) (hs : HandshakeState) (re : Arr 32) (encS : Bytes) : HandshakeState :=
  { hs.rdA P re with ss := ⟨⟨(hs.rdA P re).ss.cs.k, 1⟩, (hs.rdA P re).ss.ck,
      P.hash ((hs.rdA P re).ss.h.toList ++ encS)⟩ }

/-- The state after `e, ee, s, es`. -/
def rdB (P : Prims) (hs : HandshakeState) (re : Arr 32) (encS : Bytes) (rs : Arr 32) : HandshakeState :=
  { hs.rdS P re encS with
    rs := rs, ss := (hs.rdS P re encS).ss.mixKey P (P.dh hs.e.private_key rs).toList }

/-- The symmetric state at the end. -/
def rdSS (P : Prims) (hs : HandshakeState) (re : Arr 32) (encS : Bytes) (rs : Arr 32) (encP : Bytes) :
    SymmetricState :=
  ⟨⟨(hs.rdB P re encS rs).ss.cs.k, 1⟩, (hs.rdB P re encS rs).ss.ck,
    P.hash ((hs.rdB P re encS rs).ss.h.toList ++ encP)⟩

/-- The encrypted static key in a second message. -/
def partS (b : Bytes) : Bytes := (b.drop 32).take 48

theorem partS_length {b : Bytes} (h : 80 ≤ b.length) : (partS b).length = 48 := by
  simp [partS]; omega

/-- The plaintext of the encrypted static key, when it decrypts. -/
def openS (P : Prims) (hs : HandshakeState) (b : Bytes) (h : 80 ≤ b.length) : Option Bytes :=
  let a := hs.rdA P (first32 b (by omega))
  if a.ss.cs.k = EMPTY then none
  else P.aeadOpen a.ss.cs.k (prepNonce 0) a.ss.h.toList (body (partS b))
    (tagArr (partS b) (by rw [partS_length h]; decide))

theorem openS_length {hs : HandshakeState} {b p : Bytes} {h : 80 ≤ b.length}
    (ho : hs.openS P b h = some p) : p.length = 32 := by
  unfold openS at ho
  simp only at ho
  split at ho
  · cases ho
  · rw [P.open_length _ _ _ _ _ _ ho]
    simp [body, partS]; omega

/-- The static key of the responder, when it decrypts. -/
def rsOf (p : Bytes) (h : p.length = 32) : Arr 32 := ⟨p, h⟩

/-- The plaintext of the payload, when it decrypts. -/
def openP (P : Prims) (hs : HandshakeState) (b : Bytes) (h : 96 ≤ b.length) (rs : Arr 32) : Option Bytes :=
  let a := hs.rdB P (first32 b (by omega)) (partS b) rs
  if a.ss.cs.k = EMPTY then none
  else P.aeadOpen a.ss.cs.k (prepNonce 0) a.ss.h.toList (body (b.drop 80))
    (tagArr (b.drop 80) (by simp; omega))

/-- Every outcome of `read_message_b`. -/
theorem readB_cases (hs : HandshakeState) (b : Bytes) :
    (b.length < 48 ∧ hs.readMessageB P b = (.err .missingreError, hs, b)) ∨
    (48 ≤ b.length ∧ b.take 32 ∈ forbiddenCurveValues ∧
      hs.readMessageB P b = (.err .invalidPublicKeyError, hs, b)) ∨
    (∃ h : 48 ≤ b.length, b.take 32 ∉ forbiddenCurveValues ∧ b.length < 80 ∧
      hs.readMessageB P b = (.err .missingrsError, hs.rdA P (first32 b (by omega)), b)) ∨
    (∃ (h : 80 ≤ b.length) (e : NoiseError), b.take 32 ∉ forbiddenCurveValues ∧ hs.openS P b h = none ∧
      hs.readMessageB P b = (.err e, hs.rdA P (first32 b (by omega)), b)) ∨
    (∃ (h : 80 ≤ b.length) (p : Bytes), b.take 32 ∉ forbiddenCurveValues ∧ hs.openS P b h = some p ∧
      p ∈ forbiddenCurveValues ∧ ∃ b', b'.length = b.length ∧
      hs.readMessageB P b = (.err .invalidPublicKeyError, hs.rdS P (first32 b (by omega)) (partS b), b')) ∨
    (∃ (h : 80 ≤ b.length) (p : Bytes) (hp : p.length = 32), b.take 32 ∉ forbiddenCurveValues ∧
      hs.openS P b h = some p ∧ p ∉ forbiddenCurveValues ∧ (b.length < 96 ∨ 2128 < b.length) ∧
      ∃ b', b'.length = b.length ∧
      hs.readMessageB P b =
        (.panic, hs.rdB P (first32 b (by omega)) (partS b) (rsOf p hp), b')) ∨
    (∃ (h : 96 ≤ b.length) (p : Bytes) (hp : p.length = 32) (e : NoiseError),
      b.take 32 ∉ forbiddenCurveValues ∧ hs.openS P b (by omega) = some p ∧ p ∉ forbiddenCurveValues ∧
      b.length ≤ 2128 ∧ hs.openP P b h (rsOf p hp) = none ∧ ∃ b', b'.length = b.length ∧
      hs.readMessageB P b =
        (.err e, hs.rdB P (first32 b (by omega)) (partS b) (rsOf p hp), b')) ∨
    (∃ (h : 96 ≤ b.length) (p : Bytes) (hp : p.length = 32) (q : Bytes),
      b.take 32 ∉ forbiddenCurveValues ∧ hs.openS P b (by omega) = some p ∧ p ∉ forbiddenCurveValues ∧
      b.length ≤ 2128 ∧ hs.openP P b h (rsOf p hp) = some q ∧
      hs.readMessageB P b =
        (.ok ((hs.rdSS P (first32 b (by omega)) (partS b) (rsOf p hp) (b.drop 80)).h,
          (hs.rdSS P (first32 b (by omega)) (partS b) (rsOf p hp) (b.drop 80)).split P),
        { hs.rdB P (first32 b (by omega)) (partS b) (rsOf p hp) with
          ss := (hs.rdSS P (first32 b (by omega)) (partS b) (rsOf p hp) (b.drop 80)).clear },
        b.take 32 ++ (p ++ tag (partS b)) ++ (q ++ tag (b.drop 80)))) := by
  unfold readMessageB
  simp only [show DHLEN = 32 from rfl, show MAC_LENGTH = 16 from rfl]
  by_cases h1 : b.length < 48
  · left
    rw [if_pos (by omega)]
    exact ⟨h1, rfl⟩
  rw [if_neg (by omega)]
  by_cases h2 : b.take 32 ∈ forbiddenCurveValues
  · right; left
    rw [key_forbidden (b.take 32) (by simp; omega) (by rw [take32_take32]; exact h2)]
    exact ⟨by omega, h2, rfl⟩
  rw [key_ok (b.take 32) (by simp; omega) (by rw [take32_take32]; exact h2), first32_take b (by omega)]
  have hre : List.take 32 (first32 b (by omega)).toList = (first32 b (by omega)).toList := take32_take32 b
  simp only [hre]
  by_cases h3 : b.length < 80
  · right; right; left
    refine ⟨by omega, h2, h3, ?_⟩
    rw [if_pos (by simp; omega)]
    rfl
  rw [if_neg (by simp; omega)]
  have hpS : List.take (16 + 32) (List.drop 32 b) = partS b := rfl
  have hdrop : List.drop (16 + 32) (List.drop 32 b) = b.drop 80 := by simp [List.drop_drop]
  simp only [hpS, hdrop]
  have hlS := partS_length (b := b) (by omega)
  have hback : b.take 32 ++ partS b ++ b.drop 80 = b := by
    simp only [partS]
    have : b.drop 80 = (b.drop 32).drop 48 := by simp [List.drop_drop]
    rw [this, List.append_assoc, List.take_append_drop, List.take_append_drop]
  right; right; right
  have hA : ∀ re, SymmetricState.mixKey P (SymmetricState.mixHash P hs.ss re.toList)
      (Keypair.dh P hs.e re).toList = (hs.rdA P re).ss := fun _ => rfl
  simp only [hA]
  rcases ho : hs.openS P b (by omega) with _ | p
  · left
    have : ∃ e, (hs.rdA P (first32 b (by omega))).ss.decryptAndHash P (partS b) =
        (.err e, (hs.rdA P (first32 b (by omega))).ss, partS b) := by
      unfold openS at ho
      simp only at ho
      split at ho
      · rename_i hk
        exact ⟨_, SymmetricState.decrypt_noKey _ _ (by omega) (by omega) rfl hk⟩
      · rename_i hk
        exact ⟨_, SymmetricState.decrypt_none _ _ (by omega) (by omega) rfl hk ho⟩
    obtain ⟨e, he⟩ := this
    refine ⟨by omega, e, h2, ho, ?_⟩
    rw [he]
    simp only [hback]
    rfl
  · right
    have hpl := openS_length ho
    have hd : (hs.rdA P (first32 b (by omega))).ss.decryptAndHash P (partS b) =
        (.ok (), (hs.rdS P (first32 b (by omega)) (partS b)).ss, p ++ tag (partS b)) := by
      unfold openS at ho
      simp only at ho
      split at ho
      · cases ho
      · rename_i hk
        exact SymmetricState.decrypt_some _ _ p (by omega) (by omega) rfl hk ho
    rw [hd]
    simp only
    have htag : (tag (partS b)).length = 16 := tag_length (by omega)
    have hp32 : (p ++ tag (partS b)).take 32 = p := by simp [hpl]
    by_cases h4 : p ∈ forbiddenCurveValues
    · left
      refine ⟨by omega, p, h2, ho, h4, ?_⟩
      rw [key_forbidden _ (by simp; omega) (by rw [hp32]; exact h4)]
      refine ⟨_, ?_, rfl⟩
      simp [hpl, htag]; omega
    right
    rw [key_ok _ (by simp; omega) (by rw [hp32]; exact h4)]
    have hrs : first32 (p ++ tag (partS b)) (by simp; omega) = rsOf p hpl := by
      apply arr_ext
      simp [first32, rsOf, hpl]
    simp only [hrs]
    have hB : SymmetricState.mixKey P (hs.rdS P (first32 b (by omega)) (partS b)).ss
        (Keypair.dh P hs.e (rsOf p hpl)).toList =
        (hs.rdB P (first32 b (by omega)) (partS b) (rsOf p hpl)).ss := rfl
    simp only [hB]
    by_cases h5 : b.length < 96 ∨ 2128 < b.length
    · left
      refine ⟨by omega, p, hpl, h2, ho, h4, h5, ?_⟩
      rw [SymmetricState.decrypt_panic _ _ (by simp; omega)]
      refine ⟨_, ?_, rfl⟩
      simp [hpl, htag]; omega
    right
    rcases hq : hs.openP P b (by omega) (rsOf p hpl) with _ | q
    · left
      have : ∃ e, (hs.rdB P (first32 b (by omega)) (partS b) (rsOf p hpl)).ss.decryptAndHash P (b.drop 80) =
          (.err e, (hs.rdB P (first32 b (by omega)) (partS b) (rsOf p hpl)).ss, b.drop 80) := by
        unfold openP at hq
        simp only at hq
        split at hq
        · rename_i hk
          exact ⟨_, SymmetricState.decrypt_noKey _ _ (by simp; omega) (by simp; omega) rfl hk⟩
        · rename_i hk
          exact ⟨_, SymmetricState.decrypt_none _ _ (by simp; omega) (by simp; omega) rfl hk hq⟩
      obtain ⟨e, he⟩ := this
      refine ⟨by omega, p, hpl, e, h2, ho, h4, by omega, hq, ?_⟩
      rw [he]
      refine ⟨_, ?_, rfl⟩
      simp [hpl, htag]; omega
    · right
      refine ⟨by omega, p, hpl, q, h2, ho, h4, by omega, hq, ?_⟩
      have hd : (hs.rdB P (first32 b (by omega)) (partS b) (rsOf p hpl)).ss.decryptAndHash P (b.drop 80) =
          (.ok (), hs.rdSS P (first32 b (by omega)) (partS b) (rsOf p hpl) (b.drop 80),
            q ++ tag (b.drop 80)) := by
        unfold openP at hq
        simp only at hq
        split at hq
        · cases hq
        · rename_i hk
          exact SymmetricState.decrypt_some _ _ q (by simp; omega) (by simp; omega) rfl hk hq
      rw [hd]
      rfl

end HandshakeState

end SV2.Noise
