import Verif.Model.Examples
import Verif.Lemmas.Noise.Accepted
import Verif.Lemmas.Noise.Network
import Verif.Lemmas.Noise.Step
import Verif.Props.Certificate
/-!
# Lemmas about the examples
-/

namespace SV2
open Law Noise Examples

theorem tryRead_length (buffer arrived : Bytes) : (tryRead buffer arrived).length = buffer.length := by
  unfold tryRead
  rw [List.length_append, List.length_drop, List.length_take]
  omega

theorem tryRead_take (buffer arrived : Bytes) :
    (tryRead buffer arrived).take arrived.length = arrived.take buffer.length := by
  unfold tryRead
  by_cases h : arrived.length ≤ buffer.length
  · rw [List.take_of_length_le h, List.take_left' rfl]
  · rw [List.drop_of_length_le (by rw [List.length_take]; omega), List.append_nil, List.take_take]
    congr 1
    omega

/-- A full buffer replaces everything. -/
theorem tryRead_full (buffer arrived : Bytes) (h : arrived.length = buffer.length) : tryRead buffer arrived = arrived := by
  unfold tryRead
  rw [List.take_of_length_le (by omega), List.drop_of_length_le (by omega), List.append_nil]

variable {P : Prims} {E : SigScheme}

/-- One transport message from the responder to the initiator. -/
theorem transfer (hA : AeadCorrect P) {i r : NoiseSession} {keys : Arr 32 × Arr 32} {n1 n2 : UInt64}
    (h : InSync i r keys n1 n2) (hk : keys.2 ≠ NX.zeros) (hn : n2 ≠ MAX_NONCE) (rnd : Keypair) (b : Bytes)
    (hl : 16 ≤ b.length) (hl' : b.length ≤ 65535) :
    ∃ i' r' w, r.sendMessage P rnd b = (.ok (), r', w) ∧ w.length = b.length ∧
      i.recvMessage P w = (.ok (), i', body b ++ tag w) ∧ InSync i' r' keys n1 (n2 + 1) ∧ i'.hs = i.hs ∧
      i'.is_transport = i.is_transport := by
  obtain ⟨⟨hi, hr⟩, ⟨hci, hcr⟩, ⟨hi1, hi2⟩, ⟨hr1, hr2⟩⟩ := h
  have b1 := n1.toNat_lt
  have b2 := n2.toNat_lt
  have hsend : r.sendCs = ⟨keys.2, n2⟩ := by simp [NoiseSession.sendCs, hr, hr2]
  have hrecv : i.recvCs = ⟨keys.2, n2⟩ := by simp [NoiseSession.recvCs, hi, hi2]
  have hwl := CipherState.sealed_length (P := P) keys.2 n2 [] (body b)
  have hbl := NoiseSession.body_length b hl
  refine ⟨{ i with cs2 := ⟨keys.2, n2 + 1⟩, mc := i.mc + 1 }, { r with cs2 := ⟨keys.2, n2 + 1⟩, mc := r.mc + 1 },
    CipherState.sealed P keys.2 n2 [] (body b), ?_, by omega, ?_, ?_, rfl, rfl⟩
  · rw [NoiseSession.send_transport rnd r b (by omega) (by omega), hsend,
      CipherState.write_ok _ b hl hn hk]
    simp only
    rw [setSend_false hr, NoiseSession.count_ok _ _ (by simp; omega)]
  · rw [NoiseSession.recv_transport i _ (by omega) (by omega), hrecv, CipherState.read_eq _ _ (by omega)]
    have h1 : body (CipherState.sealed P keys.2 n2 [] (body b)) =
        (P.aeadSeal keys.2 (prepNonce n2) [] (body b)).1 := body_append _ _
    have h2 : CipherState.tagArr (CipherState.sealed P keys.2 n2 [] (body b)) (by omega) =
        (P.aeadSeal keys.2 (prepNonce n2) [] (body b)).2 := Noise.arr_ext (tag_append _ _)
    rw [h1, h2, CipherState.decrypt_some _ _ _ (body b) _ hn hk (hA _ _ _ _)]
    simp only
    rw [setRecv_true hi, NoiseSession.count_ok _ _ (by simp; omega)]
  · have hs : (n2 + 1).toNat = n2.toNat + 1 := toNat_succ hn
    exact ⟨⟨hi, hr⟩, ⟨by simp only [hs]; omega, by simp only [hs]; omega⟩, ⟨hi1, rfl⟩, ⟨hr1, rfl⟩⟩

open Handshake

/-- Why a verdict of `true` is printed: the message with number `j` after the handshake. -/
def Reason (P : Prims) (E : SigScheme) (text : String) (rs : StaticPublicKey) (key : Arr 32) (n : Nat)
    (arrivals : List (SystemTime × Bytes)) : Prop :=
  ∃ j now a c mac p, ∃ msg : SignatureNoiseMessage E, ∃ cf,
    arrivals[j]? = some (now, a) ∧ (c ++ mac.toList).length = 1024 ∧
    (c ++ mac.toList).take a.length = a.take 1024 ∧ P.aeadOpen key (NX.nonce (n + j)) [] c mac = some p ∧
    p.take 74 = Wire.signatureNoiseMessage msg ∧ CertificateFormat.new text rs msg = .ok cf ∧
    cf.verify now = .ok ()

theorem Reason.later {text : String} {rs : StaticPublicKey} {key : Arr 32} {n : Nat}
    {arrivals : List (SystemTime × Bytes)} {x : SystemTime × Bytes} (h : Reason P E text rs key (n + 1) arrivals) :
    Reason P E text rs key n (x :: arrivals) := by
  obtain ⟨j, now, a, c, mac, p, msg, cf, h1, h2, h3, h4, h5, h6⟩ := h
  refine ⟨j + 1, now, a, c, mac, p, msg, cf, by simpa using h1, h2, h3, ?_, h5, h6⟩
  rw [show n + (j + 1) = n + 1 + j by omega]
  exact h4

/-- A message that decodes starts with its 74 bytes. -/
theorem decode_first (bytes : Bytes) (hs : IsSlice bytes) (m : SignatureNoiseMessage E)
    (h : deserialize (SignatureNoiseMessage E) bytes = .ok m) : bytes.take 74 = Wire.signatureNoiseMessage m := by
  obtain ⟨e, rest, he, rfl⟩ := (C31_codec m).2.2.2.2 bytes m hs h
  have := (C31_codec m).1.1
  rw [he] at this
  cases this
  exact List.take_left' (C31_codec m).2.1

theorem listen_transport (rs : StaticPublicKey) (key : Arr 32) (arrivals : List (SystemTime × Bytes)) :
    ∀ (n : Nat) (m : Miner) (buffer : Bytes), m.noise_session.is_transport = true → m.noise_session.i = true →
    2 ≤ m.noise_session.mc → m.noise_session.hs.rs = rs → m.noise_session.cs2.k = key →
    m.noise_session.cs2.n.toNat = n → buffer.length = 1024 → true ∈ (m.listen P E buffer arrivals).1 →
    Reason P E m.authority_public_key rs key n arrivals := by
  induction arrivals with
  | nil => intro n m buffer _ _ _ _ _ _ _ h; simp [Miner.listen] at h
  | cons x arrivals ih =>
    obtain ⟨now, a⟩ := x
    intro n m buffer ht hi hm hrs hk hn hl h
    have hb := tryRead_length buffer a
    have hta := tryRead_take buffer a
    rw [hl] at hb hta
    generalize hbuf : tryRead buffer a = b at hb hta
    have hcs : m.noise_session.recvCs = m.noise_session.cs2 := by simp [NoiseSession.recvCs, hi]
    have hbasic := NoiseSession.recv_basic (P := P) m.noise_session b
    rcases NoiseSession.recv_cases (P := P) m.noise_session b hm with ⟨h16, p, _, hmax, hke, ho, hr⟩ | ⟨e, hr⟩
    case inr =>
      unfold Miner.listen at h
      rw [hbuf] at h
      simp only [Miner.handle, NoiseSession.isTransport, ht, if_true, recv, hr] at h
      simp [bind, Out.bind] at h
    rw [hcs] at hmax hke ho hr
    rw [setRecv_true hi] at hr
    rcases NoiseSession.count_cases { m.noise_session with
        cs2 := ⟨m.noise_session.cs2.k, m.noise_session.cs2.n + 1⟩ } (p ++ tag b) with ⟨_, hc⟩ | ⟨_, hc⟩
    case inr =>
      rw [hc] at hr
      unfold Miner.listen at h
      rw [hbuf] at h
      simp only [Miner.handle, NoiseSession.isTransport, ht, if_true, recv, hr] at h
      simp [bind, Out.bind] at h
    rw [hc] at hr
    have hpl : (p ++ tag b).length = 1024 := by
      have := hbasic.len
      rw [hr] at this
      rw [← hb]
      exact this
    have hp : 74 ≤ p.length := by
      rw [List.length_append, tag_length h16] at hpl
      omega
    unfold Miner.listen at h
    rw [hbuf] at h
    simp only [Miner.handle, NoiseSession.isTransport, ht, if_true, recv, hr] at h
    simp only [bind, Out.bind] at h
    cases hd : deserialize (SignatureNoiseMessage E) (p ++ tag b) with
    | err e => rw [hd] at h; simp [unwrap] at h
    | panic => rw [hd] at h; simp [unwrap] at h
    | ok msg =>
      rw [hd] at h
      simp only [unwrap, NoiseSession.getRemoteStaticPublicKey, if_true, unwrapOption] at h
      cases hcf : CertificateFormat.new m.authority_public_key m.noise_session.hs.rs msg with
      | err e => rw [hcf] at h; simp at h
      | panic => rw [hcf] at h; simp at h
      | ok cf =>
        rw [hcf] at h
        simp only [pure, Option.toList, List.mem_append, List.mem_singleton] at h
        rcases h with h | h
        · refine ⟨0, now, a, body b, CipherState.tagArr b h16, p, msg, cf, rfl, ?_, ?_, ?_, ?_, ?_, ?_⟩
          · show (body b ++ tag b).length = _
            rw [body_tag]; exact hb
          · show (body b ++ tag b).take _ = _
            rw [body_tag]; exact hta
          · rw [← hn, ← hk, Nat.add_zero, ← prepNonce_eq]
            exact ho
          · have := decode_first _ (by unfold IsSlice; rw [hpl]; decide) msg hd
            rw [← this, List.take_append_of_le_length hp]
          · rw [← hrs]; exact hcf
          · cases hv : cf.verify now with
            | ok u => rfl
            | err e => rw [hv] at h; simp [Out.isOk] at h
            | panic => rw [hv] at h; simp [Out.isOk] at h
        · apply Reason.later
          have hsucc : (m.noise_session.cs2.n + 1).toNat = n + 1 := by rw [toNat_succ hmax, hn]
          exact ih (n + 1) { m with noise_session := { m.noise_session with
            cs2 := ⟨m.noise_session.cs2.k, m.noise_session.cs2.n + 1⟩, mc := m.noise_session.mc + 1,
            is_transport := true } } (p ++ tag b)
            rfl hi (by simp only; omega) hrs hk hsucc hpl h

end SV2
