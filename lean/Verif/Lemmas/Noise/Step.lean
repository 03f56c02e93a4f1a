import Verif.Lemmas.Noise.Handshake
/-!
# One call on a session, in any phase
-/

namespace SV2.Noise
variable {P : Prims}

namespace NoiseSession

theorem send_zero (rnd : Keypair) (s : NoiseSession) (b : Bytes)
    (h : ¬ (b.length < 16 ∨ 65535 < b.length)) (hm : s.mc = 0) :
    s.sendMessage P rnd b = match s.hs.writeMessageA P rnd b with
    | (.ok (), hs, buf) => { s with hs := hs }.count buf
    | (.err e, hs, buf) => (.err e, { s with hs := hs }, buf)
    | (.panic, hs, buf) => (.panic, { s with hs := hs }, buf) := by
  unfold sendMessage
  rw [if_neg (by simpa [MAC_LENGTH, MAX_MESSAGE] using h), if_pos hm]
  rfl

theorem recv_zero (s : NoiseSession) (b : Bytes)
    (h : ¬ (b.length < 16 ∨ 65535 < b.length)) (hm : s.mc = 0) :
    s.recvMessage P b = match s.hs.readMessageA P b with
    | (.ok (), hs, buf) => { s with hs := hs }.count buf
    | (.err e, hs, buf) => (.err e, { s with hs := hs }, buf)
    | (.panic, hs, buf) => (.panic, { s with hs := hs }, buf) := by
  unfold recvMessage
  rw [if_neg (by simpa [MAC_LENGTH, MAX_MESSAGE] using h), if_pos hm]
  rfl

theorem send_one (rnd : Keypair) (s : NoiseSession) (b : Bytes)
    (h : ¬ (b.length < 16 ∨ 65535 < b.length)) (hm : s.mc = 1) :
    s.sendMessage P rnd b = match s.hs.writeMessageB P rnd b with
    | (.ok temp, hs, buf) => ({ s with hs := hs }.enterTransport temp).count buf
    | (.err e, hs, buf) => (.err e, { s with hs := hs }, buf)
    | (.panic, hs, buf) => (.panic, { s with hs := hs }, buf) := by
  unfold sendMessage
  rw [if_neg (by simpa [MAC_LENGTH, MAX_MESSAGE] using h), if_neg (by omega), if_pos hm]
  rfl

theorem recv_one (s : NoiseSession) (b : Bytes)
    (h : ¬ (b.length < 16 ∨ 65535 < b.length)) (hm : s.mc = 1) :
    s.recvMessage P b = match s.hs.readMessageB P b with
    | (.ok temp, hs, buf) => ({ s with hs := hs }.enterTransport temp).count buf
    | (.err e, hs, buf) => (.err e, { s with hs := hs }, buf)
    | (.panic, hs, buf) => (.panic, { s with hs := hs }, buf) := by
  unfold recvMessage
  rw [if_neg (by simpa [MAC_LENGTH, MAX_MESSAGE] using h), if_neg (by omega), if_pos hm]
  rfl

/-- What every call that handles a message does to the parts of the session other than the keys; `r` is the
result of the call. -/
structure Basic (s : NoiseSession) (b : Bytes) (r : NResult Unit × NoiseSession × Bytes) : Prop where
  mc : r.2.1.mc = s.mc + if r.1.isOk then 1 else 0
  i : r.2.1.i = s.i
  len : r.2.2.length = b.length
  transport : r.2.1.is_transport = (s.is_transport || (r.1.isOk && s.mc == 1))

theorem Basic.err (s : NoiseSession) (b : Bytes) (e : NoiseError) : Basic s b (.err e, s, b) :=
  ⟨rfl, rfl, rfl, by simp [Out.isOk]⟩

theorem Basic.err_hs (s : NoiseSession) (b b' : Bytes) (e : NoiseError) (hs : HandshakeState)
    (h : b'.length = b.length) : Basic s b (.err e, { s with hs := hs }, b') :=
  ⟨rfl, rfl, h, by simp [Out.isOk]⟩

theorem Basic.panic_hs (s : NoiseSession) (b b' : Bytes) (hs : HandshakeState)
    (h : b'.length = b.length) : Basic s b (.panic, { s with hs := hs }, b') :=
  ⟨rfl, rfl, h, by simp [Out.isOk]⟩

theorem Basic.count (s t : NoiseSession) (b b' : Bytes) (h1 : t.mc = s.mc) (h2 : t.i = s.i)
    (h3 : b'.length = b.length) (h4 : t.is_transport = (s.is_transport || s.mc == 1)) (h5 : s.mc ≤ 1) :
    Basic s b (t.count b') := by
  rcases count_cases t b' with ⟨hc, h⟩ | ⟨hc, h⟩
  · rw [h]
    exact ⟨by simp [Out.isOk, h1], h2, h3, by simp [Out.isOk, h4]⟩
  · exact absurd (by omega) hc

theorem Basic.countTransport (s t : NoiseSession) (b b' : Bytes) (h1 : t.mc = s.mc) (h2 : t.i = s.i)
    (h3 : b'.length = b.length) (h4 : t.is_transport = s.is_transport) (h5 : 2 ≤ s.mc) :
    Basic s b (t.count b') := by
  rcases count_cases t b' with ⟨hc, h⟩ | ⟨hc, h⟩
  · rw [h]
    exact ⟨by simp [Out.isOk, h1], h2, h3, by simp [Out.isOk, h4]; omega⟩
  · rw [h]
    exact ⟨by simp [Out.isOk, h1], h2, h3, by simp [Out.isOk, h4]⟩

theorem body_length (b : Bytes) (h : 16 ≤ b.length) : (body b).length + 16 = b.length := by
  simp [body]; omega

theorem send_basic (rnd : Keypair) (s : NoiseSession) (b : Bytes) :
    Basic s b (s.sendMessage P rnd b) := by
  by_cases h : b.length < 16 ∨ 65535 < b.length
  · rw [send_badLength rnd s b h]
    exact Basic.err _ _ _
  by_cases h0 : s.mc = 0
  · rw [send_zero rnd s b h h0]
    by_cases hl : b.length < 32
    · rw [HandshakeState.writeA_short rnd s.hs b hl]
      exact Basic.err_hs _ _ _ _ _ rfl
    · rw [HandshakeState.writeA_ok rnd s.hs b (by omega)]
      refine Basic.count _ _ _ _ rfl rfl ?_ (by simp [h0]) (by omega)
      simp [(s.hs.useE rnd).e.public_key.len]
      omega
  by_cases h1 : s.mc = 1
  · rw [send_one rnd s b h h1]
    rcases HandshakeState.writeB_cases (P := P) rnd s.hs b with ⟨_, h⟩ | ⟨_, _, b', hb, h⟩ |
      ⟨_, _, b', hb, h⟩ | ⟨_, _, _, b', hb, h⟩ | ⟨_, _, _, b', hb, h⟩ | ⟨hl, _, _, h⟩ <;> rw [h]
    · exact Basic.err_hs _ _ _ _ _ rfl
    · exact Basic.err_hs _ _ _ _ _ hb
    · exact Basic.err_hs _ _ _ _ _ hb
    · exact Basic.err_hs _ _ _ _ _ hb
    · exact Basic.err_hs _ _ _ _ _ hb
    · refine Basic.count _ _ _ _ rfl rfl ?_ (by simp [enterTransport, h1]) (by omega)
      simp only [List.length_append, (s.hs.useE rnd).e.public_key.len, HandshakeState.wrS,
        HandshakeState.wrP, CipherState.sealed_length, (s.hs.useE rnd).s.public_key.len]
      have := body_length (b.drop 80) (by simp; omega)
      simp only [List.length_drop] at this
      omega
  · rcases send_cases (P := P) rnd s b (by omega) with ⟨hl, _, _, _, h⟩ | ⟨e, h⟩ <;> rw [h]
    · refine Basic.countTransport _ _ _ _ (by simp) (by simp) ?_ (by simp) (by omega)
      rw [CipherState.sealed_length, body_length b hl]
    · exact Basic.err _ _ _

theorem recv_basic (s : NoiseSession) (b : Bytes) : Basic s b (s.recvMessage P b) := by
  by_cases h : b.length < 16 ∨ 65535 < b.length
  · rw [recv_badLength s b h]
    exact Basic.err _ _ _
  by_cases h0 : s.mc = 0
  · rw [recv_zero s b h h0]
    by_cases hl : b.length < 48
    · rw [HandshakeState.readA_short s.hs b hl]
      exact Basic.err_hs _ _ _ _ _ rfl
    by_cases hf : b.take 32 ∈ forbiddenCurveValues
    · rw [HandshakeState.readA_forbidden s.hs b (by omega) hf]
      exact Basic.err_hs _ _ _ _ _ rfl
    · rw [HandshakeState.readA_ok s.hs b (by omega) hf]
      exact Basic.count _ _ _ _ rfl rfl rfl (by simp [h0]) (by omega)
  by_cases h1 : s.mc = 1
  · rw [recv_one s b h h1]
    rcases HandshakeState.readB_cases (P := P) s.hs b with ⟨_, h⟩ | ⟨_, _, h⟩ | ⟨_, _, _, h⟩ |
      ⟨_, _, _, _, h⟩ | ⟨_, _, _, _, _, _, hb, h⟩ | ⟨_, _, _, _, _, _, _, _, hb, h⟩ |
      ⟨_, _, _, _, _, _, _, _, _, _, hb, h⟩ | ⟨hl, p, hp, q, _, _, _, _, hq, h⟩ <;> rw [h]
    · exact Basic.err_hs _ _ _ _ _ rfl
    · exact Basic.err_hs _ _ _ _ _ rfl
    · exact Basic.err_hs _ _ _ _ _ rfl
    · exact Basic.err_hs _ _ _ _ _ rfl
    · exact Basic.err_hs _ _ _ _ _ hb
    · exact Basic.panic_hs _ _ _ _ hb
    · exact Basic.err_hs _ _ _ _ _ hb
    · refine Basic.count _ _ _ _ rfl rfl ?_ (by simp [enterTransport, h1]) (by omega)
      have hql : q.length = (body (b.drop 80)).length := by
        unfold HandshakeState.openP at hq
        simp only at hq
        split at hq
        · cases hq
        · exact P.open_length _ _ _ _ _ _ hq
      have hb := body_length (b.drop 80) (by simp; omega)
      have ht := tag_length (b := b.drop 80) (by simp; omega)
      have ht' := tag_length (b := HandshakeState.partS b)
        (by rw [HandshakeState.partS_length (by omega)]; decide)
      simp only [List.length_append, hp, hql, ht, ht', List.length_take]
      simp only [List.length_drop] at hb
      omega
  · rcases recv_cases (P := P) s b (by omega) with ⟨hl, p, _, _, _, hp, h⟩ | ⟨e, h⟩ <;> rw [h]
    · refine Basic.countTransport _ _ _ _ (by simp) (by simp) ?_ (by simp) (by omega)
      rw [List.length_append, P.open_length _ _ _ _ _ _ hp, tag_length hl, body_length b hl]
    · exact Basic.err _ _ _

end NoiseSession

end SV2.Noise
