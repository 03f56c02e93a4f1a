import Verif.Spec.Reread
import Verif.Props.Retry
/-!
# C99: a handshake message that was refused

What a refused message is to leave behind is in `Verif/Spec/Reread.lean`.
-/

namespace SV2
open Noise

section
variable (P : Prims)

/-! ## Opening -/

theorem opens_iff (k h : Arr 32) (wire text : Bytes) (hl : 16 ≤ wire.length) :
    NX.Opens P k h wire text ↔ k ≠ EMPTY ∧
      P.aeadOpen k (prepNonce 0) h.toList (body wire) (CipherState.tagArr wire hl) = some text := by
  constructor
  · rintro ⟨hk, c, mac, rfl, ho⟩
    refine ⟨by rw [← zeros_eq]; exact hk, ?_⟩
    have h1 : body (c ++ mac.toList) = c := body_append _ _
    have h2 : CipherState.tagArr (c ++ mac.toList) hl = mac := arr_ext (tag_append _ _)
    rw [h1, h2, prepNonce_zero]
    exact ho
  · rintro ⟨hk, ho⟩
    refine ⟨by rw [zeros_eq]; exact hk, body wire, CipherState.tagArr wire hl, (body_tag wire).symm, ?_⟩
    rw [← prepNonce_zero]
    exact ho

theorem opens_inj {k h : Arr 32} {wire t1 t2 : Bytes} (h1 : NX.Opens P k h wire t1) (h2 : NX.Opens P k h wire t2) :
    t1 = t2 := by
  obtain ⟨-, c1, m1, e1, o1⟩ := h1
  obtain ⟨-, c2, m2, e2, o2⟩ := h2
  obtain ⟨e3, e4⟩ := List.append_inj' (e1.symm.trans e2) (by rw [m1.len, m2.len])
  cases e3
  cases arr_ext e4
  exact Option.some.inj (o1.symm.trans o2)

/-- What `decrypt_and_hash` does with a part of a message, before the first use of the key. -/
theorem decrypt_opens (k ck h : Arr 32) (b : Bytes) (hl : 16 ≤ b.length) (hl2 : b.length ≤ 2048) :
    (∃ text, NX.Opens P k h b text ∧ SymmetricState.decryptAndHash P ⟨⟨k, 0⟩, ck, h⟩ b =
      (.ok (), ⟨⟨k, 1⟩, ck, P.hash (h.toList ++ b)⟩, text ++ tag b)) ∨
    ((¬ ∃ text, NX.Opens P k h b text) ∧ ∃ e, NX.closed k = .err e ∧
      SymmetricState.decryptAndHash P ⟨⟨k, 0⟩, ck, h⟩ b = (.err e, ⟨⟨k, 0⟩, ck, h⟩, b)) := by
  by_cases hk : k = EMPTY
  · refine .inr ⟨fun ⟨t, ht⟩ => ((opens_iff P k h b t hl).mp ht).1 hk, .emptyKeyError, ?_, ?_⟩
    · unfold NX.closed
      rw [if_pos (by rw [hk, ← zeros_eq])]
    · exact SymmetricState.decrypt_noKey _ _ hl hl2 rfl hk
  · rcases ho : P.aeadOpen k (prepNonce 0) h.toList (body b) (CipherState.tagArr b hl) with _ | text
    · refine .inr ⟨fun ⟨t, ht⟩ => ?_, .decryptionError, ?_, ?_⟩
      · rw [((opens_iff P k h b t hl).mp ht).2] at ho
        cases ho
      · unfold NX.closed
        rw [if_neg (by rw [zeros_eq]; exact hk)]
      · exact SymmetricState.decrypt_none _ _ hl hl2 rfl hk ho
    · exact .inl ⟨text, (opens_iff P k h b text hl).mpr ⟨hk, ho⟩, SymmetricState.decrypt_some _ _ text hl hl2 rfl hk ho⟩

theorem opens_length {k h : Arr 32} {wire text : Bytes} (ho : NX.Opens P k h wire text) : text.length + 16 = wire.length := by
  obtain ⟨-, c, mac, rfl, ho⟩ := ho
  rw [List.length_append, mac.len, P.open_length _ _ _ _ _ _ ho]

/-! ## Reading the second message -/

theorem lowOrder_take {w : Bytes} (h : 32 ≤ w.length) :
    w.take 32 ∈ forbiddenCurveValues ↔ leNat (w.take 32) ∈ Curve.lowOrder :=
  forbidden_iff ⟨w.take 32, by simp; omega⟩

/-- All that `read_message_b` does. -/
theorem readB_spec (hs : HandshakeState) (w : Bytes) (hw : 16 ≤ w.length) (hw' : w.length ≤ 65535) :
    let p : NX.Progress := ⟨hs.ss.h, hs.ss.ck⟩
    (∃ hash keys rs out hs', NX.Accepts P p hs.e.private_key w hash keys rs out ∧ hs'.rs = rs ∧
      hs.readMessageB P w = (.ok (hash, ⟨keys.1, 0⟩, ⟨keys.2, 0⟩), hs', out)) ∨
    (∃ r q out, NX.Refuses P p hs.e.private_key w r q out ∧ ∃ hs' : HandshakeState,
      (⟨hs'.ss.h, hs'.ss.ck⟩ : NX.Progress) = q ∧ hs'.s = hs.s ∧ hs'.e = hs.e ∧
      ((∃ e, r = .err e ∧ hs.readMessageB P w = (.err e, hs', out)) ∨
        (r = .panic ∧ hs.readMessageB P w = (.panic, hs', out)))) := by
  intro p
  unfold HandshakeState.readMessageB
  simp only [show DHLEN = 32 from rfl, show MAC_LENGTH = 16 from rfl]
  by_cases h1 : w.length < 48
  · rw [if_pos (by omega)]
    exact .inr ⟨_, _, _, .short hw h1, hs, rfl, rfl, rfl, .inl ⟨_, rfl, rfl⟩⟩
  rw [if_neg (by omega)]
  by_cases h2 : w.take 32 ∈ forbiddenCurveValues
  · rw [key_forbidden (w.take 32) (by simp; omega) (by rw [take32_take32]; exact h2)]
    exact .inr ⟨_, _, _, .key (by omega) hw' ((lowOrder_take (by omega)).mp h2), hs, rfl, rfl, rfl, .inl ⟨_, rfl, rfl⟩⟩
  have htaken : NX.Taken w := ⟨by omega, hw', fun h => h2 ((lowOrder_take (by omega)).mpr h)⟩
  rw [key_ok (w.take 32) (by simp; omega) (by rw [take32_take32]; exact h2), HandshakeState.first32_take w (by omega)]
  generalize hre : first32 w (by omega) = re
  have hre : re.toList = w.take 32 := by rw [← hre]; rfl
  have hre32 : List.take 32 re.toList = re.toList := by rw [hre, take32_take32]
  simp only [hre32]
  have hA : SymmetricState.mixKey P (SymmetricState.mixHash P hs.ss re.toList) (Keypair.dh P hs.e re).toList =
      ⟨⟨p.key P hs.e.private_key re, 0⟩, (p.one P hs.e.private_key re).ck, (p.one P hs.e.private_key re).h⟩ := by
    unfold SymmetricState.mixKey
    rw [hkdf_eq]
    rfl
  simp only [hA]
  by_cases h3 : w.length < 80
  · rw [if_pos (by simp; omega)]
    refine .inr ⟨_, _, _, .noStatic re htaken hre h3, _, ?_, ?_, ?_, .inl ⟨_, rfl, rfl⟩⟩ <;> rfl
  rw [if_neg (by simp; omega)]
  have hpS : List.take (16 + 32) (List.drop 32 w) = NX.staticPart w := rfl
  have hdrop : List.drop (16 + 32) (List.drop 32 w) = w.drop 80 := by simp [List.drop_drop]
  simp only [hpS, hdrop]
  have hlS : (NX.staticPart w).length = 48 := HandshakeState.partS_length (by omega)
  have hback : w.take 32 ++ NX.staticPart w ++ w.drop 80 = w := by
    simp only [NX.staticPart]
    have : w.drop 80 = (w.drop 32).drop 48 := by simp [List.drop_drop]
    rw [this, List.append_assoc, List.take_append_drop, List.take_append_drop]
  rcases (decrypt_opens P (p.key P hs.e.private_key re) (p.one P hs.e.private_key re).ck (p.one P hs.e.private_key re).h
      (NX.staticPart w) (by omega) (by omega)).symm with ⟨ho, e, he, hd⟩ | ⟨t, ho, hd⟩
  · rw [hd]
    simp only [hback]
    refine .inr ⟨_, _, _, .unknown re htaken hre (by omega) ho, _, ?_, ?_, ?_, .inl ⟨e, he, rfl⟩⟩ <;> rfl
  rw [hd]
  simp only
  have htl : t.length = 32 := by have := opens_length P ho; omega
  obtain ⟨rs, rfl⟩ : ∃ rs : Arr 32, rs.toList = t := ⟨⟨t, htl⟩, rfl⟩
  have hknown : NX.Known P p hs.e.private_key w re rs := ⟨htaken, hre, by omega, ho⟩
  have htag : tag (NX.staticPart w) = (w.drop 64).take 16 := by
    unfold tag
    rw [hlS]
    simp [NX.staticPart, List.drop_take, List.drop_drop]
  have hrest : (w.drop 64).take 16 ++ w.drop 80 = w.drop 64 := by
    have : w.drop 80 = (w.drop 64).drop 16 := by simp [List.drop_drop]
    rw [this, List.take_append_drop]
  have hrev : w.take 32 ++ (rs.toList ++ tag (NX.staticPart w)) ++ w.drop 80 = NX.revealed w rs := by
    unfold NX.revealed
    rw [htag, ← hrest]
    simp only [List.append_assoc, hrest]
  have hp32 : (rs.toList ++ tag (NX.staticPart w)).take 32 = rs.toList := by simp [htl]
  by_cases h4 : rs.toList ∈ forbiddenCurveValues
  · rw [key_forbidden _ (by simp; omega) (by rw [hp32]; exact h4)]
    simp only [hrev]
    refine .inr ⟨_, _, _, .static re rs hknown ((forbidden_iff rs).mp h4), _, ?_, ?_, ?_, .inl ⟨_, rfl, rfl⟩⟩ <;> rfl
  have h4' : leNat rs.toList ∉ Curve.lowOrder := fun h => h4 ((forbidden_iff rs).mpr h)
  rw [key_ok _ (by simp; omega) (by rw [hp32]; exact h4)]
  have hrs : first32 (rs.toList ++ tag (NX.staticPart w)) (by simp; omega) = rs := by
    apply arr_ext
    exact hp32
  simp only [hrs]
  have hB : SymmetricState.mixKey P ⟨⟨p.key P hs.e.private_key re, 1⟩, (p.one P hs.e.private_key re).ck,
        P.hash ((p.one P hs.e.private_key re).h.toList ++ NX.staticPart w)⟩ (Keypair.dh P hs.e rs).toList =
      ⟨⟨(p.one P hs.e.private_key re).key P hs.e.private_key rs, 0⟩, (p.two P hs.e.private_key re rs w).ck,
        (p.two P hs.e.private_key re rs w).h⟩ := by
    unfold SymmetricState.mixKey
    rw [hkdf_eq]
    rfl
  simp only [hB]
  by_cases h5 : w.length < 96 ∨ 2128 < w.length
  · rw [SymmetricState.decrypt_panic _ _ (by simp; omega)]
    simp only [hrev]
    refine .inr ⟨_, _, _, .crash re rs hknown h4' h5, _, ?_, ?_, ?_, .inr ⟨rfl, rfl⟩⟩ <;> rfl
  rcases decrypt_opens P ((p.one P hs.e.private_key re).key P hs.e.private_key rs) (p.two P hs.e.private_key re rs w).ck
      (p.two P hs.e.private_key re rs w).h (w.drop 80) (by simp; omega) (by simp; omega) with ⟨t, ho, hd⟩ | ⟨ho, e, he, hd⟩
  · rw [hd]
    left
    have htag2 : tag (w.drop 80) = w.drop (w.length - 16) := by
      unfold tag
      rw [List.drop_drop, List.length_drop]
      congr 1
      omega
    refine ⟨_, _, _, _, { hs with
      re := re, rs := rs
      ss := SymmetricState.clear ⟨⟨(p.one P hs.e.private_key re).key P hs.e.private_key rs, 1⟩,
        (p.two P hs.e.private_key re rs w).ck, P.hash ((p.two P hs.e.private_key re rs w).h.toList ++ w.drop 80)⟩ },
      .mk re rs t hknown h4' (by omega) (by omega) ho, rfl, ?_⟩
    simp only [SymmetricState.split, hkdf_eq, htag, htag2, List.append_assoc]
    rfl
  · rw [hd]
    simp only [hrev]
    refine .inr ⟨_, _, _, .payload re rs hknown h4' (by omega) (by omega) ho, _, ?_, ?_, ?_, .inl ⟨e, he, rfl⟩⟩ <;> rfl

/-! ## One message -/

/-- The first handshake message: it is accepted exactly when it has 48 to 65535 bytes and starts with a key that is not of low
order; otherwise nothing changes. -/
theorem C99_first (s : NoiseSession) (h0 : s.getMessageCount = 0) (w : Bytes) :
    ((s.recvMessage P w).1 = .ok () ↔ NX.Taken w) ∧ (s.recvMessage P w).2.2 = w ∧
    (¬ NX.Taken w → (s.recvMessage P w).2.1 = s ∧ (s.recvMessage P w).1 ≠ .panic) := by
  have h0 : s.mc = 0 := h0
  by_cases hl : w.length < 16 ∨ 65535 < w.length
  · rw [NoiseSession.recv_badLength s w hl]
    exact ⟨⟨fun h => (by cases h), fun ⟨_, _, _⟩ => by omega⟩, rfl, fun _ => ⟨rfl, by simp⟩⟩
  rw [NoiseSession.recv_zero s w hl h0]
  by_cases h48 : w.length < 48
  · rw [HandshakeState.readA_short _ w h48]
    exact ⟨⟨fun h => (by cases h), fun ⟨_, _, _⟩ => by omega⟩, rfl, fun _ => ⟨rfl, by simp⟩⟩
  by_cases hf : w.take 32 ∈ forbiddenCurveValues
  · rw [HandshakeState.readA_forbidden _ w (by omega) hf]
    exact ⟨⟨fun h => (by cases h), fun ⟨_, _, h⟩ => absurd ((lowOrder_take (by omega)).mp hf) h⟩, rfl, fun _ => ⟨rfl, by simp⟩⟩
  · have ht : NX.Taken w := ⟨by omega, by omega, fun h => hf ((lowOrder_take (by omega)).mpr h)⟩
    rw [HandshakeState.readA_ok _ w (by omega) hf]
    simp only
    rw [NoiseSession.count_ok _ _ (by show s.mc + 1 < _; rw [h0]; decide)]
    exact ⟨⟨fun _ => ht, fun _ => rfl⟩, rfl, fun h => absurd ht h⟩

/-- The second: it is accepted as `NX.Accepts` says, with the handshake hash, the transport keys and the static key of the
responder that it gives; or refused as `NX.Refuses` says, which gives the result, the handshake hash and the chaining key
of the session then, and the buffer. A session that has refused a message has the message count, role and keys that it had. -/
theorem C99_second (s : NoiseSession) (h1 : s.getMessageCount = 1) (w : Bytes) :
    let p := s.progress
    let e := s.hs.e.private_key
    let r := (s.recvMessage P w).1
    let s' := (s.recvMessage P w).2.1
    let out := (s.recvMessage P w).2.2
    (∃ hash keys rs, NX.Accepts P p e w hash keys rs out ∧ r = .ok () ∧ s'.getHandshakeHash = some hash ∧
      (s'.cs1.k, s'.cs2.k) = keys ∧ s'.getRemoteStaticPublicKey = some rs ∧ s'.getMessageCount = 2) ∨
    (NX.Refuses P p e w r s'.progress out ∧ s'.getMessageCount = 1 ∧ s'.i = s.i ∧ s'.isTransport = s.isTransport ∧
      s'.hs.s = s.hs.s ∧ s'.hs.e = s.hs.e) := by
  have h1 : s.mc = 1 := h1
  by_cases hl : w.length < 16 ∨ 65535 < w.length
  · rw [NoiseSession.recv_badLength s w hl]
    exact .inr ⟨.length hl, h1, rfl, rfl, rfl, rfl⟩
  rw [NoiseSession.recv_one s w hl h1]
  rcases readB_spec P s.hs w (by omega) (by omega) with ⟨hash, keys, rs, out, hs', ha, hrs, hr⟩ |
    ⟨r, q, out, hR, hs', rfl, hs_s, hs_e, ⟨e, rfl, hr⟩ | ⟨rfl, hr⟩⟩ <;> rw [hr]
  · left
    simp only
    rw [NoiseSession.count_ok _ _ (by show s.mc + 1 < _; rw [h1]; decide)]
    refine ⟨hash, keys, rs, ha, rfl, rfl, rfl, ?_, ?_⟩
    · rw [← hrs]; rfl
    · show s.mc + 1 = 2
      rw [h1]
  · exact .inr ⟨hR, h1, rfl, rfl, hs_s, hs_e⟩
  · exact .inr ⟨hR, h1, rfl, rfl, hs_s, hs_e⟩

theorem known_inj {p : NX.Progress} {e re1 re2 rs1 rs2 : Arr 32} {w : Bytes} (h1 : NX.Known P p e w re1 rs1)
    (h2 : NX.Known P p e w re2 rs2) : re1 = re2 ∧ rs1 = rs2 := by
  cases arr_ext (h1.ephemeral.trans h2.ephemeral.symm)
  exact ⟨rfl, arr_ext (opens_inj P h1.opens h2.opens)⟩

theorem refuses_inv {p : NX.Progress} {e : Arr 32} {w : Bytes} {r : NResult Unit} {q : NX.Progress} {out : Bytes}
    (h : NX.Refuses P p e w r q out) :
    (¬ NX.Taken w ∧ (r, q, out) = (.err (if w.length < 16 ∨ 65535 < w.length then .unsupportedMessageLengthError
      else if w.length < 48 then .missingreError else .invalidPublicKeyError), p, w)) ∨
    (NX.Taken w ∧ ∃ re : Arr 32, re.toList = w.take 32 ∧
      (w.length < 80 ∨ ¬ ∃ text, NX.Opens P (p.key P e re) (p.one P e re).h (NX.staticPart w) text) ∧
      (r, q, out) = (if w.length < 80 then .err .missingrsError else NX.closed (p.key P e re), p.one P e re, w)) ∨
    (∃ re rs, NX.Known P p e w re rs ∧ (r, q, out) =
      if leNat rs.toList ∈ Curve.lowOrder then
        (.err .invalidPublicKeyError, ⟨(p.two P e re rs w).h, (p.one P e re).ck⟩, NX.revealed w rs)
      else (if w.length < 96 ∨ 2128 < w.length then .panic else NX.closed ((p.one P e re).key P e rs),
        p.two P e re rs w, NX.revealed w rs)) := by
  cases h with
  | length h => exact .inl ⟨fun t => by have := t.long; have := t.short; omega, by rw [if_pos h]⟩
  | short h1 h2 => exact .inl ⟨fun t => by have := t.long; omega, by rw [if_neg (by omega), if_pos h2]⟩
  | key h1 h2 h3 => exact .inl ⟨fun t => t.key h3, by rw [if_neg (by omega), if_neg (by omega)]⟩
  | noStatic re h1 h2 h3 => exact .inr (.inl ⟨h1, re, h2, .inl h3, by rw [if_pos h3]⟩)
  | unknown re h1 h2 h3 h4 => exact .inr (.inl ⟨h1, re, h2, .inr h4, by rw [if_neg (by omega)]⟩)
  | static re rs h1 h2 => exact .inr (.inr ⟨re, rs, h1, by rw [if_pos h2]⟩)
  | crash re rs h1 h2 h3 => exact .inr (.inr ⟨re, rs, h1, by rw [if_neg h2, if_pos h3]⟩)
  | payload re rs h1 h2 h3 h4 h5 => exact .inr (.inr ⟨re, rs, h1, by rw [if_neg h2, if_neg (by omega)]⟩)

/-- The two exclude each other, and each leaves no choice. -/
theorem C99_accepts_or_refuses (p : NX.Progress) (e : Arr 32) (w : Bytes) :
    (∀ hash keys rs out r q out', NX.Accepts P p e w hash keys rs out → NX.Refuses P p e w r q out' → False) ∧
    (∀ hash keys rs out hash' keys' rs' out', NX.Accepts P p e w hash keys rs out →
      NX.Accepts P p e w hash' keys' rs' out' → (hash', keys', rs', out') = (hash, keys, rs, out)) ∧
    (∀ r q out r' q' out', NX.Refuses P p e w r q out → NX.Refuses P p e w r' q' out' → (r', q', out') = (r, q, out)) := by
  refine ⟨?_, ?_, ?_⟩
  · rintro hash keys rs out r q out' ⟨re, _, text, k1, a2, a3, a4, a5⟩ hR
    have hT := k1.taken
    cases hR with
    | length h => omega
    | short _ h => omega
    | key _ _ h => exact hT.key h
    | noStatic _ _ _ h => omega
    | unknown re' _ hre _ h =>
      cases arr_ext (k1.ephemeral.trans hre.symm)
      exact h ⟨_, k1.opens⟩
    | static re' rs' k2 h =>
      obtain ⟨-, rfl⟩ := known_inj P k1 k2
      exact a2 h
    | crash re' rs' k2 _ h => omega
    | payload re' rs' k2 _ _ _ h =>
      obtain ⟨rfl, rfl⟩ := known_inj P k1 k2
      exact h ⟨_, a5⟩
  · rintro hash keys rs out hash' keys' rs' out' ⟨re, _, text, k1, -, -, -, a5⟩ ⟨re', _, text', k1', -, -, -, a5'⟩
    obtain ⟨rfl, rfl⟩ := known_inj P k1 k1'
    cases opens_inj P a5 a5'
    rfl
  · intro r q out r' q' out' hR hR'
    rcases refuses_inv P hR with ⟨t, e1⟩ | ⟨t, re, h, o, e1⟩ | ⟨re, rs, k, e1⟩ <;>
      rcases refuses_inv P hR' with ⟨t', e2⟩ | ⟨t', re', h', o', e2⟩ | ⟨re', rs', k', e2⟩
    · exact e2.trans e1.symm
    · exact absurd t' t
    · exact absurd k'.taken t
    · exact absurd t t'
    · cases arr_ext (h.trans h'.symm)
      exact e2.trans e1.symm
    · cases arr_ext (h.trans k'.ephemeral.symm)
      exact absurd k'.long fun hl => o.elim (by omega) fun o => o ⟨_, k'.opens⟩
    · exact absurd k.taken t'
    · cases arr_ext (h'.trans k.ephemeral.symm)
      exact absurd k.long fun hl => o'.elim (by omega) fun o => o ⟨_, k.opens⟩
    · obtain ⟨rfl, rfl⟩ := known_inj P k k'
      exact e2.trans e1.symm

/-- A message of which not even the ephemeral key is taken changes nothing. -/
theorem C99_nothing (s : NoiseSession) (h1 : s.getMessageCount = 1) (w : Bytes) (hw : ¬ NX.Taken w) :
    ∃ e, s.recvMessage P w = (.err e, s, w) := by
  have h1 : s.mc = 1 := h1
  by_cases hl : w.length < 16 ∨ 65535 < w.length
  · exact ⟨_, NoiseSession.recv_badLength s w hl⟩
  rw [NoiseSession.recv_one s w hl h1]
  unfold HandshakeState.readMessageB
  simp only [show DHLEN = 32 from rfl, show MAC_LENGTH = 16 from rfl]
  by_cases h48 : w.length < 48
  · rw [if_pos (by omega)]
    exact ⟨_, rfl⟩
  · have hf : w.take 32 ∈ forbiddenCurveValues := by
      rw [lowOrder_take (by omega)]
      exact Decidable.of_not_not fun h => hw ⟨by omega, by omega, h⟩
    rw [if_neg (by omega), key_forbidden (w.take 32) (by simp; omega) (by rw [take32_take32]; exact hf)]
    exact ⟨_, rfl⟩

/-! ## Any number of messages -/

/-- So any number of such messages changes nothing. -/
theorem C99_harmless (s : NoiseSession) (h1 : s.getMessageCount = 1) (ws : List Bytes) (hw : ∀ w ∈ ws, ¬ NX.Taken w) :
    s.receives P ws = s ∧ s.AllRefused P ws := by
  induction ws with
  | nil => exact ⟨rfl, trivial⟩
  | cons w ws ih =>
    obtain ⟨e, he⟩ := C99_nothing P s h1 w (hw w List.mem_cons_self)
    obtain ⟨i1, i2⟩ := ih fun x hx => hw x (List.mem_cons_of_mem _ hx)
    have hs : (s.recvMessage P w).2.1 = s := by rw [he]
    refine ⟨?_, ⟨e, by rw [he]⟩, ?_⟩
    · show NoiseSession.receives P (s.recvMessage P w).2.1 ws = s
      rw [hs, i1]
    · rw [hs]
      exact i2

/-- A hash, with more values mixed in. -/
def mixAll (h : Arr 32) (parts : List Bytes) : Arr 32 := parts.foldl (fun h d => P.hash (h.toList ++ d)) h

theorem refuses_stays {p : NX.Progress} {e : Arr 32} {w : Bytes} {r : NResult Unit} {q : NX.Progress} {out : Bytes}
    (h : NX.Refuses P p e w r q out) : ∃ parts, NX.Stays w parts ∧ q.h = mixAll P p.h parts ∧ (NX.Taken w → parts ≠ []) := by
  have hone : ∀ re : Arr 32, re.toList = w.take 32 → (p.one P e re).h = mixAll P p.h [w.take 32] := by
    intro re h
    rw [← h]
    rfl
  have htwo : ∀ re rs : Arr 32, re.toList = w.take 32 →
      (p.two P e re rs w).h = mixAll P p.h [w.take 32, NX.staticPart w] := by
    intro re rs h
    rw [← h]
    rfl
  cases h with
  | length h =>
    have : ¬ NX.Taken w := fun t => by have := t.long; have := t.short; omega
    exact ⟨[], .nothing this, rfl, fun t => absurd t this⟩
  | short h1 h2 =>
    have : ¬ NX.Taken w := fun t => by have := t.long; omega
    exact ⟨[], .nothing this, rfl, fun t => absurd t this⟩
  | key h1 h2 h3 =>
    have : ¬ NX.Taken w := fun t => t.key h3
    exact ⟨[], .nothing this, rfl, fun t => absurd t this⟩
  | noStatic re h1 h2 h3 => exact ⟨_, .ephemeral h1, hone re h2, fun _ => by simp⟩
  | unknown re h1 h2 h3 h4 => exact ⟨_, .ephemeral h1, hone re h2, fun _ => by simp⟩
  | static re rs h1 h2 => exact ⟨_, .static h1.taken h1.long, htwo re rs h1.ephemeral, fun _ => by simp⟩
  | crash re rs h1 h2 h3 => exact ⟨_, .static h1.taken h1.long, htwo re rs h1.ephemeral, fun _ => by simp⟩
  | payload re rs h1 h2 h3 h4 h5 => exact ⟨_, .static h1.taken h1.long, htwo re rs h1.ephemeral, fun _ => by simp⟩

/-- The session after refused messages. -/
theorem receives_refused (ws : List Bytes) : ∀ s : NoiseSession, s.mc = 1 → s.AllRefused P ws →
    let s' := s.receives P ws
    s'.mc = 1 ∧ s'.hs.e = s.hs.e ∧ ∃ kept, NX.StayAll ws kept ∧
      s'.progress.h = mixAll P s.progress.h kept ∧ ((∃ w ∈ ws, NX.Taken w) → kept ≠ []) := by
  induction ws with
  | nil => exact fun s h1 _ => ⟨h1, rfl, [], .nil, rfl, fun ⟨w, hw, _⟩ => (by cases hw)⟩
  | cons w ws ih =>
    intro s h1 hf
    obtain ⟨⟨e, f1⟩, f2⟩ := hf
    rcases C99_second P s h1 w with ⟨_, _, _, _, hok, _⟩ | ⟨hR, g1, -, -, -, g2⟩
    · rw [f1] at hok; cases hok
    obtain ⟨i1, i2, kept, i3, i4, i5⟩ := ih _ g1 f2
    obtain ⟨parts, p1, p2, p3⟩ := refuses_stays P hR
    refine ⟨i1, i2.trans g2, parts ++ kept, .cons p1 i3, ?_, ?_⟩
    · show ((s.recvMessage P w).2.1.receives P ws).progress.h = _
      rw [i4, p2]
      unfold mixAll
      rw [List.foldl_append]
    · rintro ⟨x, hx, ht⟩
      rcases List.mem_cons.mp hx with rfl | hx
      · exact fun h => p3 ht (List.append_eq_nil_iff.mp h).1
      · exact fun h => i5 ⟨x, hx, ht⟩ (List.append_eq_nil_iff.mp h).2

theorem accepts_hash {p : NX.Progress} {e : Arr 32} {w : Bytes} {hash : Arr 32} {keys : Arr 32 × Arr 32} {rs : Arr 32}
    {out : Bytes} (h : NX.Accepts P p e w hash keys rs out) : hash = mixAll P p.h [w.take 32, NX.staticPart w, w.drop 80] := by
  rcases h with ⟨re, _, text, a1, -, -, -, -⟩
  rw [← a1.ephemeral]
  rfl

theorem accepts_static {p : NX.Progress} {e : Arr 32} {w : Bytes} {hash : Arr 32} {keys : Arr 32 × Arr 32} {rs : Arr 32}
    {out : Bytes} (h : NX.Accepts P p e w hash keys rs out) (re : Arr 32) (hre : re.toList = w.take 32) :
    NX.Opens P (p.key P e re) (p.one P e re).h (NX.staticPart w) rs.toList := by
  rcases h with ⟨re', _, text, a1, -, -, -, -⟩
  cases arr_ext (hre.trans a1.ephemeral.symm)
  exact a1.opens

/-- An initiator that has refused any messages and accepts one: its handshake hash is that of the prologue, the first message,
what stayed of the refused messages, and the message. -/
theorem C99_hash (prologue buf1 w1 : Bytes) (sI : Keypair) (eI : Arr 32) (i : NoiseSession)
    (hi : (NoiseSession.initSession P true prologue sI).sendMessage P (Keypair.default P eI) buf1 = (.ok (), i, w1))
    (ws : List Bytes) (hws : i.AllRefused P ws) (w : Bytes) (hok : ((i.receives P ws).recvMessage P w).1 = .ok ()) :
    ∃ kept, NX.StayAll ws kept ∧ ((∃ w ∈ ws, NX.Taken w) → kept ≠ []) ∧
      ((i.receives P ws).recvMessage P w).2.1.getHandshakeHash = some (NX.transcript P ([prologue, w1.take 32, w1.drop 32] ++
        kept ++ [w.take 32, NX.staticPart w, w.drop 80])) := by
  obtain ⟨hi1, -⟩ := send_first_ok hi
  obtain ⟨m1, m2, kept, k1, k2, k3⟩ := receives_refused P ws i (by rw [hi1]; rfl) hws
  refine ⟨kept, k1, k3, ?_⟩
  have hh : i.progress.h = NX.transcript P [prologue, w1.take 32, w1.drop 32] := by rw [hi1]; rfl
  rcases C99_second P (i.receives P ws) m1 w with ⟨hash, keys, rs, ha, -, g1, -⟩ | ⟨hR, g1, -⟩
  · rw [g1]
    rw [accepts_hash P ha, k2, hh]
    simp only [NX.transcript, mixAll, List.foldl_append, List.foldl_cons, List.foldl_nil]
  · have := (NoiseSession.recv_basic (P := P) (i.receives P ws) w).mc
    have g1 : ((i.receives P ws).recvMessage P w).2.1.mc = 1 := g1
    have m1 : (i.receives P ws).mc = 1 := m1
    rw [hok, g1, m1] at this
    simp [Out.isOk] at this

/-- The answer of a responder, which the initiator would have accepted before: now it accepts it only if the static key that
was encrypted with the key and the handshake hash of the protocol decrypts with the key and the handshake hash that the
initiator has come to, and the latter is a hash of more than the protocol has if one of the messages had a key that is taken. -/
theorem C99_refused (prologue buf1 w1 out : Bytes) (sI : Keypair) (eI sR eR : Arr 32) (i r : NoiseSession)
    (hi : (NoiseSession.initSession P true prologue sI).sendMessage P (Keypair.default P eI) buf1 = (.ok (), i, w1))
    (hr : (NoiseSession.initSession P false prologue (Keypair.default P sR)).recvMessage P w1 = (.ok (), r, out))
    (buf w : Bytes) (r2 : NoiseSession) (hs : r.sendMessage P (Keypair.default P eR) buf = (.ok (), r2, w))
    (ws : List Bytes) (hws : i.AllRefused P ws) (hok : ((i.receives P ws).recvMessage P w).1 = .ok ()) :
    let re := P.publicOf eR
    let first := [prologue, w1.take 32, w1.drop 32]
    let sealed := P.aeadSeal (NX.afterEE P (P.dh eR (P.publicOf eI))).2 (NX.nonce 0)
      (NX.transcript P (first ++ [re.toList])).toList (P.publicOf sR).toList
    let p := (i.receives P ws).progress
    ∃ kept, NX.StayAll ws kept ∧ ((∃ w ∈ ws, NX.Taken w) → kept ≠ []) ∧ p.h = NX.transcript P (first ++ kept) ∧
      ∃ rs, P.aeadOpen (p.key P eI re) (NX.nonce 0) (NX.transcript P (first ++ kept ++ [re.toList])).toList
        sealed.1 sealed.2 = some rs := by
  intro re first sealed p
  obtain ⟨hi1, hw1, -, -, -⟩ := send_first_ok hi
  obtain ⟨hw, -, -, -⟩ := C98_retry P prologue w1 out sR (P.publicOf eI) hw1.symm r hr [] (fun _ h => by cases h) trivial
    eR buf w r2 hs
  obtain ⟨m1, m2, kept, k1, k2, k3⟩ := receives_refused P ws i (by rw [hi1]; rfl) hws
  have hh : i.progress.h = NX.transcript P first := by rw [hi1]; rfl
  have hp : p.h = NX.transcript P (first ++ kept) := by
    show (i.receives P ws).progress.h = _
    rw [k2, hh]
    simp only [NX.transcript, mixAll, List.foldl_append]
  refine ⟨kept, k1, k3, hp, ?_⟩
  have he : (i.receives P ws).hs.e.private_key = eI := by rw [m2, hi1]; rfl
  rcases C99_second P (i.receives P ws) m1 w with ⟨hash, keys, rs, ha, -, -⟩ | ⟨hR, g1, -⟩
  · have hbuf : 32 ≤ buf.length ∧ buf.length ≤ 65535 := by
      by_cases hl : buf.length < 16 ∨ 65535 < buf.length
      · rw [NoiseSession.send_badLength _ _ buf hl] at hs; cases hs
      · obtain ⟨_, _, _, hr1, _, _⟩ := recv_first_ok hr
        have := (send_progress P r (by rw [hr1]; rfl) (Keypair.default P eR) buf (by rw [hs])).2.2.2.2
        omega
    have hfirst : firstSecret ([] ++ [(eR, buf)]) = eR := by
      unfold firstSecret
      simp [hbuf]
    simp only [List.foldl_nil, hfirst] at hw
    have hseal : (sealed.1 ++ sealed.2.toList).length = 48 := by
      have : sealed.1.length = 32 := (P.seal_length _ _ _ _).trans (P.publicOf sR).len
      rw [List.length_append, this, sealed.2.len]
    have hw : w = re.toList ++ (sealed.1 ++ sealed.2.toList) ++ _ := hw
    have htake : w.take 32 = re.toList := by
      rw [hw, List.append_assoc]
      exact List.take_left' re.len
    have hstat : NX.staticPart w = sealed.1 ++ sealed.2.toList := by
      unfold NX.staticPart
      rw [hw, List.append_assoc, List.drop_left' re.len]
      exact List.take_left' hseal
    have ho := accepts_static P ha re htake.symm
    rw [hstat, he] at ho
    obtain ⟨-, c, mac, hcm, ho⟩ := ho
    obtain ⟨h1, h2⟩ := List.append_inj' hcm (by rw [mac.len, sealed.2.len])
    rw [← h1, ← arr_ext h2] at ho
    refine ⟨rs.toList, ?_⟩
    rw [transcript_snoc, ← hp]
    exact ho
  · have := (NoiseSession.recv_basic (P := P) (i.receives P ws) w).mc
    have g1 : ((i.receives P ws).recvMessage P w).2.1.mc = 1 := g1
    have m1 : (i.receives P ws).mc = 1 := m1
    rw [hok, g1, m1] at this
    simp [Out.isOk] at this

end

/-! ## Cases -/

/-- With the toy primitives: the initiator gets one message and then the answer of the responder. A message of 40 bytes does not
matter; one of 60 bytes whose first 32 are not a key of low order does; and so does one that has the static key, and the
ephemeral key, of the answer, but another payload. That one leaves the static key in the buffer. -/
example :
    let i := (NoiseSession.initSession toyPrims true [1, 2] Keypair.empty).sendMessage toyPrims
      (Keypair.default toyPrims (Arr.replicate 32 3)) (List.replicate 50 8)
    let r := (NoiseSession.initSession toyPrims false [1, 2] (Keypair.default toyPrims (Arr.replicate 32 5))).recvMessage
      toyPrims i.2.2
    let w := (r.2.1.sendMessage toyPrims (Keypair.default toyPrims (Arr.replicate 32 4)) (List.replicate 100 7)).2.2
    let other := w.take 80 ++ List.replicate 20 1
    let tried := [List.replicate 40 9, List.replicate 60 9, other]
    i.1 = .ok () ∧ r.1 = .ok () ∧
    tried.map (fun x => (i.2.1.recvMessage toyPrims x).1) =
      [.err .missingreError, .err .missingrsError, .err .decryptionError] ∧
    tried.map (fun x => ((i.2.1.receives toyPrims [x]).recvMessage toyPrims w).1) =
      [.ok (), .err .decryptionError, .err .decryptionError] ∧
    (i.2.1.recvMessage toyPrims other).2.2 = NX.revealed other (toyPrims.publicOf (Arr.replicate 32 5)) := by
  decide +kernel

/-- What `C99_first` and `C99_second` ask for. -/
example : (NoiseSession.initSession toyPrims false [] Keypair.empty).getMessageCount = 0 ∧
    ((NoiseSession.initSession toyPrims true [] Keypair.empty).sendMessage toyPrims
      (Keypair.default toyPrims (Arr.replicate 32 3)) (List.replicate 50 8)).2.1.getMessageCount = 1 ∧
    NX.Taken (List.replicate 48 9) ∧ ¬ NX.Taken (List.replicate 48 0) ∧ ¬ NX.Taken (List.replicate 40 9) :=
  ⟨by decide +kernel, by decide +kernel, ⟨by decide, by decide, by decide +kernel⟩,
    fun h => absurd h.key (by decide +kernel), fun h => absurd h.long (by decide)⟩

end SV2
