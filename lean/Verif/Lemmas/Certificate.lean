import Verif.Lemmas.Built
import Verif.Spec.Certificate
/-!
# Lemmas about certificates
-/

namespace SV2
variable {E : SigScheme}

theorem arr_ext {n : Nat} {a b : Arr n} (h : a.toList = b.toList) : a = b := by
  cases a; cases b; cases h; rfl

theorem emits_key (k : StaticPublicKey) : Emits (encoder k) k.toList 0 := Emits.writeBuf _

theorem emits_sig (s : Signature E) : Emits (encoder s) s.bytes.toList 0 := Emits.writeBuf _

theorem sig_reads (s : Signature E) : Reads (Deserializable.deser) s.bytes.toList s := by
  have h := Reads.nextBy s.bytes.toList
  rw [s.bytes.len] at h
  refine Reads.bind_last h ?_
  have : Arr.ofSlice? 64 s.bytes.toList = some s.bytes := by
    simp [Arr.ofSlice?, s.bytes.len]
  rw [this]
  simp only
  rw [dif_pos s.ok]

theorem sig_rejects (b : Arr 64) :
    RejectsPrefix (Deserializable.deser (α := Signature E)) b.toList := by
  have h := Reads.nextBy b.toList
  have h2 := RejectsPrefix.nextBy b.toList (by rw [b.len]; decide)
  rw [b.len] at h h2
  exact RejectsPrefix.bind_last h h2

theorem sig_panics (b : Arr 64) (hb : E.decodable b = false) (p : ByteParser) (hp : p.Valid)
    (post : Bytes) (hr : p.rest = b.toList ++ post) :
    (Deserializable.deser (α := Signature E) p).1 = .panic := by
  have h := Reads.nextBy b.toList p hp post hr
  rw [b.len] at h
  show ((ByteParser.nextBy 64 >>= _) p).1 = _
  rw [SM.bind_run, h]
  have : Arr.ofSlice? 64 b.toList = some b := by simp [Arr.ofSlice?, b.len]
  simp only [this]
  rw [dif_neg (by simp [hb])]
  rfl

theorem Reads.bind_panics {α β : Type} {d : ParseM α} {f : α → ParseM β} {e1 e2 : Bytes} {a : α}
    (h1 : Reads d e1 a)
    (h2 : ∀ p : ByteParser, p.Valid → ∀ post, p.rest = e2 ++ post → (f a p).1 = .panic) :
    ∀ p : ByteParser, p.Valid → ∀ post, p.rest = (e1 ++ e2) ++ post → ((d >>= f) p).1 = .panic := by
  intro p hp post hr
  have hlen : e1.length ≤ p.rest.length := by rw [hr]; simp
  rw [SM.bind_run, h1 p hp (e2 ++ post) (by rw [hr]; simp)]
  exact h2 _ (hp.adv hlen) post (by rw [ByteParser.rest_adv, hr]; simp)

theorem sig_inverts :
    Inverts (Deserializable.deser (α := Signature E)) (fun s e => e = s.bytes.toList) := by
  refine (Inverts.bind (Inverts.nextBy 64) (Q := fun b s e => b = s.bytes.toList ∧ e = []) fun b => ?_).mono ?_
  · by_cases hb : b.length = 64
    · have : Arr.ofSlice? 64 b = some ⟨b, hb⟩ := by simp [Arr.ofSlice?, hb]
      rw [this]
      simp only
      split
      · refine (Inverts.pure _).mono ?_
        rintro s e ⟨rfl, rfl⟩
        exact ⟨rfl, rfl⟩
      · exact Inverts.panic _
    · have : Arr.ofSlice? 64 b = none := by simp [Arr.ofSlice?, hb]
      rw [this]
      exact Inverts.fail _ _
  · rintro s e ⟨b, e1, e2, rfl, ⟨rfl, _⟩, rfl, rfl⟩
    simp

theorem sig_safe (hE : ∀ b, E.decodable b = true) : Safe (Deserializable.deser (α := Signature E)) := by
  refine Safe.bind (Safe.nextBy (by decide)) fun b => ?_
  split
  · exact Safe.fail _
  · rw [dif_pos (hE _)]
    exact Safe.pure _

theorem emits_signatureNoiseMessage (m : SignatureNoiseMessage E) :
    Emits (encoder m) (Wire.signatureNoiseMessage m) 0 := by
  simp only [Wire.signatureNoiseMessage, List.append_assoc]
  exact Emits.seq (lawful_u16.emits m.version trivial)
    (Emits.seq (lawful_u32.emits m.valid_from trivial)
    (Emits.seq (lawful_u32.emits m.not_valid_after trivial)
    (Emits.seq_last (emits_sig m.signature) (Emits.pure (by omega)))))

theorem emits_signedCertificate (c : SignedCertificate) :
    Emits (encoder c) (Wire.certBytes c.version c.valid_from c.not_valid_after c.public_key) 0 := by
  simp only [Wire.certBytes, List.append_assoc]
  exact Emits.seq (lawful_u16.emits c.version trivial)
    (Emits.seq (lawful_u32.emits c.valid_from trivial)
    (Emits.seq (lawful_u32.emits c.not_valid_after trivial)
    (Emits.seq_last (emits_key c.public_key) (Emits.pure (by omega)))))

theorem emits_certificateFormat (c : CertificateFormat E) :
    Emits (encoder c) (Wire.certBytes c.signature_noise_message.version
      c.signature_noise_message.valid_from c.signature_noise_message.not_valid_after
      c.static_public_key) 0 := by
  simp only [Wire.certBytes, List.append_assoc]
  exact Emits.seq (lawful_u16.emits _ trivial)
    (Emits.seq (lawful_u32.emits _ trivial)
    (Emits.seq (lawful_u32.emits _ trivial)
    (Emits.seq_last (emits_key c.static_public_key) (Emits.pure (by omega)))))

theorem reads_signatureNoiseMessage (m : SignatureNoiseMessage E) :
    Reads Deserializable.deser (Wire.signatureNoiseMessage m) m := by
  simp only [Wire.signatureNoiseMessage, List.append_assoc]
  exact Reads.bind (lawful_u16.reads m.version trivial)
    (Reads.bind (lawful_u32.reads m.valid_from trivial)
    (Reads.bind (lawful_u32.reads m.not_valid_after trivial)
    (Reads.bind_last (sig_reads m.signature) rfl)))

theorem rejects_signatureNoiseMessage (v : UInt16) (f u : UInt32) (b : Arr 64) :
    RejectsPrefix (Deserializable.deser (α := SignatureNoiseMessage E))
      (Wire.u16 v ++ Wire.u32 f ++ Wire.u32 u ++ b.toList) := by
  simp only [List.append_assoc]
  refine RejectsPrefix.bind (lawful_u16.reads v trivial) (lawful_u16.rejects _ trivial)
    (RejectsPrefix.bind (lawful_u32.reads f trivial) (lawful_u32.rejects _ trivial)
    (RejectsPrefix.bind (lawful_u32.reads u trivial) (lawful_u32.rejects _ trivial) ?_))
  intro p hp t ht hr
  obtain ⟨p', h⟩ := sig_rejects (E := E) b p hp t ht hr
  exact ⟨p', by rw [SM.bind_run, h]⟩

theorem panics_signatureNoiseMessage (v : UInt16) (f u : UInt32) (b : Arr 64)
    (hb : E.decodable b = false) (p : ByteParser) (hp : p.Valid) (post : Bytes)
    (hr : p.rest = (Wire.u16 v ++ Wire.u32 f ++ Wire.u32 u ++ b.toList) ++ post) :
    (Deserializable.deser (α := SignatureNoiseMessage E) p).1 = .panic := by
  simp only [List.append_assoc] at hr
  refine Reads.bind_panics (lawful_u16.reads v trivial)
    (Reads.bind_panics (lawful_u32.reads f trivial)
    (Reads.bind_panics (lawful_u32.reads u trivial) ?_)) p hp post (by simpa using hr)
  intro p hp post hr
  have h := sig_panics (E := E) b hb p hp post hr
  rw [SM.bind_run]
  rcases hd : Deserializable.deser (α := Signature E) p with ⟨o, p'⟩
  rw [hd] at h
  simp only at h
  subst h
  rfl

theorem exists_u16 (b : Bytes) (h : b.length = 2) : ∃ x, Wire.u16 x = b := by
  refine ⟨UInt16.ofNat (fromLE b), ?_⟩
  have := fromLE_lt b
  rw [h] at this
  rw [← wire_u16, UInt16.toNat_ofNat_of_lt' (by simpa using this), toLE_fromLE' 2 b h]

theorem exists_u32 (b : Bytes) (h : b.length = 4) : ∃ x, Wire.u32 x = b := by
  refine ⟨UInt32.ofNat (fromLE b), ?_⟩
  have := fromLE_lt b
  rw [h] at this
  rw [← wire_u32, UInt32.toNat_ofNat_of_lt' (by simpa using this), toLE_fromLE' 4 b h]

theorem u16_inj {a b : UInt16} (h : Wire.u16 a = Wire.u16 b) : a = b := by
  have h' := congrArg fromLE h
  rw [← wire_u16, ← wire_u16, fromLE_toLE 2 _ (by have := a.toNat_lt; omega),
    fromLE_toLE 2 _ (by have := b.toNat_lt; omega)] at h'
  exact UInt16.toNat_inj.mp h'

theorem u32_inj {a b : UInt32} (h : Wire.u32 a = Wire.u32 b) : a = b := by
  have h' := congrArg fromLE h
  rw [← wire_u32, ← wire_u32, fromLE_toLE 4 _ (by have := a.toNat_lt; omega),
    fromLE_toLE 4 _ (by have := b.toNat_lt; omega)] at h'
  exact UInt32.toNat_inj.mp h'

/-- Any 74 bytes split into the four fields. -/
theorem split74 (b : Bytes) (h : b.length = 74) :
    ∃ v f u, ∃ s : Arr 64, b = Wire.u16 v ++ Wire.u32 f ++ Wire.u32 u ++ s.toList ∧ s.toList = b.drop 10 := by
  obtain ⟨v, hv⟩ := exists_u16 (b.take 2) (by simp [h])
  obtain ⟨f, hf⟩ := exists_u32 ((b.drop 2).take 4) (by simp [h])
  obtain ⟨u, hu⟩ := exists_u32 ((b.drop 6).take 4) (by simp [h])
  refine ⟨v, f, u, ⟨b.drop 10, by simp [h]⟩, ?_, rfl⟩
  rw [hv, hf, hu]
  have e1 : b.drop 6 = (b.drop 6).take 4 ++ b.drop 10 := by
    rw [← List.drop_drop (i := 4) (j := 6)]; exact (List.take_append_drop 4 _).symm
  have e2 : b.drop 2 = (b.drop 2).take 4 ++ b.drop 6 := by
    rw [← List.drop_drop (i := 4) (j := 2)]; exact (List.take_append_drop 4 _).symm
  simp only [List.append_assoc]
  rw [← e1, ← e2, List.take_append_drop]

theorem inverts_signatureNoiseMessage :
    Inverts (Deserializable.deser (α := SignatureNoiseMessage E))
      (fun m e => e = Wire.signatureNoiseMessage m) := by
  refine (Inverts.bind lawful_u16.inverts fun _ => Inverts.bind lawful_u32.inverts fun _ =>
    Inverts.bind lawful_u32.inverts fun _ => Inverts.bind sig_inverts fun _ => Inverts.pure _).mono ?_
  rintro m e ⟨a, _, _, rfl, ⟨_, rfl⟩, b, _, _, rfl, ⟨_, rfl⟩, c, _, _, rfl, ⟨_, rfl⟩, d, _, _, rfl, rfl,
    rfl, rfl⟩
  simp [Wire.signatureNoiseMessage]

theorem safe_signatureNoiseMessage (hE : ∀ b, E.decodable b = true) :
    Safe (Deserializable.deser (α := SignatureNoiseMessage E)) :=
  Safe.bind lawful_u16.safe fun _ => Safe.bind lawful_u32.safe fun _ =>
    Safe.bind lawful_u32.safe fun _ => Safe.bind (sig_safe hE) fun _ => Safe.pure _

theorem signatureNoiseMessage_length (m : SignatureNoiseMessage E) :
    (Wire.signatureNoiseMessage m).length = 74 := by
  simp [Wire.signatureNoiseMessage, Wire.u16, Wire.u32, m.signature.bytes.len]

end SV2
