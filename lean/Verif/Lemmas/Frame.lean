import Verif.Lemmas.Messages
/-!
# Frames
-/

namespace SV2

/-! ## Arithmetic of the extension field -/

theorem u16_and_mask (x : UInt16) : (x &&& EXTENSION_TYPE_MASK).toNat = x.toNat % 32768 := by
  have : EXTENSION_TYPE_MASK.toNat = 2 ^ 15 - 1 := by decide
  rw [UInt16.toNat_and, this, Nat.and_two_pow_sub_one_eq_mod]

theorem and_two_pow_15 (n : Nat) : n &&& 2 ^ 15 = if n.testBit 15 then 2 ^ 15 else 0 := by
  apply Nat.eq_of_testBit_eq
  intro i
  rw [Nat.testBit_and, Nat.testBit_two_pow]
  by_cases h : 15 = i
  · subst h
    by_cases h2 : n.testBit 15 = true
    · simp [h2]; decide
    · simp only [h2, Bool.false_and, Bool.false_eq_true, if_false, Nat.zero_testBit]
  · by_cases h2 : n.testBit 15 = true
    · rw [if_pos h2, Nat.testBit_two_pow]; simp [h]
    · rw [if_neg h2]; simp [h]

theorem u16_and_bit (x : UInt16) : (x &&& CHANNEL_BIT_MASK).toNat = if 32768 ≤ x.toNat then 32768 else 0 := by
  have : CHANNEL_BIT_MASK.toNat = 2 ^ 15 := by decide
  rw [UInt16.toNat_and, this, and_two_pow_15, Nat.testBit_eq_decide_div_mod_eq]
  have hx := x.toNat_lt
  by_cases h : 32768 ≤ x.toNat
  · have : x.toNat / 2 ^ 15 % 2 = 1 := by omega
    simp [this, h]
  · have : x.toNat / 2 ^ 15 % 2 = 0 := by omega
    simp [this, h]

theorem u16_bit_ne (x : UInt16) : ((x &&& CHANNEL_BIT_MASK) != 0) = decide (32768 ≤ x.toNat) := by
  have h := u16_and_bit x
  by_cases hx : 32768 ≤ x.toNat
  · simp only [hx, if_true] at h
    simp only [hx, decide_true, bne_iff_ne, ne_eq]
    intro hc; rw [hc] at h; simp at h
  · simp only [hx, if_false] at h
    have : x &&& CHANNEL_BIT_MASK = 0 := UInt16.toNat_inj.mp h
    simp [this, hx]

/-! ## The message type table -/

theorem messageType_new (t : MessageType) : MessageType.new t.extType t.msgType = .ok t := by
  cases t <;> decide

theorem extType_zero (t : MessageType) : t.extType = 0 := by cases t <;> rfl

theorem msgType_toNat (t : MessageType) : t.msgType.toNat = Wire.msgNumber t := by cases t <;> rfl

theorem msgNumber_lt (t : MessageType) : Wire.msgNumber t < 256 := by
  rw [← msgType_toNat]; exact t.msgType.toNat_lt

theorem msgNumber_inj {t t' : MessageType} (h : Wire.msgNumber t = Wire.msgNumber t') : t = t' := by
  have h' : t.msgType = t'.msgType := by
    apply UInt8.toNat_inj.mp; rw [msgType_toNat, msgType_toNat, h]
  have h1 := messageType_new t
  have h2 := messageType_new t'
  rw [h', extType_zero, ← extType_zero t', h2] at h1
  exact (Out.ok.inj h1).symm

theorem channelBit_eq (t : MessageType) : t.channelBit = Wire.hasChannel (Wire.msgNumber t) := by
  cases t <;> decide

theorem ite_inv {ε α : Type} {c : Prop} [Decidable c] {a t : α} {r : Out ε α}
    (h : (if c then .ok a else r) = .ok t) : (c ∧ a = t) ∨ r = .ok t := by
  by_cases hc : c
  · rw [if_pos hc] at h; exact Or.inl ⟨hc, Out.ok.inj h⟩
  · rw [if_neg hc] at h; exact Or.inr h

theorem ite_cases {ε α : Type} {c : Prop} [Decidable c] {a : α} {r : Out ε α} {e : ε}
    (h : (∃ t, r = .ok t) ∨ r = .err e) :
    (∃ t, (if c then .ok a else r) = .ok t) ∨ (if c then .ok a else r) = .err e := by
  by_cases hc : c
  · rw [if_pos hc]; exact Or.inl ⟨a, rfl⟩
  · rw [if_neg hc]; exact h

theorem messageType_new_inv {e : UInt16} {m : UInt8} {t : MessageType}
    (h : MessageType.new e m = .ok t) : e = t.extType ∧ m = t.msgType := by
  unfold MessageType.new at h
  iterate 29
    rcases ite_inv h with ⟨hc, rfl⟩ | h
    · exact hc
  cases h

theorem messageType_new_cases (e : UInt16) (m : UInt8) :
    (∃ t, MessageType.new e m = .ok t) ∨ MessageType.new e m = .err .unknownMessageType := by
  unfold MessageType.new
  iterate 29
    refine ite_cases ?_
  exact Or.inr rfl

/-! ## The frame encoder -/

/-- The extension field the encoder writes. -/
def extField (t : MessageType) : UInt16 :=
  if t.channelBit then t.extType ||| CHANNEL_BIT_MASK else t.extType

theorem wire_extField (t : MessageType) :
    Wire.u16 (extField t) = [0, if Wire.hasChannel (Wire.msgNumber t) then 0x80 else 0] := by
  cases t <;> decide

/-- The six bytes in front of the payload. -/
def frameHeader (m : Message) : Bytes :=
  Wire.u16 (extField m.message_type) ++ (Wire.u8 m.message_type.msgType ++ Wire.u24 m.payload.length)

theorem frameHeader_length (m : Message) : (frameHeader m).length = 6 := by
  simp [frameHeader, Wire.u16, Wire.u8, Wire.u24]

theorem wire_frame (m : Message) : Wire.frame m = frameHeader m ++ m.payload := by
  simp only [Wire.frame, frameHeader, wire_extField, Wire.u8, List.append_assoc]
  rw [← msgType_toNat]
  simp

theorem wire_frame_length (m : Message) : (Wire.frame m).length = 6 + m.payload.length := by
  rw [wire_frame, List.length_append, frameHeader_length]

/-- The header part of the encoder. -/
def headerEnc (m : Message) (l : U24) : Enc := fun _ w => do
  let n1 ← Serializable.ser w (extField m.message_type)
  let n2 ← Serializable.ser w m.message_type.msgType
  let n3 ← Serializable.ser w l
  pure (n1 + n2 + n3)

theorem message_ser {σ : Type} (w : Writer σ) (m : Message) :
    Serializable.ser w m = (do
      let l ← SM.lift (U24.new (UInt32.ofNat m.payload.length))
      let n ← headerEnc m l σ w
      let n4 ← w.write m.payload
      pure (n + n4)) := by
  simp only [headerEnc, SM.bind_assoc', SM.pure_bind']
  rfl

theorem u24_ok {n : Nat} (h : n < 2 ^ 24) :
    U24.new (UInt32.ofNat n) = .ok ⟨UInt32.ofNat n⟩ ∧ (UInt32.ofNat n).toNat = n := by
  have e : (UInt32.ofNat n).toNat = n :=
    UInt32.toNat_ofNat_of_lt' (by simp only [UInt32.size]; omega)
  refine ⟨?_, e⟩
  exact U24.new_ok (by rw [e]; omega)

theorem headerEnc_emits (m : Message) (h : m.payload.length < 2 ^ 24) :
    Emits (headerEnc m ⟨UInt32.ofNat m.payload.length⟩) (frameHeader m) 0 := by
  have e := (u24_ok h).2
  have h24 := lawful_u24.emits ⟨UInt32.ofNat m.payload.length⟩ (by
    show (UInt32.ofNat m.payload.length).toNat < 2 ^ 24
    rw [e]; exact h)
  simp only [e] at h24
  exact Emits.seq (lawful_u16.emits (extField m.message_type) trivial)
    (Emits.seq (lawful_u8.emits m.message_type.msgType trivial)
    (Emits.seq_last h24 (Emits.pure (by omega))))

/-- Writing a frame to a `Vec`. -/
theorem message_vec (m : Message) (h : Wire.FrameOK m) (buf : Bytes) :
    Serializable.ser vecWriter m buf = (.ok (Wire.frame m).length, buf ++ Wire.frame m) := by
  rw [message_ser, (u24_ok h).1, SM.lift_ok, SM.pure_bind', SM.bind_run,
    (headerEnc_emits m h).run_vec buf]
  simp only [SM.bind_run, vecWriter_write]
  rw [wire_frame, List.length_append, List.append_assoc]
  rfl

/-- Writing a frame to a slice: the header is counted in full, the payload as far as it fits. -/
theorem message_slice (m : Message) (h : Wire.FrameOK m) (out : Bytes) (room : Nat) :
    Serializable.ser sliceWriter m (out, room) =
      (.ok (6 + min m.payload.length (room - 6)),
        (out ++ (Wire.frame m).take room, room - (Wire.frame m).length)) := by
  rw [message_ser, (u24_ok h).1, SM.lift_ok, SM.pure_bind', SM.bind_run,
    (headerEnc_emits m h).run_slice out room]
  simp only [SM.bind_run, sliceWriter_write]
  rw [wire_frame, List.length_append, frameHeader_length]
  refine Prod.ext rfl (Prod.ext ?_ ?_)
  · show out ++ List.take room (frameHeader m) ++
      List.take (min m.payload.length (room - 6)) m.payload = _
    rw [List.take_append, frameHeader_length, List.append_assoc, ← List.take_take,
      List.take_of_length_le (i := m.payload.length)]
    simp [List.length_take]
    omega
  · show room - 6 - min m.payload.length (room - 6) = room - (6 + m.payload.length)
    omega

/-- A length the header cannot hold is refused before anything is written. -/
theorem message_too_long {σ : Type} (w : Writer σ) (m : Message) (s : σ)
    (h : 2 ^ 24 ≤ m.payload.length % 2 ^ 32) :
    Serializable.ser w m s = (.err (.requirementError "U24 cannot be greater than 2^24-1"), s) := by
  have e : (UInt32.ofNat m.payload.length).toNat = m.payload.length % 2 ^ 32 := by simp
  rw [message_ser, U24.new_err (by rw [e]; omega)]
  rfl

/-- Beyond 2^32 the header holds the length modulo 2^32. -/
theorem message_wrap (m : Message) (h : m.payload.length % 2 ^ 32 < 2 ^ 24) (buf : Bytes) :
    Serializable.ser vecWriter m buf =
      (.ok (6 + m.payload.length),
        buf ++ (Wire.u16 (extField m.message_type) ++ (Wire.u8 m.message_type.msgType ++
          Wire.u24 (m.payload.length % 2 ^ 32))) ++ m.payload) := by
  have e : UInt32.ofNat m.payload.length = UInt32.ofNat (m.payload.length % 2 ^ 32) := by
    apply UInt32.toNat_inj.mp; simp
  have e2 := u24_ok h
  have h24 := lawful_u24.emits ⟨UInt32.ofNat (m.payload.length % 2 ^ 32)⟩ (by
    show (UInt32.ofNat (m.payload.length % 2 ^ 32)).toNat < 2 ^ 24
    rw [e2.2]; exact h)
  simp only [e2.2] at h24
  have hE : Emits (headerEnc m ⟨UInt32.ofNat (m.payload.length % 2 ^ 32)⟩) _ 0 :=
    Emits.seq (lawful_u16.emits (extField m.message_type) trivial)
    (Emits.seq (lawful_u8.emits m.message_type.msgType trivial)
    (Emits.seq_last h24 (Emits.pure (by omega))))
  rw [message_ser, e, e2.1, SM.lift_ok, SM.pure_bind', SM.bind_run, hE.run_vec buf]
  simp only [SM.bind_run, vecWriter_write]
  refine Prod.ext ?_ rfl
  show Out.ok _ = Out.ok _
  congr 1

/-! ## The frame decoder -/

/-- The decoder with the two checks named. -/
theorem message_deser :
    Deserializable.deser (α := Message) = (do
      let ext ← Deserializable.deser (α := UInt16)
      let msg_type ← Deserializable.deser (α := UInt8)
      let t ← SM.lift (MessageType.new (ext &&& EXTENSION_TYPE_MASK) msg_type)
      if (t.channelBit != ((ext &&& CHANNEL_BIT_MASK) != 0)) = true then
        SM.fail (.unexpectedChannelBit ((ext &&& CHANNEL_BIT_MASK) != 0))
      else do
        let l ← Deserializable.deser (α := U24)
        let payload ← ByteParser.nextBy l.val.toNat
        pure { message_type := t, payload := payload }) := rfl

theorem ext_lookup (t : MessageType) :
    MessageType.new (extField t &&& EXTENSION_TYPE_MASK) t.msgType = .ok t ∧
      ((extField t &&& CHANNEL_BIT_MASK) != 0) = t.channelBit := by
  cases t <;> decide

/-- The decoder after the length. -/
def payloadDec (t : MessageType) (l : U24) : ParseM Message := do
  let payload ← ByteParser.nextBy l.val.toNat
  pure { message_type := t, payload := payload }

theorem u24_lawful_len (m : Message) (h : m.payload.length < 2 ^ 24) :
    Reads Deserializable.deser (Wire.u24 m.payload.length) (⟨UInt32.ofNat m.payload.length⟩ : U24) ∧
    RejectsPrefix (Deserializable.deser (α := U24)) (Wire.u24 m.payload.length) := by
  have e := (u24_ok h).2
  have hlt : (UInt32.ofNat m.payload.length).toNat < 2 ^ 24 := by rw [e]; exact h
  have h1 := lawful_u24.reads ⟨UInt32.ofNat m.payload.length⟩ hlt
  have h2 := lawful_u24.rejects ⟨UInt32.ofNat m.payload.length⟩ hlt
  simp only [e] at h1 h2
  exact ⟨h1, h2⟩

theorem message_reads (m : Message) (h : Wire.FrameOK m) :
    Reads Deserializable.deser (Wire.frame m) m := by
  have e := (u24_ok h).2
  obtain ⟨h1, h2⟩ := ext_lookup m.message_type
  rw [wire_frame]
  simp only [frameHeader, List.append_assoc]
  rw [message_deser]
  refine Reads.bind (lawful_u16.reads _ trivial) (Reads.bind (lawful_u8.reads _ trivial) ?_)
  simp only [h1, SM.lift_ok, SM.pure_bind', h2, bne_self_eq_false, Bool.false_eq_true, if_false]
  refine Reads.bind (u24_lawful_len m h).1 ?_
  simp only [e]
  exact Reads.bind_last (Reads.nextBy _) rfl

theorem message_rejects (m : Message) (h : Wire.FrameOK m) :
    RejectsPrefix (Deserializable.deser (α := Message)) (Wire.frame m) := by
  have e := (u24_ok h).2
  obtain ⟨h1, h2⟩ := ext_lookup m.message_type
  rw [wire_frame]
  simp only [frameHeader, List.append_assoc]
  rw [message_deser]
  refine RejectsPrefix.bind (lawful_u16.reads _ trivial) (lawful_u16.rejects _ trivial)
    (RejectsPrefix.bind (lawful_u8.reads _ trivial) (lawful_u8.rejects _ trivial) ?_)
  simp only [h1, SM.lift_ok, SM.pure_bind', h2, bne_self_eq_false, Bool.false_eq_true, if_false]
  refine RejectsPrefix.bind (u24_lawful_len m h).1 (u24_lawful_len m h).2 ?_
  simp only [e]
  exact RejectsPrefix.bind_last (Reads.nextBy _) (RejectsPrefix.nextBy _ (by
    have : m.payload.length < 2 ^ 24 := h
    omega))

theorem extField_of_checks {ext : UInt16} {t : MessageType}
    (h1 : ext &&& EXTENSION_TYPE_MASK = t.extType)
    (h2 : ((ext &&& CHANNEL_BIT_MASK) != 0) = t.channelBit) : ext = extField t := by
  have a := u16_and_mask ext
  rw [u16_bit_ne] at h2
  rw [h1, extType_zero] at a
  have hlt := ext.toNat_lt
  apply UInt16.toNat_inj.mp
  unfold extField
  rw [extType_zero]
  have a' : 0 = ext.toNat % 32768 := a
  by_cases hb : t.channelBit = true
  · simp only [hb, if_true] at *
    have hh : 32768 ≤ ext.toNat := by simpa using h2
    have : (0 ||| CHANNEL_BIT_MASK : UInt16).toNat = 32768 := by decide
    rw [this]; omega
  · simp only [hb] at *
    have hh : ¬ 32768 ≤ ext.toNat := by simpa using h2
    show ext.toNat = 0
    omega

theorem message_inverts :
    Inverts (Deserializable.deser (α := Message)) (fun m e => Wire.FrameOK m ∧ e = Wire.frame m) := by
  rw [message_deser]
  refine (Inverts.bind lawful_u16.inverts fun ext => Inverts.bind lawful_u8.inverts fun mt =>
    Inverts.bind (Inverts.lift _) fun t =>
      (?_ : Inverts _ (fun m e => ((ext &&& CHANNEL_BIT_MASK) != 0) = t.channelBit ∧
        m.message_type = t ∧ Wire.FrameOK m ∧ e = Wire.u24 m.payload.length ++ m.payload))).mono ?_
  · split
    · exact Inverts.fail _ _
    next hb =>
    simp only [bne_iff_ne, ne_eq, Decidable.not_not] at hb
    refine (Inverts.bind lawful_u24.inverts fun l => Inverts.bind (Inverts.nextBy _) fun p =>
      Inverts.pure _).mono ?_
    rintro m e ⟨l, _, _, rfl, ⟨hl, rfl⟩, p, _, _, rfl, ⟨rfl, hlen⟩, rfl, rfl⟩
    refine ⟨hb.symm, rfl, ?_, ?_⟩
    · show p.length < 2 ^ 24
      rw [hlen]; exact hl
    · simp [hlen]
  · rintro m e ⟨ext, _, _, rfl, ⟨_, rfl⟩, mt, _, _, rfl, ⟨_, rfl⟩, t, _, _, rfl, ⟨ht, rfl⟩,
      h1, rfl, hok, rfl⟩
    obtain ⟨hx, rfl⟩ := messageType_new_inv ht
    have := extField_of_checks hx h1
    subst this
    exact ⟨hok, by simp [wire_frame, frameHeader]⟩

theorem message_safe : Safe (Deserializable.deser (α := Message)) := by
  rw [message_deser]
  refine Safe.bind lawful_u16.safe fun ext => Safe.bind lawful_u8.safe fun mt =>
    Safe.bind (Safe.lift ?_) fun t => ?_
  · rcases messageType_new_cases (ext &&& EXTENSION_TYPE_MASK) mt with ⟨t, h⟩ | h <;> rw [h] <;> simp
  · split
    · exact Safe.fail _
    · refine Safe.bind' lawful_u24.safe lawful_u24.inverts fun l e h => ?_
      refine Safe.bind (Safe.nextBy ?_) fun _ => Safe.pure _
      have : l.val.toNat < 2 ^ 24 := h.1
      omega

end SV2
