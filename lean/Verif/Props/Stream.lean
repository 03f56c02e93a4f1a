import Verif.Props.Frame
import Verif.Lemmas.Stream
import Verif.Spec.Stream
/-!
# C75: input that arrives piece by piece
-/

namespace SV2
open Law SV2.Stream

/-! ## A decoder's answer is final, or it asks for more -/

theorem C75_final_types : Final Bool ∧ Final UInt8 ∧ Final UInt16 ∧ Final UInt32 ∧ Final F32 ∧ Final U24 ∧ Final U256 ∧
    (∀ max, Final (Str0 max)) ∧ (∀ max, Final (B0 UInt8 max)) ∧ (∀ max, Final (B0 UInt16 max)) ∧
    (∀ max, Final (B0 U24 max)) ∧ (∀ all, Final (Flags all)) ∧ Final Protocol ∧ Final SetupConnectionErrorCode ∧
    Final OpenMiningChannelErrorCode :=
  ⟨streamed_bool.final, streamed_u8.final, streamed_u16.final, streamed_u32.final, streamed_f32.final,
    streamed_u24.final, streamed_u256.final, fun _ => streamed_str.final, fun _ => streamed_b8.final,
    fun _ => streamed_b16.final, fun _ => streamed_b24.final, fun _ => streamed_flags.final, streamed_protocol.final,
    Streamed.final streamed_code, Streamed.final streamed_code⟩

theorem C75_final_messages : (∀ all, Final (SetupConnectionMsg all)) ∧ (∀ all, Final (SetupConnectionSuccess all)) ∧
    (∀ all, Final (SetupConnectionError all)) ∧ Final SetupConnection ∧ Final ChannelEndpointChanged ∧
    Final OpenStandardMiningChannel ∧ Final OpenStandardMiningChannelSuccess ∧ Final OpenExtendedMiningChannel ∧
    Final OpenExtendedMiningChannelSuccess ∧ (∀ kind, Final (OpenMiningChannelError kind)) ∧ Final UpdateChannel ∧
    Final Message ∧ (∀ E, Final (SignatureNoiseMessage E)) :=
  ⟨fun _ => streamed_setupMsg.final, fun _ => streamed_setupSuccess.final, fun _ => streamed_setupError.final,
    streamed_setupConnection.final, streamed_channelEndpointChanged.final, streamed_openStandard.final,
    streamed_openStandardSuccess.final, streamed_openExtended.final, streamed_openExtendedSuccess.final,
    fun _ => streamed_openError.final, streamed_updateChannel.final, streamed_message.final,
    fun _ => streamed_signatureNoiseMessage.final⟩

/-- The three kinds of answer: a value, an error that stays, a request for more. -/
example : (Deserializable.deser (α := STR0_255) ⟨[2, 97, 98, 7], 0⟩) = (.ok ⟨2, "ab"⟩, ⟨[2, 97, 98, 7], 3⟩) ∧
    (Deserializable.deser (α := STR0_255) ⟨[1, 0xff], 0⟩).1.isOk = false ∧
    ¬ (Deserializable.deser (α := STR0_255) ⟨[1, 0xff], 0⟩).1 = .err oob ∧
    (Deserializable.deser (α := STR0_255) ⟨[2, 97], 0⟩).1 = .err oob := by decide

/-! ## What was read before has no influence -/

theorem C75_position_types : PositionFree Bool ∧ PositionFree UInt8 ∧ PositionFree UInt16 ∧ PositionFree UInt32 ∧
    PositionFree F32 ∧ PositionFree U24 ∧ PositionFree U256 ∧ (∀ max, PositionFree (Str0 max)) ∧
    (∀ max, PositionFree (B0 UInt8 max)) ∧ (∀ max, PositionFree (B0 UInt16 max)) ∧ (∀ max, PositionFree (B0 U24 max)) ∧
    (∀ all, PositionFree (Flags all)) ∧ PositionFree Protocol ∧ PositionFree SetupConnectionErrorCode ∧
    PositionFree OpenMiningChannelErrorCode :=
  ⟨streamed_bool.positionFree, streamed_u8.positionFree, streamed_u16.positionFree, streamed_u32.positionFree,
    streamed_f32.positionFree, streamed_u24.positionFree, streamed_u256.positionFree,
    fun _ => streamed_str.positionFree, fun _ => streamed_b8.positionFree, fun _ => streamed_b16.positionFree,
    fun _ => streamed_b24.positionFree, fun _ => streamed_flags.positionFree, streamed_protocol.positionFree,
    Streamed.positionFree streamed_code, Streamed.positionFree streamed_code⟩

theorem C75_position_messages : (∀ all, PositionFree (SetupConnectionMsg all)) ∧
    (∀ all, PositionFree (SetupConnectionSuccess all)) ∧ (∀ all, PositionFree (SetupConnectionError all)) ∧
    PositionFree SetupConnection ∧ PositionFree ChannelEndpointChanged ∧ PositionFree OpenStandardMiningChannel ∧
    PositionFree OpenStandardMiningChannelSuccess ∧ PositionFree OpenExtendedMiningChannel ∧
    PositionFree OpenExtendedMiningChannelSuccess ∧ (∀ kind, PositionFree (OpenMiningChannelError kind)) ∧
    PositionFree UpdateChannel ∧ PositionFree Message ∧ (∀ E, PositionFree (SignatureNoiseMessage E)) :=
  ⟨fun _ => streamed_setupMsg.positionFree, fun _ => streamed_setupSuccess.positionFree,
    fun _ => streamed_setupError.positionFree, streamed_setupConnection.positionFree,
    streamed_channelEndpointChanged.positionFree, streamed_openStandard.positionFree,
    streamed_openStandardSuccess.positionFree, streamed_openExtended.positionFree,
    streamed_openExtendedSuccess.positionFree, fun _ => streamed_openError.positionFree,
    streamed_updateChannel.positionFree, streamed_message.positionFree,
    fun _ => streamed_signatureNoiseMessage.positionFree⟩

example : Deserializable.deser (α := UInt16) ⟨[9, 9, 9] ++ [1, 2], 3⟩ = (.ok 0x201, ⟨[9, 9, 9, 1, 2], 5⟩) ∧
    Deserializable.deser (α := UInt16) ⟨[1, 2], 0⟩ = (.ok 0x201, ⟨[1, 2], 2⟩) := by decide

/-! ## How much a decoder asks for -/

/-- No decoder uses, or asks for, more bytes than the longest encoding its length fields can announce. -/
theorem C75_asks_types : AsksAtMost Bool 1 ∧ AsksAtMost UInt8 1 ∧ AsksAtMost UInt16 2 ∧ AsksAtMost UInt32 4 ∧
    AsksAtMost F32 4 ∧ AsksAtMost U24 3 ∧ AsksAtMost U256 32 ∧ (∀ max, AsksAtMost (Str0 max) 256) ∧
    (∀ max, AsksAtMost (B0 UInt8 max) 256) ∧ (∀ max, AsksAtMost (B0 UInt16 max) 65537) ∧
    (∀ max, AsksAtMost (B0 U24 max) 16777218) ∧ (∀ all, AsksAtMost (Flags all) 4) ∧ AsksAtMost Protocol 1 ∧
    AsksAtMost SetupConnectionErrorCode 256 ∧ AsksAtMost OpenMiningChannelErrorCode 256 :=
  ⟨asks_bool.deser, asks_u8.deser, asks_u16.deser, asks_u32.deser, asks_f32.deser, asks_u24.deser, asks_u256.deser,
    fun _ => asks_str.deser, fun _ => asks_b8.deser, fun _ => asks_b16.deser, fun _ => asks_b24.deser,
    fun _ => asks_flags.deser, asks_protocol.deser, asks_setupCode.deser, asks_openCode.deser⟩

theorem C75_asks_messages : (∀ all, AsksAtMost (SetupConnectionMsg all) 1290) ∧
    (∀ all, AsksAtMost (SetupConnectionSuccess all) 6) ∧ (∀ all, AsksAtMost (SetupConnectionError all) 260) ∧
    AsksAtMost SetupConnection 1291 ∧ AsksAtMost ChannelEndpointChanged 4 ∧ AsksAtMost OpenStandardMiningChannel 296 ∧
    AsksAtMost OpenStandardMiningChannelSuccess 300 ∧ AsksAtMost OpenExtendedMiningChannel 298 ∧
    AsksAtMost OpenExtendedMiningChannelSuccess 298 ∧ (∀ kind, AsksAtMost (OpenMiningChannelError kind) 260) ∧
    AsksAtMost UpdateChannel 40 ∧ AsksAtMost Message 16777221 ∧ (∀ E, AsksAtMost (SignatureNoiseMessage E) 74) :=
  ⟨fun _ => asks_setupMsg.deser, fun _ => asks_setupSuccess.deser, fun _ => asks_setupError.deser,
    asks_setupConnection.deser, asks_channelEndpointChanged.deser, asks_openStandard.deser,
    asks_openStandardSuccess.deser, asks_openExtended.deser, asks_openExtendedSuccess.deser,
    fun _ => asks_openError.deser, asks_updateChannel.deser, asks_message.deser,
    fun _ => asks_signatureNoiseMessage.deser⟩

/-- A STR0_32 that is too long is refused only when all the bytes it announces are there. -/
example : (Deserializable.deser (α := STR0_32) ⟨255 :: List.replicate 254 97, 0⟩).1 = .err oob ∧
    ¬ (Deserializable.deser (α := STR0_32) ⟨255 :: List.replicate 255 97, 0⟩).1 = .err oob := by decide +kernel

/-! ## When a frame is too short -/

theorem deserialize_frame (m : Message) (h : m.payload.length < 2 ^ 24) (rest : Bytes)
    (hs : IsSlice (Wire.frame m ++ rest)) : deserialize Message (Wire.frame m ++ rest) = .ok m :=
  (C18_roundtrip m h).2.1 rest hs

/-- What an accepted frame takes from the input. -/
theorem frame_of_ok {bytes : Bytes} {m : Message} (hs : IsSlice bytes) (h : deserialize Message bytes = .ok m) :
    ∃ rest, bytes = Wire.frame m ++ rest ∧ m.payload.length < 2 ^ 24 := by
  obtain ⟨e, rest, h1, h2, h3⟩ := message_inverts.deserialize hs h
  exact ⟨rest, by rw [h1, h3], h2⟩

/-- From three bytes on, a frame is "too short" exactly if it is a proper beginning of a frame that the library itself
writes. -/
theorem C75_too_short (bytes : Bytes) (hs : bytes.length < 2 ^ 62) (h3 : 3 ≤ bytes.length) :
    TooShort (deserialize Message bytes) ↔
      ∃ (m : Message) (e missing : Bytes), serialize m = .ok e ∧ missing ≠ [] ∧ bytes ++ missing = e ∧
        m.payload.length < 2 ^ 24 := by
  have hsl : IsSlice bytes := by unfold IsSlice; omega
  constructor
  · rintro ⟨msg, hmsg⟩
    -- enough zeros to complete the frame
    suffices key : ∃ missing, missing ≠ [] ∧ missing.length < 2 ^ 25 ∧ ∃ t payload,
        Wire.readFrame (bytes ++ missing) = .frame t payload ∧ (bytes ++ missing).length = 6 + payload.length by
      obtain ⟨missing, hm, hlen, t, payload, hr, hl⟩ := key
      have hs' : IsSlice (bytes ++ missing) := by unfold IsSlice; rw [List.length_append]; omega
      have hd := C19_decision_table _ hs'
      rw [hr] at hd
      obtain ⟨rest, hrest, hp⟩ := frame_of_ok hs' hd
      have : rest = [] := by
        have := congrArg List.length hrest
        rw [hl, List.length_append, wire_frame_length] at this
        simp only at this
        exact List.length_eq_zero_iff.mp (by omega)
      subst this
      rw [List.append_nil] at hrest
      exact ⟨⟨t, payload⟩, _, missing, (C18_roundtrip _ hp).1, hm, hrest, hp⟩
    have hd := C19_decision_table bytes hsl
    rw [hmsg] at hd
    match bytes, h3 with
    | b0 :: b1 :: b2 :: rest, _ =>
      simp only [Wire.readFrame] at hd
      cases ht : Wire.typeOf (b0.toNat + 256 * (b1.toNat % 128)) b2.toNat with
      | none => rw [ht] at hd; cases hd
      | some t =>
        rw [ht] at hd
        simp only at hd
        by_cases hc : decide (128 ≤ b1.toNat) ≠ Wire.hasChannel b2.toNat
        · rw [if_pos hc] at hd; cases hd
        · rw [if_neg hc] at hd
          by_cases h6 : ∃ l0 l1 l2 body, rest = l0 :: l1 :: l2 :: body
          · obtain ⟨l0, l1, l2, body, rfl⟩ := h6
            simp only at hd
            have h0 := l0.toNat_lt
            have h1 := l1.toNat_lt
            have h2 := l2.toNat_lt
            by_cases hb : body.length < l0.toNat + 256 * l1.toNat + 65536 * l2.toNat
            · refine ⟨List.replicate (l0.toNat + 256 * l1.toNat + 65536 * l2.toNat - body.length) 0, ?_, ?_, t,
                body ++ List.replicate (l0.toNat + 256 * l1.toNat + 65536 * l2.toNat - body.length) 0, ?_, ?_⟩
              · intro h
                have := congrArg List.length h
                rw [List.length_replicate, List.length_nil] at this
                omega
              · rw [List.length_replicate]; omega
              · simp only [List.cons_append, Wire.readFrame, ht]
                rw [if_neg hc, if_neg (by rw [List.length_append, List.length_replicate]; omega),
                  List.take_of_length_le (by rw [List.length_append, List.length_replicate]; omega)]
              · simp only [List.cons_append, List.length_cons]
                omega
            · rw [if_neg hb] at hd
              cases hd
          · have hlen : rest.length < 3 := length_lt_three (fun a b c r h => h6 ⟨a, b, c, r, h⟩)
            have hfill : ∀ l0 l1 l2 : UInt8, ∀ fill : Bytes, fill ≠ [] → fill.length ≤ 3 →
                rest ++ fill = [l0, l1, l2] → ∃ missing : Bytes, missing ≠ [] ∧ missing.length < 2 ^ 25 ∧
                  ∃ t payload, Wire.readFrame (b0 :: b1 :: b2 :: rest ++ missing) = .frame t payload ∧
                    (b0 :: b1 :: b2 :: rest ++ missing).length = 6 + payload.length := by
              intro l0 l1 l2 fill hf hf3 he
              have h0 := l0.toNat_lt
              have h1 := l1.toNat_lt
              have h2 := l2.toNat_lt
              refine ⟨fill ++ List.replicate (l0.toNat + 256 * l1.toNat + 65536 * l2.toNat) 0, ?_, ?_, t,
                List.replicate (l0.toNat + 256 * l1.toNat + 65536 * l2.toNat) 0, ?_, ?_⟩
              · intro h
                exact hf (List.append_eq_nil_iff.mp h).1
              · rw [List.length_append, List.length_replicate]; omega
              · rw [← List.append_assoc]
                simp only [List.cons_append, he, List.nil_append, Wire.readFrame, ht]
                rw [if_neg hc, if_neg (by rw [List.length_replicate]; omega),
                  List.take_of_length_le (by rw [List.length_replicate]; omega)]
              · rw [← List.append_assoc]
                simp only [List.cons_append, he, List.length_cons, List.length_append, List.length_nil]
                omega
            match rest, hlen with
            | [], _ => exact hfill 0 0 0 [0, 0, 0] (by simp) (by simp) rfl
            | [x], _ => exact hfill x 0 0 [0, 0] (by simp) (by simp) rfl
            | [x, y], _ => exact hfill x y 0 [0] (by simp) (by simp) rfl
  · rintro ⟨m, e, missing, he, hm, hb, hp⟩
    obtain ⟨e', he', hr⟩ := C13_truncation_frame m hp
    rw [he] at he'
    cases he'
    exact hr bytes missing hm hb

example : deserialize Message [0, 0x80, 0x1a, 3, 0, 0, 1] = .err oob ∧
    serialize sampleFrame = .ok ([0, 0x80, 0x1a, 3, 0, 0, 1] ++ [2, 3]) := by decide

/-- With fewer bytes every input is "too short", also one that nothing can complete to a frame: no frame begins with
another byte than 0. -/
theorem C75_hopeless : (∀ bytes : Bytes, bytes.length < 3 → TooShort (deserialize Message bytes)) ∧
    ∀ (b0 : UInt8) (more : Bytes), b0 ≠ 0 → IsSlice (b0 :: more) →
      (deserialize Message (b0 :: more)).isOk = false := by
  refine ⟨fun bytes h => ?_, fun b0 more h hs => ?_⟩
  · have hd := C19_decision_table bytes (by unfold IsSlice; omega)
    match bytes, h with
    | [], _ | [_], _ | [_, _], _ => exact hd
  · cases hd : deserialize Message (b0 :: more) with
    | ok m =>
      obtain ⟨rest, hr, _⟩ := frame_of_ok hs hd
      simp only [Wire.frame, List.cons_append, List.cons.injEq] at hr
      exact absurd hr.1 h
    | err e => rfl
    | panic => rfl

/-- The same with a payload: versions that can not be right are noticed only at the end. -/
theorem C75_hopeless_setup : deserialize (SetupConnectionMsg miningSetupFlags) [0, 0] = .err oob ∧
    ∀ more, IsSlice (0 :: 0 :: more) →
      (deserialize (SetupConnectionMsg miningSetupFlags) (0 :: 0 :: more)).isOk = false := by
  refine ⟨by decide, fun more hs => ?_⟩
  cases hd : deserialize (SetupConnectionMsg miningSetupFlags) (0 :: 0 :: more) with
  | ok m =>
    obtain ⟨e, rest, h1, h2, h3⟩ := lawful_setupMsg.inverts.deserialize hs hd
    exfalso
    rw [h3] at h1
    simp only [Wire.setupConnectionMsg, Wire.u16, List.cons_append, List.nil_append, List.cons.injEq,
      List.append_assoc] at h1
    have hv : 2 ≤ m.min_version.toNat := h2.1
    have hlt := m.min_version.toNat_lt
    have e0 := congrArg UInt8.toNat h1.1
    have e1 := congrArg UInt8.toNat h1.2.1
    simp only [UInt8.toNat_ofNat'] at e0 e1
    simp at e0 e1
    omega
  | err e => rfl
  | panic => rfl

/-! ## The receive loop -/

theorem drain_fuel : ∀ (n k : Nat) (b : Bytes), b.length ≤ n → b.length ≤ k → drain n b = drain k b := by
  intro n
  induction n with
  | zero =>
    intro k b h _
    have : b = [] := List.length_eq_zero_iff.mp (by omega)
    subst this
    cases k <;> rfl
  | succ n ih =>
    intro k b hn hk
    cases k with
    | zero =>
      have : b = [] := List.length_eq_zero_iff.mp (by omega)
      subst this
      rfl
    | succ k =>
      unfold drain
      cases hd : deserialize Message b with
      | ok m =>
        have := ih k (b.drop (6 + m.payload.length)) (by rw [List.length_drop]; omega)
          (by rw [List.length_drop]; omega)
        simp only [this]
      | err e => cases e <;> rfl
      | panic => rfl

/-- Draining a whole buffer. -/
def drainAll (b : Bytes) : List Message × Bytes × Option Error := drain b.length b

theorem drainAll_ok {b : Bytes} {m : Message} (hd : deserialize Message b = .ok m) (hb : b ≠ []) :
    drainAll b = (m :: (drainAll (b.drop (6 + m.payload.length))).1, (drainAll (b.drop (6 + m.payload.length))).2) := by
  have hl : 0 < b.length := List.length_pos_iff.mpr hb
  unfold drainAll
  rw [drain_fuel b.length (b.length - 1 + 1) b (Nat.le_refl _) (by omega), drain, hd]
  simp only
  rw [drain_fuel (b.length - 1) (b.drop (6 + m.payload.length)).length _ (by rw [List.length_drop]; omega)
    (Nat.le_refl _)]

theorem drainAll_short {b : Bytes} (h : TooShort (deserialize Message b)) : drainAll b = ([], b, none) := by
  obtain ⟨msg, hm⟩ := h
  unfold drainAll
  cases hl : b.length with
  | zero => rfl
  | succ n => rw [drain, hm]

theorem drainAll_err {b : Bytes} {e : Error} (hd : deserialize Message b = .err e) (he : ∀ msg, e ≠ .parseError msg) :
    drainAll b = ([], [], some e) := by
  have hb : b ≠ [] := by
    rintro rfl
    have : deserialize Message [] = .err oob := by decide
    rw [this] at hd
    cases hd
    exact he _ rfl
  have hl : 0 < b.length := List.length_pos_iff.mpr hb
  unfold drainAll
  rw [drain_fuel b.length (b.length - 1 + 1) b (Nat.le_refl _) (by omega), drain, hd]
  split
  · next h => cases h
  · next h => cases h; exact absurd rfl (he _)
  · next h => cases h; rfl
  · next h => cases h

/-- The cases of an input. -/
theorem frame_cases (b : Bytes) (hs : IsSlice b) :
    (∃ m rest, b = Wire.frame m ++ rest ∧ m.payload.length < 2 ^ 24 ∧ deserialize Message b = .ok m) ∨
    TooShort (deserialize Message b) ∨
    (∃ e, deserialize Message b = .err e ∧ ∀ msg, e ≠ .parseError msg) := by
  cases hd : deserialize Message b with
  | ok m =>
    obtain ⟨rest, h1, h2⟩ := frame_of_ok hs hd
    exact .inl ⟨m, rest, h1, h2, rfl⟩
  | err e =>
    by_cases he : ∃ msg, e = .parseError msg
    · obtain ⟨msg, rfl⟩ := he
      exact .inr (.inl ⟨msg, rfl⟩)
    · exact .inr (.inr ⟨e, rfl, fun msg h => he ⟨msg, h⟩⟩)
  | panic => exact absurd hd (message_safe.neverPanics _ 0 hs (Nat.zero_le _)).1

theorem drainAll_frame (m : Message) (h : m.payload.length < 2 ^ 24) (rest : Bytes)
    (hs : IsSlice (Wire.frame m ++ rest)) :
    drainAll (Wire.frame m ++ rest) = (m :: (drainAll rest).1, (drainAll rest).2) := by
  have hne : Wire.frame m ++ rest ≠ [] := by
    intro hc
    have := congrArg List.length hc
    rw [List.length_append, wire_frame_length, List.length_nil] at this
    omega
  rw [drainAll_ok (deserialize_frame m h rest hs) hne, ← wire_frame_length, List.drop_left]

/-- What has been taken from a buffer is the same when more arrives. -/
theorem drainAll_append (n : Nat) : ∀ (b more : Bytes), b.length ≤ n → IsSlice (b ++ more) →
    drainAll (b ++ more) =
      match (drainAll b).2.2 with
      | some e => ((drainAll b).1, [], some e)
      | none => ((drainAll b).1 ++ (drainAll ((drainAll b).2.1 ++ more)).1, (drainAll ((drainAll b).2.1 ++ more)).2) := by
  induction n with
  | zero =>
    intro b more h _
    have : b = [] := List.length_eq_zero_iff.mp (by omega)
    subst this
    rfl
  | succ n ih =>
    intro b more hn hs
    have hsb : IsSlice b := by unfold IsSlice at *; rw [List.length_append] at hs; omega
    rcases frame_cases b hsb with ⟨m, rest, rfl, hp, hd⟩ | h | ⟨e, hd, he⟩
    · rw [List.append_assoc] at hs
      have hsr : IsSlice (rest ++ more) := by unfold IsSlice at *; rw [List.length_append] at hs; omega
      rw [List.append_assoc, drainAll_frame m hp _ hs, drainAll_frame m hp _ hsb,
        ih rest more (by rw [List.length_append, wire_frame_length] at hn; omega) hsr]
      cases (drainAll rest).2.2 <;> rfl
    · rw [drainAll_short h]
      rfl
    · rw [drainAll_err hd he]
      have hf := C75_final_messages.2.2.2.2.2.2.2.2.2.2.2.1 b more 0 (by
        rintro ⟨msg, hm⟩
        have hd' : (Deserializable.deser (α := Message) ⟨b, 0⟩).1 = .err e := hd
        rw [hd'] at hm
        cases hm
        exact he msg rfl)
      have hd2 : deserialize Message (b ++ more) = .err e := by
        unfold deserialize
        rw [hf]
        exact hd
      rw [drainAll_err hd2 he]

/-- What is left after draining can not be drained, and is shorter than a frame. -/
theorem drainAll_rest (n : Nat) : ∀ b : Bytes, b.length ≤ n → IsSlice b → (drainAll b).2.2 = none →
    TooShort (deserialize Message (drainAll b).2.1) ∧ ∃ front, b = front ++ (drainAll b).2.1 := by
  induction n with
  | zero =>
    intro b h _ _
    have : b = [] := List.length_eq_zero_iff.mp (by omega)
    subst this
    exact ⟨⟨"out of bounds error", by decide⟩, [], rfl⟩
  | succ n ih =>
    intro b hn hs
    rcases frame_cases b hs with ⟨m, rest, rfl, hp, _⟩ | h | ⟨e, hd, he⟩
    · rw [drainAll_frame m hp _ hs]
      intro h
      obtain ⟨h1, front, h2⟩ := ih rest (by rw [List.length_append, wire_frame_length] at hn; omega)
        (by unfold IsSlice at *; rw [List.length_append] at hs; omega) h
      exact ⟨h1, Wire.frame m ++ front, by rw [List.append_assoc, ← h2]⟩
    · rw [drainAll_short h]
      exact fun _ => ⟨h, [], rfl⟩
    · rw [drainAll_err hd he]
      intro h
      cases h

/-- Feeding piece after piece is feeding everything at once. -/
theorem foldl_feed (pieces : List Bytes) : ∀ (r : Receiver), r.failed = none →
    TooShort (deserialize Message r.buffer) → IsSlice (r.buffer ++ pieces.flatten) →
    pieces.foldl Receiver.feed r = r.feed pieces.flatten := by
  induction pieces with
  | nil =>
    intro r hf ht _
    obtain ⟨got, buffer, failed⟩ := r
    cases hf
    show _ = Receiver.mk _ _ _
    simp only [List.flatten_nil, List.append_nil]
    have := drainAll_short ht
    unfold drainAll at this
    rw [this, List.foldl_nil, List.append_nil]
  | cons p ps ih =>
    intro r hf ht hs
    obtain ⟨got, buffer, failed⟩ := r
    cases hf
    simp only [List.flatten_cons] at hs ⊢
    rw [List.foldl_cons]
    rw [← List.append_assoc] at hs
    have hs1 : IsSlice (buffer ++ p) := by
      unfold IsSlice at *
      rw [List.length_append] at hs
      omega
    have happ := drainAll_append _ (buffer ++ p) ps.flatten (Nat.le_refl _) hs
    have hrest := drainAll_rest _ (buffer ++ p) (Nat.le_refl _) hs1
    have e1 : Receiver.feed ⟨got, buffer, none⟩ p =
        ⟨got ++ (drainAll (buffer ++ p)).1, (drainAll (buffer ++ p)).2.1, (drainAll (buffer ++ p)).2.2⟩ := rfl
    have e2 : Receiver.feed ⟨got, buffer, none⟩ (p ++ ps.flatten) =
        ⟨got ++ (drainAll (buffer ++ p ++ ps.flatten)).1, (drainAll (buffer ++ p ++ ps.flatten)).2.1,
          (drainAll (buffer ++ p ++ ps.flatten)).2.2⟩ := by
      rw [List.append_assoc]; rfl
    rw [e1, e2, happ]
    cases hc : (drainAll (buffer ++ p)).2.2 with
    | none =>
      obtain ⟨h1, front, h2⟩ := hrest hc
      rw [ih _ rfl h1 (by
        show IsSlice ((drainAll (buffer ++ p)).2.1 ++ ps.flatten)
        have hl := congrArg List.length h2
        unfold IsSlice at *
        generalize hbp : buffer ++ p = bp at *
        rw [List.length_append] at hs hl ⊢
        omega)]
      show Receiver.mk _ _ _ = _
      simp only [List.append_assoc]
      rfl
    | some e =>
      have hstay : ∀ (l : List Bytes) (r : Receiver), r.failed = some e → l.foldl Receiver.feed r = r := by
        intro l
        induction l with
        | nil => intros; rfl
        | cons x xs ihx =>
          intro r hr
          rw [List.foldl_cons]
          have : r.feed x = r := by unfold Receiver.feed; rw [hr]
          rw [this]
          exact ihx r hr
      rw [hstay _ _ rfl]
      have hbuf : (drainAll (buffer ++ p)).2.1 = [] := by
        have key : ∀ (n : Nat) (b : Bytes), b.length ≤ n → IsSlice b → (drainAll b).2.2 = some e →
            (drainAll b).2.1 = [] := by
          intro n
          induction n with
          | zero =>
            intro b h _ _
            have : b = [] := List.length_eq_zero_iff.mp (by omega)
            subst this
            rfl
          | succ n ihn =>
            intro b hn hs
            rcases frame_cases b hs with ⟨m, rest, rfl, hp, _⟩ | h | ⟨e', hd, he⟩
            · rw [drainAll_frame m hp _ hs]
              exact ihn rest (by rw [List.length_append, wire_frame_length] at hn; omega)
                (by unfold IsSlice at *; rw [List.length_append] at hs; omega)
            · rw [drainAll_short h]
              intro h; cases h
            · rw [drainAll_err hd he]
              intro _; rfl
        exact key _ _ (Nat.le_refl _) hs1 hc
      rw [hbuf]

/-- A receiver ends in the same state however the same bytes are cut into pieces. -/
theorem C75_chunking (pieces pieces' : List Bytes) (hs : IsSlice pieces.flatten)
    (h : pieces.flatten = pieces'.flatten) : Receiver.receive pieces = Receiver.receive pieces' := by
  have hstart : TooShort (deserialize Message Receiver.start.buffer) := ⟨"out of bounds error", by decide⟩
  unfold Receiver.receive
  rw [foldl_feed pieces _ rfl hstart (by exact hs), foldl_feed pieces' _ rfl hstart (by rw [← h]; exact hs), h]

/-- Two frames, cut inside both headers. -/
example : Receiver.receive [[0], [0x80, 0x1a, 3, 0], [0, 1, 2, 3, 0, 0x80], [0x1a, 3, 0, 0, 1, 2, 3, 0]] =
    ⟨[sampleFrame, sampleFrame], [0], none⟩ := by decide +kernel

/-- Frames that were serialized one after the other arrive, all of them and in order, however the bytes are cut. -/
theorem C75_delivery (frames : List Message) (hp : ∀ m ∈ frames, m.payload.length < 2 ^ 24)
    (sent : List Bytes) (hsent : frames.map serialize = sent.map .ok) (pieces : List Bytes)
    (h : pieces.flatten = sent.flatten) (hs : IsSlice sent.flatten) :
    Receiver.receive pieces = ⟨frames, [], none⟩ := by
  rw [C75_chunking pieces [sent.flatten] (by rw [h]; exact hs) (by rw [h]; simp)]
  show Receiver.mk _ _ _ = _
  have key : ∀ (frames : List Message) (sent : List Bytes), (∀ m ∈ frames, m.payload.length < 2 ^ 24) →
      frames.map serialize = sent.map .ok → IsSlice sent.flatten → drainAll sent.flatten = (frames, [], none) := by
    intro frames
    induction frames with
    | nil =>
      intro sent _ h _
      cases sent with
      | nil => rfl
      | cons s ss => cases h
    | cons m ms ih =>
      intro sent hp h hs
      cases sent with
      | nil => cases h
      | cons s ss =>
        simp only [List.map_cons, List.cons.injEq] at h
        have hm := hp m (List.mem_cons_self)
        rw [(C18_roundtrip m hm).1] at h
        obtain ⟨h1, h2⟩ := h
        cases h1
        rw [List.flatten_cons] at hs ⊢
        rw [drainAll_frame m hm _ hs, ih ss (fun x hx => hp x (List.mem_cons_of_mem _ hx)) h2 (by
          unfold IsSlice at *; rw [List.length_append] at hs; omega)]
  have := key frames sent hp hsent hs
  unfold drainAll at this
  simp only [Receiver.start, List.nil_append, this]

example : [sampleFrame, sampleFrame].map serialize =
    [[0, 0x80, 0x1a, 3, 0, 0, 1, 2, 3], [0, 0x80, 0x1a, 3, 0, 0, 1, 2, 3]].map .ok := by decide

/-- A receiver that has not failed never holds as much as the longest frame, however much has arrived. -/
theorem C75_bounded_buffer (pieces : List Bytes) (hs : IsSlice pieces.flatten) :
    (Receiver.receive pieces).buffer.length < 6 + (2 ^ 24 - 1) := by
  rw [C75_chunking pieces [pieces.flatten] hs (by simp)]
  show (drainAll pieces.flatten).2.1.length < _
  generalize hb : pieces.flatten = b
  rw [hb] at hs
  have key : ∀ (n : Nat) (b : Bytes), b.length ≤ n → IsSlice b → (drainAll b).2.1.length < 6 + (2 ^ 24 - 1) := by
    intro n
    induction n with
    | zero =>
      intro b h _
      have : b = [] := List.length_eq_zero_iff.mp (by omega)
      subst this
      decide
    | succ n ihn =>
      intro b hn hs
      rcases frame_cases b hs with ⟨m, rest, rfl, hp, _⟩ | h | ⟨e', hd, he⟩
      · rw [drainAll_frame m hp _ hs]
        exact ihn rest (by rw [List.length_append, wire_frame_length] at hn; omega)
          (by unfold IsSlice at *; rw [List.length_append] at hs; omega)
      · rw [drainAll_short h]
        by_cases hl : b.length < 6 + (2 ^ 24 - 1)
        · exact hl
        · exact absurd h ((C75_asks_messages.2.2.2.2.2.2.2.2.2.2.2.1 b 0 hs (Nat.zero_le _)).2 (by omega))
      · rw [drainAll_err hd he]
        show 0 < _
        omega
  exact key _ _ (Nat.le_refl _) hs

example : (Receiver.receive [[0, 0x80, 0x1a, 0xff, 0xff, 0xff], [1, 2, 3]]).buffer =
    [0, 0x80, 0x1a, 0xff, 0xff, 0xff, 1, 2, 3] := by decide

end SV2
