import Verif.Props.Messages
import Verif.Spec.Frame
/-!
# C16-C22, C27: frames
-/

namespace SV2
open Law

/-- A frame with the channel bit and a payload, used to show that hypotheses can be met. -/
def sampleFrame : Message := ⟨.submitSharesStandard, [1, 2, 3]⟩

/-! ## C16 -/

/-- The layout of a serialized frame. -/
theorem C16_layout (m : Message) (h : m.payload.length < 2 ^ 24) :
    ∃ b0 b1 b2 l0 l1 l2, serialize m = .ok ([b0, b1, b2, l0, l1, l2] ++ m.payload) ∧
      b0.toNat + 256 * (b1.toNat % 128) = m.message_type.extType.toNat ∧
      decide (128 ≤ b1.toNat) = m.message_type.channelBit ∧
      b2 = m.message_type.msgType ∧
      l0.toNat + 256 * l1.toNat + 65536 * l2.toNat = m.payload.length := by
  have hs : serialize m = .ok (Wire.frame m) := by
    unfold serialize
    rw [message_vec m h]
    simp
  refine ⟨0, if Wire.hasChannel (Wire.msgNumber m.message_type) then 0x80 else 0,
    UInt8.ofNat (Wire.msgNumber m.message_type), UInt8.ofNat (m.payload.length % 256),
    UInt8.ofNat (m.payload.length / 256 % 256), UInt8.ofNat (m.payload.length / 65536 % 256), ?_, ?_,
    ?_, ?_, ?_⟩
  · rw [hs]; rfl
  · rw [extType_zero]
    split <;> rfl
  · rw [channelBit_eq]
    cases Wire.hasChannel (Wire.msgNumber m.message_type) <;> rfl
  · rw [← msgType_toNat]
    simp
  · simp only [UInt8.toNat_ofNat']
    omega

example : serialize sampleFrame = .ok [0, 0x80, 0x1a, 3, 0, 0, 1, 2, 3] := by decide

/-! ## C17 -/

/-- Below 2^32 a payload that does not fit is refused before anything is written, with any writer. -/
theorem C17_refused (m : Message) (h1 : 2 ^ 24 ≤ m.payload.length) (h2 : m.payload.length < 2 ^ 32) :
    ∃ msg, serialize m = .err (.requirementError msg) ∧
      ∀ (σ : Type) (w : Writer σ) (s : σ),
        Serializable.ser w m s = (.err (.requirementError msg), s) := by
  have key := fun (σ : Type) (w : Writer σ) (s : σ) =>
    message_too_long w m s (by rw [Nat.mod_eq_of_lt h2]; exact h1)
  refine ⟨_, ?_, key⟩
  unfold serialize
  rw [key]

/-- From 2^32 on the length wraps: the call succeeds, the header announces the wrong length, and the
reader gets a different message. -/
theorem C17_wraps (m : Message) (h1 : 2 ^ 32 ≤ m.payload.length)
    (h2 : m.payload.length % 2 ^ 32 < 2 ^ 24) (h3 : m.payload.length < 2 ^ 62) :
    ∃ e m', serialize m = .ok e ∧ e.length = 6 + m.payload.length ∧ deserialize Message e = .ok m' ∧
      m'.message_type = m.message_type ∧
      m'.payload = m.payload.take (m.payload.length % 2 ^ 32) ∧ m' ≠ m := by
  have hser : serialize m = .ok (Wire.frame ⟨m.message_type, m.payload.take (m.payload.length % 2 ^ 32)⟩ ++
      m.payload.drop (m.payload.length % 2 ^ 32)) := by
    unfold serialize
    rw [message_wrap m h2, wire_frame]
    have : (m.payload.take (m.payload.length % 2 ^ 32)).length = m.payload.length % 2 ^ 32 := by
      rw [List.length_take]; omega
    simp only [List.nil_append, frameHeader, this, List.append_assoc, List.take_append_drop]
  have hlen : (m.payload.take (m.payload.length % 2 ^ 32)).length = m.payload.length % 2 ^ 32 := by
    rw [List.length_take]; omega
  have htot : (Wire.frame ⟨m.message_type, m.payload.take (m.payload.length % 2 ^ 32)⟩ ++
      m.payload.drop (m.payload.length % 2 ^ 32)).length = 6 + m.payload.length := by
    rw [List.length_append, wire_frame_length, hlen, List.length_drop]
    omega
  refine ⟨_, ⟨m.message_type, m.payload.take (m.payload.length % 2 ^ 32)⟩, hser, htot, ?_, rfl, rfl, ?_⟩
  · exact (message_reads _ (by show List.length _ < _; rw [hlen]; exact h2)).deserialize _
      (by unfold IsSlice; rw [htot]; omega)
  · intro hc
    have := congrArg (fun x => x.payload.length) hc
    simp only [hlen] at this
    omega

/-- Concrete: there are payloads of both kinds. -/
example : (2 : Nat) ^ 24 ≤ (List.replicate (2 ^ 24) (0 : UInt8)).length ∧
    (List.replicate (2 ^ 24) (0 : UInt8)).length < 2 ^ 32 := by rw [List.length_replicate]; decide
example : (2 : Nat) ^ 32 ≤ (List.replicate (2 ^ 32 + 5) (0 : UInt8)).length ∧
    (List.replicate (2 ^ 32 + 5) (0 : UInt8)).length % 2 ^ 32 < 2 ^ 24 ∧
    (List.replicate (2 ^ 32 + 5) (0 : UInt8)).length < 2 ^ 62 := by rw [List.length_replicate]; decide

/-! ## C18 -/

theorem C18_roundtrip (m : Message) (h : m.payload.length < 2 ^ 24) : RoundTrips m (Wire.frame m) := by
  refine ⟨?_, (message_reads m h).deserialize, (message_reads m h).at⟩
  unfold serialize
  rw [message_vec m h]
  simp

example : sampleFrame.payload.length < 2 ^ 24 := by decide

/-! ## C19 -/

theorem typeOf_some {t : MessageType} : Wire.typeOf 0 (Wire.msgNumber t) = some t := by
  cases t <;> decide

theorem typeOf_inv {ext num : Nat} {t : MessageType} (h : Wire.typeOf ext num = some t) :
    ext = 0 ∧ Wire.msgNumber t = num := by
  have := List.find?_some h
  simpa using this

theorem messageType_new_eq (e : UInt16) (n : UInt8) :
    MessageType.new e n = match Wire.typeOf e.toNat n.toNat with
      | some t => .ok t
      | none => .err .unknownMessageType := by
  rcases messageType_new_cases e n with ⟨t, h⟩ | h
  · obtain ⟨h1, h2⟩ := messageType_new_inv h
    rw [h, h1, h2, extType_zero, msgType_toNat]
    show _ = match Wire.typeOf 0 (Wire.msgNumber t) with | some t => _ | none => _
    rw [typeOf_some]
  · rw [h]
    cases ht : Wire.typeOf e.toNat n.toNat with
    | none => rfl
    | some t =>
      obtain ⟨h1, h2⟩ := typeOf_inv ht
      have he : e = t.extType := by
        rw [extType_zero]; exact UInt16.toNat_inj.mp h1
      have hn : n = t.msgType := UInt8.toNat_inj.mp (by rw [msgType_toNat, h2])
      rw [he, hn, messageType_new] at h
      cases h

theorem wire_u16_of (b0 b1 : UInt8) :
    Wire.u16 (UInt16.ofNat (b0.toNat + 256 * b1.toNat)) = [b0, b1] := by
  have h0 := b0.toNat_lt
  have h1 := b1.toNat_lt
  have h : (UInt16.ofNat (b0.toNat + 256 * b1.toNat)).toNat = b0.toNat + 256 * b1.toNat :=
    UInt16.toNat_ofNat_of_lt' (by simp only [UInt16.size]; omega)
  simp only [Wire.u16, h]
  rw [show (b0.toNat + 256 * b1.toNat) % 256 = b0.toNat by omega,
    show (b0.toNat + 256 * b1.toNat) / 256 = b1.toNat by omega]
  simp

theorem wire_u24_of (l0 l1 l2 : UInt8) :
    Wire.u24 (l0.toNat + 256 * l1.toNat + 65536 * l2.toNat) = [l0, l1, l2] := by
  have h0 := l0.toNat_lt
  have h1 := l1.toNat_lt
  have h2 := l2.toNat_lt
  simp only [Wire.u24]
  rw [show (l0.toNat + 256 * l1.toNat + 65536 * l2.toNat) % 256 = l0.toNat by omega,
    show (l0.toNat + 256 * l1.toNat + 65536 * l2.toNat) / 256 % 256 = l1.toNat by omega,
    show (l0.toNat + 256 * l1.toNat + 65536 * l2.toNat) / 65536 % 256 = l2.toNat by omega]
  simp

/-- `RejectsPrefix` for a parser whose unread input is a strict prefix of `e`. -/
theorem RejectsPrefix.run {α : Type} {d : ParseM α} {e : Bytes} (h : RejectsPrefix d e) (p : ByteParser)
    (hv : p.Valid) (missing : Bytes) (hm : missing ≠ []) (he : p.rest ++ missing = e) :
    (d p).1 = .err oob := by
  obtain ⟨p', h'⟩ := h p hv missing hm he
  rw [h']

/-- The first three bytes decide. -/
theorem frame_head (b0 b1 b2 : UInt8) (rest : Bytes) (hs : IsSlice (b0 :: b1 :: b2 :: rest)) :
    Deserializable.deser (α := Message) ⟨b0 :: b1 :: b2 :: rest, 0⟩ =
      match Wire.typeOf (b0.toNat + 256 * (b1.toNat % 128)) b2.toNat with
      | none => (.err .unknownMessageType, ⟨b0 :: b1 :: b2 :: rest, 3⟩)
      | some t =>
        if decide (128 ≤ b1.toNat) ≠ Wire.hasChannel b2.toNat then
          (.err (.unexpectedChannelBit (decide (128 ≤ b1.toNat))), ⟨b0 :: b1 :: b2 :: rest, 3⟩)
        else (do
          let l ← Deserializable.deser (α := U24)
          let payload ← ByteParser.nextBy l.val.toNat
          pure { message_type := t, payload := payload } : ParseM Message)
            ⟨b0 :: b1 :: b2 :: rest, 3⟩ := by
  have hb0 := b0.toNat_lt
  have hb1 := b1.toNat_lt
  have hx : (UInt16.ofNat (b0.toNat + 256 * b1.toNat)).toNat = b0.toNat + 256 * b1.toNat :=
    UInt16.toNat_ofNat_of_lt' (by simp only [UInt16.size]; omega)
  have r1 := lawful_u16.reads (UInt16.ofNat (b0.toNat + 256 * b1.toNat)) trivial
    ⟨b0 :: b1 :: b2 :: rest, 0⟩ (valid_zero hs) (b2 :: rest) (by rw [wire_u16_of]; simp)
  have r2 := lawful_u8.reads b2 trivial
    (ByteParser.adv ⟨b0 :: b1 :: b2 :: rest, 0⟩ 2) ((valid_zero hs).adv (by simp)) rest
    (by rw [ByteParser.rest_adv]; simp [Wire.u8])
  rw [message_deser, SM.bind_run, r1]
  simp only [wire_u16_of, List.length_cons, List.length_nil]
  rw [SM.bind_run]
  simp only [Nat.zero_add]
  erw [r2]
  simp only [ByteParser.adv_adv]
  rw [messageType_new_eq, u16_and_mask, u16_bit_ne, hx,
    show (b0.toNat + 256 * b1.toNat) % 32768 = b0.toNat + 256 * (b1.toNat % 128) by omega,
    show decide (32768 ≤ b0.toNat + 256 * b1.toNat) = decide (128 ≤ b1.toNat) by
      apply decide_eq_decide.mpr; omega]
  cases ht : Wire.typeOf (b0.toNat + 256 * (b1.toNat % 128)) b2.toNat with
  | none => rfl
  | some t =>
    obtain ⟨-, hn⟩ := typeOf_inv ht
    simp only [SM.lift_ok, SM.pure_bind', channelBit_eq, hn]
    by_cases hc : decide (128 ≤ b1.toNat) = Wire.hasChannel b2.toNat
    · rw [hc]
      simp
      rfl
    · have : (Wire.hasChannel b2.toNat != decide (128 ≤ b1.toNat)) = true := by
        simp only [bne_iff_ne, ne_eq]
        exact fun h => hc h.symm
      rw [if_pos this, if_pos hc]
      rfl

theorem length_lt_three {α : Type} {l : List α} (h : ∀ a b c r, l ≠ a :: b :: c :: r) : l.length < 3 := by
  match l with
  | [] | [_] | [_, _] => simp
  | a :: b :: c :: r => exact absurd rfl (h a b c r)

/-- Parsing a frame gives exactly the verdict of the specification, for every input. -/
theorem C19_decision_table (bytes : Bytes) (hs : IsSlice bytes) :
    (Wire.readFrame bytes).Appears (deserialize Message bytes) := by
  by_cases h3 : ∃ b0 b1 b2 rest, bytes = b0 :: b1 :: b2 :: rest
  · obtain ⟨b0, b1, b2, rest, rfl⟩ := h3
    unfold deserialize
    rw [frame_head b0 b1 b2 rest hs, Wire.readFrame]
    cases ht : Wire.typeOf (b0.toNat + 256 * (b1.toNat % 128)) b2.toNat with
    | none => rfl
    | some t =>
      simp only
      by_cases hc : decide (128 ≤ b1.toNat) = Wire.hasChannel b2.toNat
      · rw [if_neg (fun h => h hc), if_neg (fun h => h hc)]
        have hv : ByteParser.Valid ⟨b0 :: b1 :: b2 :: rest, 3⟩ := ⟨by simp, hs⟩
        have hrest : ByteParser.rest ⟨b0 :: b1 :: b2 :: rest, 3⟩ = rest := by simp [ByteParser.rest]
        by_cases h6 : ∃ l0 l1 l2 body, rest = l0 :: l1 :: l2 :: body
        · obtain ⟨l0, l1, l2, body, rfl⟩ := h6
          have h0 := l0.toNat_lt
          have h1 := l1.toNat_lt
          have h2 := l2.toNat_lt
          simp only
          generalize hn : l0.toNat + 256 * l1.toNat + 65536 * l2.toNat = n
          have hx : (UInt32.ofNat n).toNat = n :=
            UInt32.toNat_ofNat_of_lt' (by simp only [UInt32.size]; omega)
          have r := lawful_u24.reads ⟨UInt32.ofNat n⟩ (by show UInt32.toNat _ < _; rw [hx]; omega)
            _ hv body (by rw [hrest]; simp only [hx]; rw [← hn, wire_u24_of]; rfl)
          simp only [hx] at r
          rw [SM.bind_run, r]
          simp only [hx]
          have hv2 : ByteParser.Valid (ByteParser.adv ⟨b0 :: b1 :: b2 :: l0 :: l1 :: l2 :: body, 3⟩
              (Wire.u24 n).length) := hv.adv (by simp [ByteParser.rest, Wire.u24])
          have hr2 : (ByteParser.adv ⟨b0 :: b1 :: b2 :: l0 :: l1 :: l2 :: body, 3⟩
              (Wire.u24 n).length).rest = body := by simp [ByteParser.rest, ByteParser.adv, Wire.u24]
          rw [SM.bind_run]
          by_cases hb : body.length < n
          · rw [if_pos hb, nextBy_err hv2 (by rw [hr2]; exact hb) (by omega)]
            exact ⟨_, rfl⟩
          · rw [if_neg hb, nextBy_ok hv2 (by rw [hr2]; omega), hr2]
            rfl
        · have hlen : rest.length < 3 := length_lt_three (fun a b c r h => h6 ⟨a, b, c, r, h⟩)
          have hu : Deserializable.deser (α := U24) ⟨b0 :: b1 :: b2 :: rest, 3⟩ =
              (.err oob, ⟨b0 :: b1 :: b2 :: rest, 3⟩) := by
            show ((ByteParser.nextBy 3 >>= _) >>= _) _ = _
            rw [SM.bind_run, SM.bind_run, nextBy_err hv (by rw [hrest]; exact hlen) (by decide)]
          rw [SM.bind_run, hu]
          match rest, hlen with
          | [], _ | [_], _ | [_, _], _ => exact ⟨_, rfl⟩
      · rw [if_pos hc, if_pos hc]
        rfl
  · have hlen : bytes.length < 3 := length_lt_three (fun a b c r h => h3 ⟨a, b, c, r, h⟩)
    have hspec : Wire.readFrame bytes = .tooShort := by
      match bytes, hlen with
      | [], _ | [_], _ | [_, _], _ => rfl
    rw [hspec]
    refine ⟨"out of bounds error", ?_⟩
    unfold deserialize
    have cut : ∀ (b : Bytes), b.length < 3 → (Deserializable.deser (α := Message) ⟨b, 0⟩).1 = .err oob := by
      intro b hb
      have hv : ByteParser.Valid ⟨b, 0⟩ := ⟨by simp, by simp only; omega⟩
      rw [message_deser]
      by_cases h2 : b.length < 2
      · rw [SM.bind_run]
        have : Deserializable.deser (α := UInt16) ⟨b, 0⟩ = (.err oob, ⟨b, 0⟩) := by
          show ((ByteParser.nextBy 2 >>= _) >>= _) _ = _
          rw [SM.bind_run, SM.bind_run, nextBy_err hv (by simpa using h2) (by decide)]
        rw [this]
      · obtain ⟨b0, b1, rfl⟩ : ∃ b0 b1, b = [b0, b1] := by
          match b, hb, h2 with
          | [b0, b1], _, _ => exact ⟨b0, b1, rfl⟩
          | [], _, h => simp at h
          | [_], _, h => simp at h
        have r1 := lawful_u16.reads (UInt16.ofNat (b0.toNat + 256 * b1.toNat)) trivial
          ⟨[b0, b1], 0⟩ hv [] (by rw [wire_u16_of]; simp)
        rw [SM.bind_run, r1]
        simp only [wire_u16_of, List.length_cons, List.length_nil]
        rw [SM.bind_run]
        have : Deserializable.deser (α := UInt8) (ByteParser.adv ⟨[b0, b1], 0⟩ (0 + 1 + 1)) =
            (.err oob, ByteParser.adv ⟨[b0, b1], 0⟩ (0 + 1 + 1)) := by rfl
        rw [this]
    exact cut bytes hlen

example : Wire.readFrame [0, 0, 0x1a] = .wrongChannelBit false := by decide
example : Wire.readFrame [1, 0, 0x1a] = .unknownType := by decide
example : Wire.readFrame [0, 0x80, 0x1a, 3, 0, 0, 1, 2] = .tooShort := by decide
example : Wire.readFrame [0, 0x80, 0x1a, 2, 0, 0, 1, 2, 3] = .frame .submitSharesStandard [1, 2] := by
  decide

/-! ## C20 -/

theorem stream_frames {ms : List Message} (h : ∀ m ∈ ms, m.payload.length < 2 ^ 24) {b : Bytes}
    (hb : WireStream ms b) : b = (ms.map Wire.frame).flatten := by
  induction ms generalizing b with
  | nil => simpa [WireStream] using hb
  | cons m ms ih =>
    obtain ⟨e, b', he, hb', rfl⟩ := hb
    rw [ih (fun x hx => h x (List.mem_cons_of_mem _ hx)) hb']
    have := (C18_roundtrip m (h m List.mem_cons_self)).1
    rw [he] at this
    cases this
    simp

/-- Frames in range always have a stream. -/
theorem C20_stream_exists (ms : List Message) (h : ∀ m ∈ ms, m.payload.length < 2 ^ 24) :
    ∃ b, WireStream ms b := by
  induction ms with
  | nil => exact ⟨[], rfl⟩
  | cons m ms ih =>
    obtain ⟨b, hb⟩ := ih (fun x hx => h x (List.mem_cons_of_mem _ hx))
    exact ⟨_, _, _, (C18_roundtrip m (h m List.mem_cons_self)).1, hb, rfl⟩

theorem yields_frames (ms : List Message) (h : ∀ m ∈ ms, m.payload.length < 2 ^ 24)
    (before after : Bytes) (hs : IsSlice (before ++ ((ms.map Wire.frame).flatten ++ after))) :
    Yields Message ⟨before ++ ((ms.map Wire.frame).flatten ++ after), before.length⟩ ms
      ⟨before ++ ((ms.map Wire.frame).flatten ++ after),
        before.length + (ms.map Wire.frame).flatten.length⟩ := by
  induction ms generalizing before with
  | nil => simp [Yields]
  | cons m ms ih =>
    simp only [List.map_cons, List.flatten_cons, List.append_assoc] at hs ⊢
    refine ⟨_, (C18_roundtrip m (h m List.mem_cons_self)).2.2 before
      ((ms.map Wire.frame).flatten ++ after) hs, ?_⟩
    have := ih (fun x hx => h x (List.mem_cons_of_mem _ hx)) (before ++ Wire.frame m)
      (by simpa [List.append_assoc] using hs)
    simpa [List.append_assoc, Nat.add_assoc] using this

/-- One parser reads the frames of a stream back in order and ends at the end of the input. -/
theorem C20_stream (ms : List Message) (h : ∀ m ∈ ms, m.payload.length < 2 ^ 24) (b : Bytes)
    (hb : WireStream ms b) (hs : IsSlice b) : Yields Message ⟨b, 0⟩ ms ⟨b, b.length⟩ := by
  have := stream_frames h hb
  have h2 := yields_frames ms h [] [] (by simpa [← this] using hs)
  simpa [← this] using h2

/-- At the end of the input nothing more is read. -/
theorem deser_at_end (b : Bytes) (hs : IsSlice b) :
    (Deserializable.deser (α := Message) ⟨b, b.length⟩).1 = .err oob := by
  have hv : ByteParser.Valid ⟨b, b.length⟩ := ⟨Nat.le_refl _, hs⟩
  exact (message_rejects ⟨.setupConnection, []⟩ (by simp [Wire.FrameOK])).run _ hv
    (Wire.frame ⟨.setupConnection, []⟩) (by simp [Wire.frame]) (by simp [ByteParser.rest])

theorem yields_unique {b : Bytes} (hs : IsSlice b) : ∀ (ms ms' : List Message) (p : ByteParser),
    Yields Message p ms ⟨b, b.length⟩ → Yields Message p ms' ⟨b, b.length⟩ → ms = ms' := by
  intro ms
  induction ms with
  | nil =>
    intro ms' p h h'
    cases ms' with
    | nil => rfl
    | cons m' ms' =>
      obtain ⟨q, hq, _⟩ := h'
      cases (show p = _ from h)
      have := deser_at_end b hs
      rw [hq] at this
      cases this
  | cons m ms ih =>
    intro ms' p h h'
    obtain ⟨q, hq, hr⟩ := h
    cases ms' with
    | nil =>
      cases (show p = _ from h')
      have := deser_at_end b hs
      rw [hq] at this
      cases this
    | cons m' ms' =>
      obtain ⟨q', hq', hr'⟩ := h'
      rw [hq] at hq'
      cases hq'
      rw [ih ms' q hr hr']

/-- And there is no other way to read the whole stream. -/
theorem C20_reading_unique (ms ms' : List Message) (h : ∀ m ∈ ms, m.payload.length < 2 ^ 24) (b : Bytes)
    (hb : WireStream ms b) (hs : IsSlice b) (h' : Yields Message ⟨b, 0⟩ ms' ⟨b, b.length⟩) : ms' = ms :=
  (yields_unique hs ms ms' _ (C20_stream ms h b hb hs) h').symm

/-- Different lists of frames have different bytes. -/
theorem C20_injective (ms ms' : List Message) (h : ∀ m ∈ ms, m.payload.length < 2 ^ 24)
    (h' : ∀ m ∈ ms', m.payload.length < 2 ^ 24) (b : Bytes) (hs : IsSlice b) (hb : WireStream ms b)
    (hb' : WireStream ms' b) : ms = ms' :=
  yields_unique hs ms ms' _ (C20_stream ms h b hb hs) (C20_stream ms' h' b hb' hs)

/-- A stream cut off anywhere: the complete frames are read, and then either the input is used up or the
parser says that it is too short. -/
theorem C20_cut (ms : List Message) (h : ∀ m ∈ ms, m.payload.length < 2 ^ 24) (b : Bytes)
    (hb : WireStream ms b) (hs : IsSlice b) (cut missing : Bytes) (hc : cut ++ missing = b) :
    ∃ done p, done <+: ms ∧ Yields Message ⟨cut, 0⟩ done p ∧
      (p.start = cut.length ∨ ∃ msg, (Deserializable.deser (α := Message) p).1 = .err (.parseError msg)) := by
  have hb' := stream_frames h hb
  subst hb'
  clear hb
  have hscut : IsSlice cut := by
    unfold IsSlice at *
    have := congrArg List.length hc
    simp only [List.length_append] at this
    omega
  have key : ∀ (ms : List Message) (before cut : Bytes), (∀ m ∈ ms, m.payload.length < 2 ^ 24) →
      IsSlice (before ++ cut) → cut ++ missing = (ms.map Wire.frame).flatten →
      ∃ done p, done <+: ms ∧ Yields Message ⟨before ++ cut, before.length⟩ done p ∧
        (p.start = (before ++ cut).length ∨
          ∃ msg, (Deserializable.deser (α := Message) p).1 = .err (.parseError msg)) := by
    intro ms
    induction ms with
    | nil =>
      intro before cut _ _ hc
      simp at hc
      exact ⟨[], _, List.nil_prefix, rfl, Or.inl (by simp [hc.1])⟩
    | cons m ms ih =>
      intro before cut h hs hc
      have hm := h m List.mem_cons_self
      simp only [List.map_cons, List.flatten_cons] at hc
      rcases List.append_eq_append_iff.mp hc with ⟨a, ha1, ha2⟩ | ⟨a, ha1, ha2⟩
      · by_cases hnil : a = []
        · subst hnil
          simp at ha1 ha2
          subst ha1
          have := (C18_roundtrip m hm).2.2 before [] (by simpa using hs)
          simp only [List.append_nil] at this
          exact ⟨[m], _, by simp, ⟨_, this, rfl⟩, Or.inl (by simp)⟩
        · refine ⟨[], _, List.nil_prefix, rfl, Or.inr ⟨"out of bounds error", ?_⟩⟩
          exact (message_rejects m hm).run _ (valid_mid hs) a hnil (by rw [rest_mid]; exact ha1.symm)
      · subst ha1
        have := (C18_roundtrip m hm).2.2 before a hs
        obtain ⟨done, p, h1, h2, h3⟩ := ih (before ++ Wire.frame m) a
          (fun x hx => h x (List.mem_cons_of_mem _ hx)) (by simpa [List.append_assoc] using hs) ha2.symm
        refine ⟨m :: done, p, by simpa using h1, ⟨_, this, ?_⟩, ?_⟩
        · simpa [List.append_assoc] using h2
        · simpa [List.append_assoc] using h3
  exact key ms [] cut h (by simpa using hscut) hc

example : WireStream [sampleFrame, sampleFrame]
    [0, 0x80, 0x1a, 3, 0, 0, 1, 2, 3, 0, 0x80, 0x1a, 3, 0, 0, 1, 2, 3] :=
  ⟨[0, 0x80, 0x1a, 3, 0, 0, 1, 2, 3], [0, 0x80, 0x1a, 3, 0, 0, 1, 2, 3], by decide,
    ⟨[0, 0x80, 0x1a, 3, 0, 0, 1, 2, 3], [], by decide, rfl, rfl⟩, rfl⟩

/-! ## C21 -/

theorem framesBack_of {α : Type} [Frameable α] {m : α} {e : Bytes} (h : RoundTrips m e)
    (hlen : e.length ≤ 2000) : FramesBack m := by
  have hf : (⟨Frameable.messageType α, e⟩ : Message).payload.length < 2 ^ 24 := by
    show e.length < _; omega
  have rt := C18_roundtrip ⟨Frameable.messageType α, e⟩ hf
  refine ⟨⟨Frameable.messageType α, e⟩, _, ?_, rfl, rt.1, fun rest hs => ⟨_, rt.2.1 rest hs, ?_⟩⟩
  · unfold frame
    rw [h.1]
  · unfold unframe
    rw [if_neg (by simp)]
    have := h.2.1 [] (by rw [List.append_nil]; exact isSlice_of_le hlen (by decide))
    rwa [List.append_nil] at this

/-- Framing, sending, receiving and unframing is the identity on every constructible message. -/
theorem C21_frames_back :
    (∀ all (m : SetupConnectionMsg all), Built m → FramesBack m) ∧
    (∀ all (m : SetupConnectionSuccess all), Built m → FramesBack m) ∧
    (∀ all (m : SetupConnectionError all), Built m → FramesBack m) ∧
    (∀ m : SetupConnection, Built m → FramesBack m) ∧
    (∀ m : ChannelEndpointChanged, Built m → FramesBack m) ∧
    (∀ m : OpenStandardMiningChannel, Built m → FramesBack m) ∧
    (∀ m : OpenStandardMiningChannelSuccess, Built m → FramesBack m) ∧
    (∀ m : OpenExtendedMiningChannel, Built m → FramesBack m) ∧
    (∀ m : OpenExtendedMiningChannelSuccess, Built m → FramesBack m) ∧
    (∀ m : OpenMiningChannelError .standard, Built m → FramesBack m) ∧
    (∀ m : OpenMiningChannelError .extended, Built m → FramesBack m) ∧
    (∀ m : UpdateChannel, Built m → FramesBack m) := by
  obtain ⟨r1, r2, r3, r4, r5, r6, r7, r8, r9, r10, r11⟩ := C11_roundtrip
  refine ⟨fun _ m h => framesBack_of (r1 _ m h) ?_, fun _ m h => framesBack_of (r2 _ m h) ?_,
    fun _ m h => framesBack_of (r3 _ m h) ?_, fun m h => framesBack_of (r4 m h) ?_,
    fun m h => framesBack_of (r5 m h) ?_, fun m h => framesBack_of (r6 m h) ?_,
    fun m h => framesBack_of (r7 m h) ?_, fun m h => framesBack_of (r8 m h) ?_,
    fun m h => framesBack_of (r9 m h) ?_, fun m h => framesBack_of (r10 _ m h) ?_,
    fun m h => framesBack_of (r10 _ m h) ?_, fun m h => framesBack_of (r11 m h) ?_⟩
  · exact Nat.le_trans (size_setupMsg m ((built_setupMsg m).mp h)) (by decide)
  · rw [size_setupSuccess]; decide
  · exact Nat.le_trans (size_setupError m) (by decide)
  · exact Nat.le_trans (size_setupConnection m ((built_setupConnection m).mp h)) (by decide)
  · rw [size_channelEndpointChanged]; decide
  · exact Nat.le_trans (size_openStandard m ((built_openStandard m).mp h)) (by decide)
  · exact Nat.le_trans (size_openStandardSuccess m ((built_openStandardSuccess m).mp h)) (by decide)
  · exact Nat.le_trans (size_openExtended m ((built_openExtended m).mp h)) (by decide)
  · exact Nat.le_trans (size_openExtendedSuccess m ((built_openExtendedSuccess m).mp h)) (by decide)
  · exact Nat.le_trans (size_openError m) (by decide)
  · exact Nat.le_trans (size_openError m) (by decide)
  · rw [size_updateChannel]; decide

/-- The message types that the messages are framed as. -/
theorem C21_types :
    (∀ all, Frameable.messageType (SetupConnectionMsg all) = .setupConnection) ∧
    (∀ all, Frameable.messageType (SetupConnectionSuccess all) = .setupConnectionSuccess) ∧
    (∀ all, Frameable.messageType (SetupConnectionError all) = .setupConnectionError) ∧
    Frameable.messageType SetupConnection = .setupConnection ∧
    Frameable.messageType ChannelEndpointChanged = .channelEndpointChanged ∧
    Frameable.messageType OpenStandardMiningChannel = .openStandardMiningChannel ∧
    Frameable.messageType OpenStandardMiningChannelSuccess = .openStandardMiningChannelSuccess ∧
    Frameable.messageType OpenExtendedMiningChannel = .openExtendedMiningChannel ∧
    Frameable.messageType OpenExtendedMiningChannelSuccess = .openExtendedMiningChannelSuccess ∧
    Frameable.messageType (OpenMiningChannelError .standard) = .openStandardMiningChannelError ∧
    Frameable.messageType (OpenMiningChannelError .extended) = .openExtendedMiningChannelError ∧
    Frameable.messageType UpdateChannel = .updateChannel :=
  ⟨fun _ => rfl, fun _ => rfl, fun _ => rfl, rfl, rfl, rfl, rfl, rfl, rfl, rfl, rfl, rfl⟩

example : Built (⟨7⟩ : ChannelEndpointChanged) := built_channelEndpointChanged _

/-! ## C22 -/

/-- A frame of another type is refused whatever its payload, with the ids that were expected; a frame of
the right type is decoded. -/
theorem C22_unframe {α : Type} [Frameable α] (f : Message) :
    (f.message_type ≠ Frameable.messageType α → unframe α f =
      .err (.unexpectedMessageType (Frameable.messageType α).extType (Frameable.messageType α).msgType)) ∧
    (f.message_type = Frameable.messageType α → unframe α f = deserialize α f.payload) := by
  constructor
  · intro h
    unfold unframe
    rw [if_pos (fun h' => h h'.symm)]
  · intro h
    unfold unframe
    rw [if_neg (fun h' => h' h.symm)]

example : unframe UpdateChannel sampleFrame = .err (.unexpectedMessageType 0 0x16) := by decide

/-! ## C27 -/

/-- Bounds on the encoded sizes; with `C21_frames_back`, framing and serializing the frame succeed. -/
theorem C27_sizes :
    (∀ all (m : SetupConnectionMsg all), Built m → SizeAtMost m 1290) ∧
    (∀ all (m : SetupConnectionSuccess all), Built m → SizeAtMost m 6) ∧
    (∀ all (m : SetupConnectionError all), Built m → SizeAtMost m 30) ∧
    (∀ m : SetupConnection, Built m → SizeAtMost m 1291) ∧
    (∀ m : ChannelEndpointChanged, Built m → SizeAtMost m 4) ∧
    (∀ m : OpenStandardMiningChannel, Built m → SizeAtMost m 296) ∧
    (∀ m : OpenStandardMiningChannelSuccess, Built m → SizeAtMost m 77) ∧
    (∀ m : OpenExtendedMiningChannel, Built m → SizeAtMost m 298) ∧
    (∀ m : OpenExtendedMiningChannelSuccess, Built m → SizeAtMost m 75) ∧
    (∀ kind (m : OpenMiningChannelError kind), Built m → SizeAtMost m 28) ∧
    (∀ m : UpdateChannel, Built m → SizeAtMost m 40) := by
  obtain ⟨r1, r2, r3, r4, r5, r6, r7, r8, r9, r10, r11⟩ := C11_roundtrip
  exact ⟨fun _ m h => ⟨_, (r1 _ m h).1, size_setupMsg m ((built_setupMsg m).mp h)⟩,
    fun _ m h => ⟨_, (r2 _ m h).1, Nat.le_of_eq (size_setupSuccess m)⟩,
    fun _ m h => ⟨_, (r3 _ m h).1, size_setupError m⟩,
    fun m h => ⟨_, (r4 m h).1, size_setupConnection m ((built_setupConnection m).mp h)⟩,
    fun m h => ⟨_, (r5 m h).1, Nat.le_of_eq (size_channelEndpointChanged m)⟩,
    fun m h => ⟨_, (r6 m h).1, size_openStandard m ((built_openStandard m).mp h)⟩,
    fun m h => ⟨_, (r7 m h).1, size_openStandardSuccess m ((built_openStandardSuccess m).mp h)⟩,
    fun m h => ⟨_, (r8 m h).1, size_openExtended m ((built_openExtended m).mp h)⟩,
    fun m h => ⟨_, (r9 m h).1, size_openExtendedSuccess m ((built_openExtendedSuccess m).mp h)⟩,
    fun _ m h => ⟨_, (r10 _ m h).1, size_openError m⟩,
    fun m h => ⟨_, (r11 m h).1, Nat.le_of_eq (size_updateChannel m)⟩⟩

/-- Framing a constructible message never exceeds the frame's limit. -/
theorem C27_fits {α : Type} [Frameable α] (m : α) (n : Nat) (h : SizeAtMost m n) (hn : n ≤ 2000) :
    ∃ f bytes, frame m = .ok f ∧ serialize f = .ok bytes ∧ bytes.length ≤ 6 + n := by
  obtain ⟨e, he, hle⟩ := h
  have hf : (⟨Frameable.messageType α, e⟩ : Message).payload.length < 2 ^ 24 := by
    show e.length < _; omega
  refine ⟨⟨Frameable.messageType α, e⟩, _, ?_, (C18_roundtrip _ hf).1, ?_⟩
  · unfold frame
    rw [he]
  · rw [wire_frame_length]
    show 6 + e.length ≤ _
    omega

example : SizeAtMost (⟨7⟩ : ChannelEndpointChanged) 4 := C27_sizes.2.2.2.2.1 _ (built_channelEndpointChanged _)

end SV2
