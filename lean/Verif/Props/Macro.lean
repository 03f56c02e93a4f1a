import Verif.Lemmas.Macro
/-!
# C73: `impl_message!` for any declaration
-/

namespace SV2.Macro
open Law

/-! ## The messages of the library are expansions -/

/-- `S`, with its hand-expanded implementations, is the expansion of `d`: the same bytes go to every writer and the same
count or error comes back; the decoder takes the same path on every input; the message type is the same. -/
structure Expands (S : Type) [Frameable S] (d : Decl) (to : S → Msg d) (back : Msg d → S) : Prop where
  inverse : (∀ s, back (to s) = s) ∧ ∀ m, to (back m) = m
  ser : ∀ (σ : Type) (w : Writer σ) (s : S), Serializable.ser w s = Serializable.ser w (to s)
  deser : Deserializable.deser (α := S) = (do
    let m ← Deserializable.deser (α := Msg d)
    pure (back m))
  type : Frameable.messageType S = d.messageType

/-- mining/setup_connection.rs:22 and job_negotiation/setup_connection.rs:16. -/
def setupConnectionDecl (all : UInt32) : Decl where
  fields := [.u16, .u16, .flags all, .str0_255, .u16, .str0_255, .str0_255, .str0_255, .str0_255]
  new := fun (minv, maxv, flags, host, port, vendor, hw, fw, dev, _) => do
    let m ← SetupConnectionMsg.new (all := all) minv maxv flags (Str0.data host) port (Str0.data vendor) (Str0.data hw)
      (Str0.data fw) (Str0.data dev)
    pure (m.min_version, m.max_version, m.flags, m.endpoint_host, m.endpoint_port, m.vendor, m.hardware_version,
      m.firmware, m.device_id, ())
  messageType := .setupConnection

/-- macro_message/setup_connection_success.rs:14-42. -/
def setupConnectionSuccessDecl (all : UInt32) : Decl where
  fields := [.u16, .flags all]
  new := fun (v, f, _) => do
    let m ← SetupConnectionSuccess.new (all := all) v f
    pure (m.used_version, m.flags, ())
  messageType := .setupConnectionSuccess

/-- macro_message/setup_connection_error.rs:16-50. -/
def setupConnectionErrorDecl (all : UInt32) : Decl where
  fields := [.flags all, .setupConnectionErrorCode]
  new := fun (f, c, _) => do
    let m ← SetupConnectionError.new (all := all) f c
    pure (m.flags, m.error_code, ())
  messageType := .setupConnectionError

/-- common/channel_endpoint_changed.rs:9-19. -/
def channelEndpointChangedDecl : Decl where
  fields := [.u32]
  new := fun (id, _) => do
    let m ← ChannelEndpointChanged.new id
    pure (m.channel_id, ())
  messageType := .channelEndpointChanged

/-- mining/open_standard_mining_channel.rs:5-32. -/
def openStandardDecl : Decl where
  fields := [.u32, .str0_255, .f32, .u256]
  new := fun (id, user, rate, target, _) => do
    let m ← OpenStandardMiningChannel.new id (Str0.data user) rate target
    pure (m.request_id, m.user_identity, m.nominal_hash_rate, m.max_target, ())
  messageType := .openStandardMiningChannel

/-- mining/open_standard_mining_channel_success.rs:5-27. -/
def openStandardSuccessDecl : Decl where
  fields := [.u32, .u32, .u256, .b0_32, .u32]
  new := fun (id, chan, target, pre, group, _) => do
    let m ← OpenStandardMiningChannelSuccess.new id chan target (B0.data pre) group
    pure (m.request_id, m.channel_id, m.target, m.extranonce_prefix, m.group_channel_id, ())
  messageType := .openStandardMiningChannelSuccess

/-- mining/open_extended_mining_channel.rs:6-35. -/
def openExtendedDecl : Decl where
  fields := [.u32, .str0_255, .f32, .u256, .u16]
  new := fun (id, user, rate, target, size, _) => do
    let m ← OpenExtendedMiningChannel.new id (Str0.data user) rate target size
    pure (m.request_id, m.user_identity, m.nominal_hash_rate, m.max_target, m.min_extranonce_size, ())
  messageType := .openExtendedMiningChannel

/-- mining/open_extended_mining_channel_success.rs:5-28. -/
def openExtendedSuccessDecl : Decl where
  fields := [.u32, .u32, .u256, .u16, .b0_32]
  new := fun (id, chan, target, size, pre, _) => do
    let m ← OpenExtendedMiningChannelSuccess.new id chan target size (B0.data pre)
    pure (m.request_id, m.channel_id, m.target, m.extranonce_size, m.extranonce_prefix, ())
  messageType := .openExtendedMiningChannelSuccess

/-- mining/open_mining_channel_error.rs:31-42. -/
def openErrorDecl (kind : ChannelKind) : Decl where
  fields := [.u32, .openMiningChannelErrorCode]
  new := fun (id, c, _) => do
    let m ← OpenMiningChannelError.new (kind := kind) id c
    pure (m.request_id, m.error_code, ())
  messageType := kind.messageType

/-- mining/update_channel.rs:3-22. -/
def updateChannelDecl : Decl where
  fields := [.u32, .f32, .u256]
  new := fun (id, rate, target, _) => do
    let m ← UpdateChannel.new id rate target
    pure (m.channel_id, m.nominal_hash_rate, m.max_target, ())
  messageType := .updateChannel

theorem bind_congr' {σ ε α β : Type} {x : SM σ ε α} {f g : α → SM σ ε β} (h : ∀ a, f a = g a) :
    (x >>= f) = (x >>= g) := by
  have : f = g := funext h
  rw [this]

theorem lift_map {σ ε α β γ : Type} (o : Out ε α) (f : α → β) (g : β → SM σ ε γ) :
    ((SM.lift (do let a ← o; pure (f a)) : SM σ ε β) >>= g) = (SM.lift o >>= fun a => g (f a)) := by
  cases o <;> rfl

/-- Proves `Expands` for a struct and the declaration. -/
macro "expands" d:ident : tactic => `(tactic| (
  refine ⟨⟨fun s => rfl, fun m => rfl⟩, ?_, ?_, rfl⟩
  · intro σ w s
    show _ = (serFields w _ _ >>= fun c => pure c.sum)
    simp only [$d:ident, serFields, SM.bind_assoc', SM.pure_bind', List.sum_cons, List.sum_nil, Nat.add_zero]
    try simp only [← Nat.add_assoc]
    first | rfl | (rw [SM.bind_pure']; rfl)
  · show _ = ((deserFields _ >>= fun args => SM.lift (Decl.new _ args) >>= fun f => pure ⟨f⟩ : ParseM (Msg _)) >>= _)
    simp only [$d:ident, deserFields, SM.bind_assoc', SM.pure_bind']
    repeat' (refine bind_congr' fun _ => ?_)
    simp only [lift_map]
    exact (SM.bind_pure' _).symm))

/-- **C73.** The structs of the library, fields in the order of their declarations. -/
theorem C73_expansions :
    (∀ all, Expands (SetupConnectionMsg all) (setupConnectionDecl all)
      (fun m => ⟨(m.min_version, m.max_version, m.flags, m.endpoint_host, m.endpoint_port, m.vendor, m.hardware_version,
        m.firmware, m.device_id, ())⟩)
      (fun ⟨(minv, maxv, flags, host, port, vendor, hw, fw, dev, _)⟩ =>
        ⟨minv, maxv, flags, host, port, vendor, hw, fw, dev⟩)) ∧
    (∀ all, Expands (SetupConnectionSuccess all) (setupConnectionSuccessDecl all)
      (fun m => ⟨(m.used_version, m.flags, ())⟩) (fun ⟨(v, f, _)⟩ => ⟨v, f⟩)) ∧
    (∀ all, Expands (SetupConnectionError all) (setupConnectionErrorDecl all)
      (fun m => ⟨(m.flags, m.error_code, ())⟩) (fun ⟨(f, c, _)⟩ => ⟨f, c⟩)) ∧
    Expands ChannelEndpointChanged channelEndpointChangedDecl (fun m => ⟨(m.channel_id, ())⟩) (fun ⟨(id, _)⟩ => ⟨id⟩) ∧
    Expands OpenStandardMiningChannel openStandardDecl
      (fun m => ⟨(m.request_id, m.user_identity, m.nominal_hash_rate, m.max_target, ())⟩)
      (fun ⟨(id, user, rate, target, _)⟩ => ⟨id, user, rate, target⟩) ∧
    Expands OpenStandardMiningChannelSuccess openStandardSuccessDecl
      (fun m => ⟨(m.request_id, m.channel_id, m.target, m.extranonce_prefix, m.group_channel_id, ())⟩)
      (fun ⟨(id, chan, target, pre, group, _)⟩ => ⟨id, chan, target, pre, group⟩) ∧
    Expands OpenExtendedMiningChannel openExtendedDecl
      (fun m => ⟨(m.request_id, m.user_identity, m.nominal_hash_rate, m.max_target, m.min_extranonce_size, ())⟩)
      (fun ⟨(id, user, rate, target, size, _)⟩ => ⟨id, user, rate, target, size⟩) ∧
    Expands OpenExtendedMiningChannelSuccess openExtendedSuccessDecl
      (fun m => ⟨(m.request_id, m.channel_id, m.target, m.extranonce_size, m.extranonce_prefix, ())⟩)
      (fun ⟨(id, chan, target, size, pre, _)⟩ => ⟨id, chan, target, size, pre⟩) ∧
    (∀ kind, Expands (OpenMiningChannelError kind) (openErrorDecl kind)
      (fun m => ⟨(m.request_id, m.error_code, ())⟩) (fun ⟨(id, c, _)⟩ => ⟨id, c⟩)) ∧
    Expands UpdateChannel updateChannelDecl
      (fun m => ⟨(m.channel_id, m.nominal_hash_rate, m.max_target, ())⟩)
      (fun ⟨(id, rate, target, _)⟩ => ⟨id, rate, target⟩) := by
  refine ⟨fun all => ?_, fun all => ?_, fun all => ?_, ?_, ?_, ?_, ?_, ?_, fun kind => ?_, ?_⟩
  · expands setupConnectionDecl
  · expands setupConnectionSuccessDecl
  · expands setupConnectionErrorDecl
  · expands channelEndpointChangedDecl
  · expands openStandardDecl
  · expands openStandardSuccessDecl
  · expands openExtendedDecl
  · expands openExtendedSuccessDecl
  · expands openErrorDecl
  · expands updateChannelDecl

/-! ## What holds for any declaration -/

/-- **C73.** A message of any declaration whose `new` stores its arguments is written as the formats of its fields, one
after the other, and read back unchanged, whatever surrounds it. -/
theorem C73_roundtrip (d : Decl) (hd : d.Stores) (m : Msg d) (h : Valid m) :
    RoundTrips m (wire d.fields m.fields) :=
  ⟨(msg_emits m h.1).serialize, (msg_reads hd m h).deserialize, (msg_reads hd m h).at⟩

/-- **C73.** Everything the decoder accepts is a message of the declaration; and unless there is a `bool` among the
fields, the accepted bytes start with the serialization of the result. -/
theorem C73_accepted (d : Decl) (hd : d.Stores) :
    (∀ bytes (m : Msg d), IsSlice bytes → deserialize (Msg d) bytes = .ok m → Valid m) ∧
    (.bool ∉ d.fields → Canonical (Msg d)) := by
  refine ⟨fun bytes m hs h => ?_, fun hb => (lawful_msg hd hb).canonical⟩
  obtain ⟨_, _, _, hv⟩ := (msg_accepts hd).deserialize hs h
  exact hv

/-- **C73.** With a `bool` it is not: two inputs for one message. -/
theorem C73_bool_not_canonical (t : MessageType) :
    let d : Decl := ⟨[.bool], fun v => .ok v, t⟩
    ¬ Canonical (Msg d) := by
  intro d h
  obtain ⟨e, rest, h1, h2⟩ := h [3] ⟨(true, ())⟩ (by unfold IsSlice; decide) rfl
  have : serialize (⟨(true, ())⟩ : Msg d) = .ok [1] := rfl
  rw [this] at h1
  cases h1
  cases h2

/-- **C73.** Every strict prefix of a message is refused as too short. -/
theorem C73_truncation (d : Decl) (m : Msg d) (h : Valid m) (hs : IsSlice (wire d.fields m.fields)) :
    RejectsTruncated m :=
  ⟨_, (msg_emits m h.1).serialize, fun cut missing hm hc =>
    ⟨_, (msg_rejects m h.1).deserialize hs cut missing hm hc⟩⟩

/-- **C73.** No input makes the decoder panic. -/
theorem C73_never_panics (d : Decl) (hd : d.Stores) : NeverPanics (Msg d) := (msg_safe hd).neverPanics

/-- **C73.** `serialize` returns the number of bytes of the whole message: all of them are appended to a `Vec`, and a
slice that is too short gets as many as fit, without an error. -/
theorem C73_count (d : Decl) (m : Msg d) (h : Valid m) :
    CountsBytes m ∧ IgnoresShortWrites m :=
  ⟨⟨_, (msg_emits m h.1).serialize, fun buf => (msg_emits m h.1).run_vec buf⟩,
    ⟨_, (msg_emits m h.1).serialize, fun out room => (msg_emits m h.1).run_slice out room⟩⟩

/-- **C73.** Framing and unframing: the frame has the type of the declaration and the fields as its payload, it is
unframed to the message, and a frame of another type is refused. -/
theorem C73_frame (d : Decl) (hd : d.Stores) (m : Msg d) (h : Valid m) (hs : IsSlice (wire d.fields m.fields)) :
    frame m = .ok ⟨d.messageType, wire d.fields m.fields⟩ ∧
    unframe (Msg d) ⟨d.messageType, wire d.fields m.fields⟩ = .ok m ∧
    ∀ t payload, t ≠ d.messageType → ∃ a b, unframe (Msg d) ⟨t, payload⟩ = .err (.unexpectedMessageType a b) := by
  obtain ⟨h1, h2, _⟩ := C73_roundtrip d hd m h
  refine ⟨?_, ?_, ?_⟩
  · simp only [frame, h1]
    rfl
  · have := h2 [] (by simpa using hs)
    rw [List.append_nil] at this
    simp only [unframe, this]
    exact if_neg (fun hc => hc rfl)
  · intro t payload ht
    exact ⟨_, _, if_pos (Ne.symm ht)⟩

/-- **C73.** The declarations of the library meet the hypothesis of the theorems above. -/
theorem C73_stores :
    (∀ all, (setupConnectionDecl all).Stores) ∧ (∀ all, (setupConnectionSuccessDecl all).Stores) ∧
    (∀ all, (setupConnectionErrorDecl all).Stores) ∧ channelEndpointChangedDecl.Stores ∧ openStandardDecl.Stores ∧
    openStandardSuccessDecl.Stores ∧ openExtendedDecl.Stores ∧ openExtendedSuccessDecl.Stores ∧
    (∀ kind, (openErrorDecl kind).Stores) ∧ updateChannelDecl.Stores := by
  have map_ne : ∀ {α β : Type} {o : Result α} {f : α → β}, o ≠ .panic → (do let a ← o; pure (f a)) ≠ Out.panic := by
    intro α β o f h
    cases o <;> simp at h ⊢
  refine ⟨fun all => ⟨?_, ?_⟩, fun all => ⟨?_, ?_⟩, fun all => ⟨?_, ?_⟩, ⟨?_, ?_⟩, ⟨?_, ?_⟩, ⟨?_, ?_⟩, ⟨?_, ?_⟩,
    ⟨?_, ?_⟩, fun kind => ⟨?_, ?_⟩, ⟨?_, ?_⟩⟩
  · rintro ⟨minv, maxv, flags, host, port, vendor, hw, fw, dev, _⟩
    exact map_ne (setup_new_ne_panic _ _ _ _ _ _ _ _ _)
  · rintro ⟨minv, maxv, flags, host, port, vendor, hw, fw, dev, _⟩ v' ⟨_, _, _, h1, _, h2, h3, h4, h5, _⟩ hn
    simp only [setupConnectionDecl] at hn
    cases hm : SetupConnectionMsg.new (all := all) minv maxv flags (Str0.data host) port (Str0.data vendor)
      (Str0.data hw) (Str0.data fw) (Str0.data dev) with
    | ok m =>
      rw [hm] at hn
      obtain ⟨rfl, _⟩ := setup_new_inv h1 h2 h3 h4 h5 hm
      exact (Out.ok.inj hn).symm
    | err e => rw [hm] at hn; cases hn
    | panic => rw [hm] at hn; cases hn
  · rintro ⟨v, f, _⟩ h; cases h
  · rintro ⟨v, f, _⟩ v' _ hn; exact (Out.ok.inj hn).symm
  · rintro ⟨f, c, _⟩
    refine map_ne ?_
    rw [setupError_new_eq]
    split <;> simp
  · rintro ⟨f, c, _⟩ v' _ hn
    simp only [setupConnectionErrorDecl, setupError_new_eq] at hn
    split at hn
    · cases hn
    · exact (Out.ok.inj hn).symm
  · rintro ⟨id, _⟩ h; cases h
  · rintro ⟨id, _⟩ v' _ hn; exact (Out.ok.inj hn).symm
  · rintro ⟨id, user, rate, target, _⟩
    exact map_ne (map_ne (Str0.new_ne_panic (max := 255) (Str0.data user)))
  · rintro ⟨id, user, rate, target, _⟩ v' h hn
    simp only [openStandardDecl, OpenStandardMiningChannel.new, StrOK.new_eq h.2.1] at hn
    exact (Out.ok.inj hn).symm
  · rintro ⟨id, chan, target, pre, group, _⟩
    exact map_ne (map_ne (B0.new_ne_panic lawfulLength_u8 (by decide) _))
  · rintro ⟨id, chan, target, pre, group, _⟩ v' h hn
    simp only [openStandardSuccessDecl, OpenStandardMiningChannelSuccess.new,
      B0.OK.new_eq lawfulLength_u8 (by decide) h.2.2.2.1] at hn
    exact (Out.ok.inj hn).symm
  · rintro ⟨id, user, rate, target, size, _⟩
    exact map_ne (map_ne (Str0.new_ne_panic (max := 255) (Str0.data user)))
  · rintro ⟨id, user, rate, target, size, _⟩ v' h hn
    simp only [openExtendedDecl, OpenExtendedMiningChannel.new, StrOK.new_eq h.2.1] at hn
    exact (Out.ok.inj hn).symm
  · rintro ⟨id, chan, target, size, pre, _⟩
    exact map_ne (map_ne (B0.new_ne_panic lawfulLength_u8 (by decide) _))
  · rintro ⟨id, chan, target, size, pre, _⟩ v' h hn
    simp only [openExtendedSuccessDecl, OpenExtendedMiningChannelSuccess.new,
      B0.OK.new_eq lawfulLength_u8 (by decide) h.2.2.2.2.1] at hn
    exact (Out.ok.inj hn).symm
  · rintro ⟨id, c, _⟩ h; cases h
  · rintro ⟨id, c, _⟩ v' _ hn; exact (Out.ok.inj hn).symm
  · rintro ⟨id, rate, target, _⟩ h; cases h
  · rintro ⟨id, rate, target, _⟩ v' _ hn; exact (Out.ok.inj hn).symm

/-! ## Cases

`TestMessage1`, macro_message/message.rs:133-213: a declaration with every type but `bool`, flags and error codes. -/

def testMessage1Decl : Decl where
  fields := [.u8, .u16, .u24, .u32, .u256, .f32, .str0_32, .str0_255, .b0_31, .b0_32, .b0_255, .b0_64K, .b0_16M]
  new := fun v => .ok v
  messageType := .testMessage1

theorem testMessage1_stores : testMessage1Decl.Stores :=
  ⟨(by intro v h; cases h), fun v v' _ h => (Out.ok.inj h).symm⟩

def testMessage1 : Msg testMessage1Decl :=
  ⟨(1, 2, ⟨3⟩, 4, ⟨Arr.replicate 32 5⟩, ⟨0x40c00000⟩, ⟨5, "seven"⟩, ⟨5, "eight"⟩, ⟨(4 : UInt8), [9, 9, 9, 9]⟩,
    ⟨(4 : UInt8), [10, 10, 10, 10]⟩, ⟨(4 : UInt8), [11, 11, 11, 11]⟩, ⟨(4 : UInt16), [12, 12, 12, 12]⟩,
    ⟨(⟨4⟩ : U24), [13, 13, 13, 13]⟩, ())⟩

example : Valid testMessage1 := by
  refine ⟨?_, _, rfl⟩
  simp only [FieldsOK, testMessage1, testMessage1Decl, Ty.OK, Wire.StrOK, Wire.B8OK, Wire.B16OK, Wire.B24OK]
  decide

end SV2.Macro
