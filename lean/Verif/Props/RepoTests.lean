import Verif.Props.Macro
import Verif.Props.Authority
import Verif.Model.Network
/-!
# The tests of the project, run on the model

The `#[test]`s, documentation examples and benchmarks of /repo that do not depend on the clock, threads or a random generator, with their inputs and expected
values.  The code cannot be run here; that the model passes the tests of the code is evidence that it is the same
program.  Nothing here is a claim about all inputs.
-/

namespace SV2.RepoTests
open Macro

set_option maxRecDepth 100000

instance : (t : Ty) → DecidableEq t.Val
  | .bool => inferInstanceAs (DecidableEq Bool)
  | .u8 => inferInstanceAs (DecidableEq UInt8)
  | .u16 => inferInstanceAs (DecidableEq UInt16)
  | .u24 => inferInstanceAs (DecidableEq U24)
  | .u32 => inferInstanceAs (DecidableEq UInt32)
  | .f32 => inferInstanceAs (DecidableEq F32)
  | .u256 => inferInstanceAs (DecidableEq U256)
  | .str0_32 => inferInstanceAs (DecidableEq STR0_32)
  | .str0_255 => inferInstanceAs (DecidableEq STR0_255)
  | .b0_31 => inferInstanceAs (DecidableEq B0_31)
  | .b0_32 => inferInstanceAs (DecidableEq B0_32)
  | .b0_255 => inferInstanceAs (DecidableEq B0_255)
  | .b0_64K => inferInstanceAs (DecidableEq B0_64K)
  | .b0_16M => inferInstanceAs (DecidableEq B0_16M)
  | .flags all => inferInstanceAs (DecidableEq (Flags all))
  | .setupConnectionErrorCode => inferInstanceAs (DecidableEq SetupConnectionErrorCode)
  | .openMiningChannelErrorCode => inferInstanceAs (DecidableEq OpenMiningChannelErrorCode)

instance decFields : (ts : List Ty) → DecidableEq (Fields ts)
  | [] => fun _ _ => .isTrue rfl
  | t :: ts => fun (x, xs) (y, ys) =>
    match decEq x y, decFields ts xs ys with
    | .isTrue h, .isTrue hs => .isTrue (by rw [h, hs])
    | .isFalse h, _ => .isFalse fun e => h (congrArg Prod.fst e)
    | _, .isFalse h => .isFalse fun e => h (congrArg Prod.snd e)

instance (d : Decl) : DecidableEq (Msg d) := fun a b =>
  decidable_of_iff (a.fields = b.fields) ⟨fun h => by cases a; cases b; cases h; rfl, fun h => by rw [h]⟩

/-- `matches!(r, Err(Error::RequirementError { .. }))`. -/
def isRequirementError {α : Type} : Result α → Bool
  | .err (.requirementError _) => true
  | _ => false
/-- `matches!(r, Err(Error::ParseError { .. }))`. -/
def isParseError {α : Type} : Result α → Bool
  | .err (.parseError _) => true
  | _ => false
/-- `matches!(r, Err(Error::VersionError { .. }))`. -/
def isVersionError {α : Type} : Result α → Bool
  | .err (.versionError _) => true
  | _ => false
/-- `r.is_err()`. -/
def isErr {α : Type} : Result α → Bool
  | .err _ => true
  | _ => false
/-- `r.unwrap()` where the test goes on with the value. -/
def unwrapThen {α : Type} (r : Result α) (p : α → Prop) : Prop := ∃ a, r = .ok a ∧ p a

instance {α : Type} (r : Result α) (p : α → Prop) [∀ a, Decidable (p a)] : Decidable (unwrapThen r p) :=
  match r with
  | .ok a => decidable_of_iff (p a) ⟨fun h => ⟨a, rfl, h⟩, fun ⟨_, h, hp⟩ => Out.ok.inj h ▸ hp⟩
  | .err _ => isFalse fun ⟨_, h, _⟩ => by cases h
  | .panic => isFalse fun ⟨_, h, _⟩ => by cases h

/-! ## types/primitives.rs -/

-- u8_serde
example : serialize (0b10000001 : UInt8) = .ok [0b10000001] ∧ deserialize UInt8 [0b10000001] = .ok 0b10000001 := by decide
-- u16_serde
example : serialize (0b0100001010000001 : UInt16) = .ok [0b10000001, 0b01000010] ∧
    deserialize UInt16 [0b10000001, 0b01000010] = .ok 0b0100001010000001 := by decide
-- u32_serde
example : serialize (0b00011000001001000100001010000001 : UInt32) =
      .ok [0b10000001, 0b01000010, 0b00100100, 0b00011000] ∧
    deserialize UInt32 [0b10000001, 0b01000010, 0b00100100, 0b00011000] =
      .ok 0b00011000001001000100001010000001 := by decide
-- f32_serde: the comment of the test gives the bits of 3.14159274101257324
example : serialize (⟨0b01000000010010010000111111011011⟩ : F32) = .ok [0b11011011, 0b00001111, 0b01001001, 0b01000000] ∧
    deserialize F32 [0b11011011, 0b00001111, 0b01001001, 0b01000000] =
      .ok ⟨0b01000000010010010000111111011011⟩ := by decide
-- bool_serde
example : serialize true = .ok [1] ∧ serialize false = .ok [0] ∧ deserialize Bool [1] = .ok true ∧
    deserialize Bool [0] = .ok false ∧ deserialize Bool [2] = .ok false ∧ deserialize Bool [3] = .ok true ∧
    deserialize Bool [4] = .ok false ∧ deserialize Bool [255] = .ok true := by decide

/-! ## types/fixed.rs -/

-- u24_new
example : U24.new 0 = .ok ⟨0⟩ ∧ U24.new 1 = .ok ⟨1⟩ ∧ U24.new (2 ^ 24 - 1) = .ok ⟨0xffffff⟩ ∧
    isRequirementError (U24.new (2 ^ 24)) ∧ isRequirementError (U24.new (2 ^ 24 + 1)) := by decide
-- u24_serde_ok
example : deserialize U24 [5, 0, 0] = .ok ⟨5⟩ ∧ U24.new 5 = .ok ⟨5⟩ ∧ serialize (⟨5⟩ : U24) = .ok [5, 0, 0] := by decide
-- u24_deserialize_err
example : isParseError (deserialize U24 [0, 0]) := by decide
-- u24_serialize_err
example : serialize (⟨2 ^ 24⟩ : U24) = .ok [0, 0, 0] := by decide
-- u256_serde_ok
example :
    let encoded := toLE 8 1 ++ toLE 8 2 ++ toLE 8 3 ++ toLE 8 4
    let decoded : U256 := ⟨⟨[
      0x01, 0x00, 0x00, 0x00, 0x00, 0x00, 0x00, 0x00,
      0x02, 0x00, 0x00, 0x00, 0x00, 0x00, 0x00, 0x00,
      0x03, 0x00, 0x00, 0x00, 0x00, 0x00, 0x00, 0x00,
      0x04, 0x00, 0x00, 0x00, 0x00, 0x00, 0x00, 0x00], rfl⟩⟩
    deserialize U256 encoded = .ok decoded ∧ serialize decoded = .ok encoded := by decide
-- u256_deserialize_err
example : isParseError (deserialize U256 (List.replicate 31 0)) := by decide

/-! ## types/bytes.rs: `impl_sized_B0_tests!` -/

-- new_empty, new_nonempty for B0_31
example : B0.new [] = .ok (⟨(0 : UInt8), []⟩ : B0_31) ∧ B0.new [1, 2, 3, 4, 5] = .ok (⟨(5 : UInt8), [1, 2, 3, 4, 5]⟩ : B0_31) := by decide
-- new_max_length, new_over_limit
example : B0.new (List.replicate 31 0) = .ok (⟨(31 : UInt8), List.replicate 31 0⟩ : B0_31) ∧
    isRequirementError (B0.new (List.replicate 32 0) : Result B0_31) := by decide
-- serde_ok_empty, serde_ok_nonempty
example : deserialize B0_31 [0] = .ok ⟨(0 : UInt8), []⟩ ∧ serialize (⟨(0 : UInt8), []⟩ : B0_31) = .ok [0] ∧
    deserialize B0_31 [5, 1, 2, 3, 4, 5] = .ok ⟨(5 : UInt8), [1, 2, 3, 4, 5]⟩ ∧
    serialize (⟨(5 : UInt8), [1, 2, 3, 4, 5]⟩ : B0_31) = .ok [5, 1, 2, 3, 4, 5] := by decide
-- deserialize_err
example : isParseError (deserialize B0_31 []) ∧ isParseError (deserialize B0_31 [1]) ∧
    isParseError (deserialize B0_31 [2, 42]) := by decide
-- deserialize_over_max_length
example : isRequirementError (deserialize B0_31 (32 :: List.replicate 32 0)) := by decide

-- new_empty, new_nonempty for B0_32
example : B0.new [] = .ok (⟨(0 : UInt8), []⟩ : B0_32) ∧ B0.new [1, 2, 3, 4, 5] = .ok (⟨(5 : UInt8), [1, 2, 3, 4, 5]⟩ : B0_32) := by decide
-- new_max_length, new_over_limit
example : B0.new (List.replicate 32 0) = .ok (⟨(32 : UInt8), List.replicate 32 0⟩ : B0_32) ∧
    isRequirementError (B0.new (List.replicate 33 0) : Result B0_32) := by decide
-- serde_ok_empty, serde_ok_nonempty
example : deserialize B0_32 [0] = .ok ⟨(0 : UInt8), []⟩ ∧ serialize (⟨(0 : UInt8), []⟩ : B0_32) = .ok [0] ∧
    deserialize B0_32 [5, 1, 2, 3, 4, 5] = .ok ⟨(5 : UInt8), [1, 2, 3, 4, 5]⟩ ∧
    serialize (⟨(5 : UInt8), [1, 2, 3, 4, 5]⟩ : B0_32) = .ok [5, 1, 2, 3, 4, 5] := by decide
-- deserialize_err
example : isParseError (deserialize B0_32 []) ∧ isParseError (deserialize B0_32 [1]) ∧
    isParseError (deserialize B0_32 [2, 42]) := by decide
-- deserialize_over_max_length
example : isRequirementError (deserialize B0_32 (33 :: List.replicate 33 0)) := by decide

-- new_empty, new_nonempty for B0_255
example : B0.new [] = .ok (⟨(0 : UInt8), []⟩ : B0_255) ∧ B0.new [1, 2, 3, 4, 5] = .ok (⟨(5 : UInt8), [1, 2, 3, 4, 5]⟩ : B0_255) := by decide
-- new_max_length, new_over_limit
example : B0.new (List.replicate 255 0) = .ok (⟨(255 : UInt8), List.replicate 255 0⟩ : B0_255) ∧
    isRequirementError (B0.new (List.replicate 256 0) : Result B0_255) := by decide
-- serde_ok_empty, serde_ok_nonempty
example : deserialize B0_255 [0] = .ok ⟨(0 : UInt8), []⟩ ∧ serialize (⟨(0 : UInt8), []⟩ : B0_255) = .ok [0] ∧
    deserialize B0_255 [5, 1, 2, 3, 4, 5] = .ok ⟨(5 : UInt8), [1, 2, 3, 4, 5]⟩ ∧
    serialize (⟨(5 : UInt8), [1, 2, 3, 4, 5]⟩ : B0_255) = .ok [5, 1, 2, 3, 4, 5] := by decide
-- deserialize_err
example : isParseError (deserialize B0_255 []) ∧ isParseError (deserialize B0_255 [1]) ∧
    isParseError (deserialize B0_255 [2, 42]) := by decide

-- new_empty, new_nonempty for B0_64K
example : B0.new [] = .ok (⟨(0 : UInt16), []⟩ : B0_64K) ∧ B0.new [1, 2, 3, 4, 5] = .ok (⟨(5 : UInt16), [1, 2, 3, 4, 5]⟩ : B0_64K) := by decide
-- new_max_length, new_over_limit
example : B0.new (List.replicate 65535 0) = .ok (⟨(65535 : UInt16), List.replicate 65535 0⟩ : B0_64K) ∧
    isRequirementError (B0.new (List.replicate 65536 0) : Result B0_64K) := by
  simp only [B0.new, List.length_replicate]
  exact ⟨rfl, rfl⟩
-- serde_ok_empty, serde_ok_nonempty
example : deserialize B0_64K [0, 0] = .ok ⟨(0 : UInt16), []⟩ ∧ serialize (⟨(0 : UInt16), []⟩ : B0_64K) = .ok [0, 0] ∧
    deserialize B0_64K [5, 0, 1, 2, 3, 4, 5] = .ok ⟨(5 : UInt16), [1, 2, 3, 4, 5]⟩ ∧
    serialize (⟨(5 : UInt16), [1, 2, 3, 4, 5]⟩ : B0_64K) = .ok [5, 0, 1, 2, 3, 4, 5] := by decide
-- deserialize_err
example : isParseError (deserialize B0_64K []) ∧ isParseError (deserialize B0_64K [1]) ∧
    isParseError (deserialize B0_64K [2, 42]) := by decide

-- new_empty, new_nonempty for B0_16M
example : B0.new [] = .ok (⟨(⟨0⟩ : U24), []⟩ : B0_16M) ∧ B0.new [1, 2, 3, 4, 5] = .ok (⟨(⟨5⟩ : U24), [1, 2, 3, 4, 5]⟩ : B0_16M) := by decide
-- serde_ok_empty, serde_ok_nonempty
example : deserialize B0_16M [0, 0, 0] = .ok ⟨(⟨0⟩ : U24), []⟩ ∧ serialize (⟨(⟨0⟩ : U24), []⟩ : B0_16M) = .ok [0, 0, 0] ∧
    deserialize B0_16M [5, 0, 0, 1, 2, 3, 4, 5] = .ok ⟨(⟨5⟩ : U24), [1, 2, 3, 4, 5]⟩ ∧
    serialize (⟨(⟨5⟩ : U24), [1, 2, 3, 4, 5]⟩ : B0_16M) = .ok [5, 0, 0, 1, 2, 3, 4, 5] := by decide
-- deserialize_err
example : isParseError (deserialize B0_16M []) ∧ isParseError (deserialize B0_16M [1]) ∧
    isParseError (deserialize B0_16M [2, 42]) := by decide

/-! ## types/strings.rs: `impl_sized_STR0_tests!` -/

-- new for STR0_32
example : Str0.new "" = .ok (⟨0, ""⟩ : STR0_32) ∧
    Str0.new "human-readable-data" = .ok (⟨19, "human-readable-data"⟩ : STR0_32) ∧
    Str0.new (String.ofList (List.replicate 32 'a')) = .ok (⟨32, String.ofList (List.replicate 32 'a')⟩ : STR0_32) ∧
    isRequirementError (Str0.new (String.ofList (List.replicate 33 'a')) : Result STR0_32) := by decide +kernel
-- serde_ok_empty, serde_ok_nonempty
example : deserialize STR0_32 [0] = .ok ⟨0, ""⟩ ∧ serialize (⟨0, ""⟩ : STR0_32) = .ok [0] ∧
    deserialize STR0_32 (10 :: strBytes "valid data") = .ok ⟨10, "valid data"⟩ ∧
    serialize (⟨10, "valid data"⟩ : STR0_32) = .ok (10 :: strBytes "valid data") := by decide +kernel
-- deserialize_err
example : isParseError (deserialize STR0_32 []) ∧ isParseError (deserialize STR0_32 [1]) ∧
    isParseError (deserialize STR0_32 [2, 42]) ∧
    deserialize STR0_32 [0x06, 0xed, 0xa0, 0x80, 0xed, 0xb0, 0x80] = .err .fromUtf8Error := by decide +kernel
-- deserialize_over_max_length
example : isRequirementError (deserialize STR0_32 (33 :: List.replicate 33 97)) := by decide +kernel

-- new for STR0_255
example : Str0.new "" = .ok (⟨0, ""⟩ : STR0_255) ∧
    Str0.new "human-readable-data" = .ok (⟨19, "human-readable-data"⟩ : STR0_255) ∧
    Str0.new (String.ofList (List.replicate 255 'a')) = .ok (⟨255, String.ofList (List.replicate 255 'a')⟩ : STR0_255) ∧
    isRequirementError (Str0.new (String.ofList (List.replicate 256 'a')) : Result STR0_255) := by decide +kernel
-- serde_ok_empty, serde_ok_nonempty
example : deserialize STR0_255 [0] = .ok ⟨0, ""⟩ ∧ serialize (⟨0, ""⟩ : STR0_255) = .ok [0] ∧
    deserialize STR0_255 (10 :: strBytes "valid data") = .ok ⟨10, "valid data"⟩ ∧
    serialize (⟨10, "valid data"⟩ : STR0_255) = .ok (10 :: strBytes "valid data") := by decide +kernel
-- deserialize_err
example : isParseError (deserialize STR0_255 []) ∧ isParseError (deserialize STR0_255 [1]) ∧
    isParseError (deserialize STR0_255 [2, 42]) ∧
    deserialize STR0_255 [0x06, 0xed, 0xa0, 0x80, 0xed, 0xb0, 0x80] = .err .fromUtf8Error := by decide +kernel

/-! ## types/unix_timestamp.rs -/

-- system_unix_time_epoch, system_unix_time_resolution, system_unix_time_error
example : systemUnixTimeToU32 ⟨5 * 1000000000⟩ = .ok 5 ∧ systemUnixTimeToU32 ⟨5 * 1000000000 + 3⟩ = .ok 5 ∧
    systemUnixTimeToU32 ⟨-(5 * 1000000000 + 3)⟩ = .err .systemTimeError := by decide

/-! ## codec/frame.rs -/

/-- `impl_message!(TestMessage1, x u8)` and `impl_message!(TestMessage2, x u8)`, codec/frame.rs:109-123. -/
def frameTestDecl (t : MessageType) : Decl := ⟨[.u8], fun v => .ok v, t⟩

-- frame_test_message
example : frame (⟨(5, ())⟩ : Msg (frameTestDecl .testMessage1)) = .ok ⟨.testMessage1, [5]⟩ ∧
    unframe (Msg (frameTestDecl .testMessage1)) ⟨.testMessage1, [5]⟩ = .ok ⟨(5, ())⟩ := ⟨rfl, rfl⟩
-- test_message_1_frame_serde
example : serialize (⟨.testMessage1, [5]⟩ : Message) = .ok [0x00, 0x00, 0xfe, 0x01, 0x00, 0x00, 0x05] ∧
    deserialize Message [0x00, 0x00, 0xfe, 0x01, 0x00, 0x00, 0x05] = .ok ⟨.testMessage1, [5]⟩ := by decide
-- test_message_2_frame_serde
example : serialize (⟨.testMessage2, [5]⟩ : Message) = .ok [0x00, 0x80, 0xff, 0x01, 0x00, 0x00, 0x05] ∧
    deserialize Message [0x00, 0x80, 0xff, 0x01, 0x00, 0x00, 0x05] = .ok ⟨.testMessage2, [5]⟩ := by decide

/-! ## macro_message/message.rs: `impl_message_tests!` -/

/-- The four tests that the macro makes for a message, macro_message/message.rs:62-130: `message_serde_identity`,
`message_type_tautology`, `message_frame_identity`, `message_frame_serde`. -/
def MessageTests (S : Type) [Frameable S] (type : MessageType) (serialized : Bytes) (deserialized : S) : Prop :=
  let extension_type := if type.channelBit then type.extType ||| CHANNEL_BIT_MASK else type.extType
  let serialized_frame := Wire.u16 extension_type ++ [type.msgType] ++ (toLE 8 serialized.length).take 3 ++ serialized
  (serialize deserialized = .ok serialized ∧ deserialize S serialized = .ok deserialized) ∧
  Frameable.messageType S = type ∧
  (frame deserialized = .ok ⟨type, serialized⟩ ∧ unframe S ⟨type, serialized⟩ = .ok deserialized) ∧
  (serialize (⟨type, serialized⟩ : Message) = .ok serialized_frame ∧
    deserialize Message serialized_frame = .ok ⟨type, serialized⟩)

instance {S : Type} [Frameable S] [DecidableEq S] (t : MessageType) (b : Bytes) (s : S) :
    Decidable (MessageTests S t b s) := by unfold MessageTests; infer_instance


-- macro_message/message.rs
example : MessageTests (Msg testMessage1Decl) .testMessage1
      [0x01, 0x02, 0x00, 0x03, 0x00, 0x00, 0x04, 0x00, 0x00, 0x00, 0x05, 0x05, 0x05, 0x05, 0x05, 0x05, 0x05, 0x05,
      0x05, 0x05, 0x05, 0x05, 0x05, 0x05, 0x05, 0x05, 0x05, 0x05, 0x05, 0x05, 0x05, 0x05, 0x05, 0x05, 0x05, 0x05,
      0x05, 0x05, 0x05, 0x05, 0x05, 0x05, 0x00, 0x00, 0xc0, 0x40, 0x05, 0x73, 0x65, 0x76, 0x65, 0x6e, 0x05, 0x65,
      0x69, 0x67, 0x68, 0x74, 0x04, 0x09, 0x09, 0x09, 0x09, 0x04, 0x0a, 0x0a, 0x0a, 0x0a, 0x04, 0x0b, 0x0b, 0x0b,
      0x0b, 0x04, 0x00, 0x0c, 0x0c, 0x0c, 0x0c, 0x04, 0x00, 0x00, 0x0d, 0x0d, 0x0d, 0x0d]
      testMessage1 :=
  by decide +kernel

-- common/channel_endpoint_changed.rs
example : unwrapThen (ChannelEndpointChanged.new 5) (MessageTests ChannelEndpointChanged .channelEndpointChanged
      [0x05, 0x00, 0x00, 0x00]) := by
  decide +kernel
-- mining/open_standard_mining_channel.rs
example : unwrapThen (OpenStandardMiningChannel.new 1 "user id" ⟨0x40400000⟩ ⟨Arr.replicate 32 4⟩) (MessageTests OpenStandardMiningChannel .openStandardMiningChannel
      [0x01, 0x00, 0x00, 0x00, 0x07, 0x75, 0x73, 0x65, 0x72, 0x20, 0x69, 0x64, 0x00, 0x00, 0x40, 0x40, 0x04, 0x04,
      0x04, 0x04, 0x04, 0x04, 0x04, 0x04, 0x04, 0x04, 0x04, 0x04, 0x04, 0x04, 0x04, 0x04, 0x04, 0x04, 0x04, 0x04,
      0x04, 0x04, 0x04, 0x04, 0x04, 0x04, 0x04, 0x04, 0x04, 0x04, 0x04, 0x04]) := by
  decide +kernel
-- mining/open_standard_mining_channel_success.rs
example : unwrapThen (OpenStandardMiningChannelSuccess.new 1 2 ⟨Arr.replicate 32 3⟩ [4, 4, 4, 4] 5) (MessageTests OpenStandardMiningChannelSuccess .openStandardMiningChannelSuccess
      [0x01, 0x00, 0x00, 0x00, 0x02, 0x00, 0x00, 0x00, 0x03, 0x03, 0x03, 0x03, 0x03, 0x03, 0x03, 0x03, 0x03, 0x03,
      0x03, 0x03, 0x03, 0x03, 0x03, 0x03, 0x03, 0x03, 0x03, 0x03, 0x03, 0x03, 0x03, 0x03, 0x03, 0x03, 0x03, 0x03,
      0x03, 0x03, 0x03, 0x03, 0x04, 0x04, 0x04, 0x04, 0x04, 0x05, 0x00, 0x00, 0x00]) := by
  decide +kernel
-- mining/open_extended_mining_channel.rs
example : unwrapThen (OpenExtendedMiningChannel.new 1 "user id" ⟨0x40400000⟩ ⟨Arr.replicate 32 4⟩ 5) (MessageTests OpenExtendedMiningChannel .openExtendedMiningChannel
      [0x01, 0x00, 0x00, 0x00, 0x07, 0x75, 0x73, 0x65, 0x72, 0x20, 0x69, 0x64, 0x00, 0x00, 0x40, 0x40, 0x04, 0x04,
      0x04, 0x04, 0x04, 0x04, 0x04, 0x04, 0x04, 0x04, 0x04, 0x04, 0x04, 0x04, 0x04, 0x04, 0x04, 0x04, 0x04, 0x04,
      0x04, 0x04, 0x04, 0x04, 0x04, 0x04, 0x04, 0x04, 0x04, 0x04, 0x04, 0x04, 0x05, 0x00]) := by
  decide +kernel
-- mining/open_extended_mining_channel_success.rs
example : unwrapThen (OpenExtendedMiningChannelSuccess.new 1 2 ⟨Arr.replicate 32 3⟩ 4 [5, 5, 5, 5]) (MessageTests OpenExtendedMiningChannelSuccess .openExtendedMiningChannelSuccess
      [0x01, 0x00, 0x00, 0x00, 0x02, 0x00, 0x00, 0x00, 0x03, 0x03, 0x03, 0x03, 0x03, 0x03, 0x03, 0x03, 0x03, 0x03,
      0x03, 0x03, 0x03, 0x03, 0x03, 0x03, 0x03, 0x03, 0x03, 0x03, 0x03, 0x03, 0x03, 0x03, 0x03, 0x03, 0x03, 0x03,
      0x03, 0x03, 0x03, 0x03, 0x04, 0x00, 0x04, 0x05, 0x05, 0x05, 0x05]) := by
  decide +kernel
-- mining/update_channel.rs
example : unwrapThen (UpdateChannel.new 1 ⟨0x4144cccd⟩ ⟨Arr.replicate 32 0⟩) (MessageTests UpdateChannel .updateChannel
      [0x01, 0x00, 0x00, 0x00, 0xcd, 0xcc, 0x44, 0x41, 0x00, 0x00, 0x00, 0x00, 0x00, 0x00, 0x00, 0x00, 0x00, 0x00,
      0x00, 0x00, 0x00, 0x00, 0x00, 0x00, 0x00, 0x00, 0x00, 0x00, 0x00, 0x00, 0x00, 0x00, 0x00, 0x00, 0x00, 0x00,
      0x00, 0x00, 0x00, 0x00]) := by
  decide +kernel
-- mining/open_standard_mining_channel_error.rs (mining/open_mining_channel_error.rs)
example : unwrapThen (OpenMiningChannelError.new (kind := .standard) 1 .unknownUser) (MessageTests (OpenMiningChannelError .standard)
      .openStandardMiningChannelError
      [0x01, 0x00, 0x00, 0x00, 0x0c, 0x75, 0x6e, 0x6b, 0x6e, 0x6f, 0x77, 0x6e, 0x2d, 0x75, 0x73, 0x65, 0x72]) := by
  decide +kernel
-- mining/open_extended_mining_channel_error.rs (mining/open_mining_channel_error.rs)
example : unwrapThen (OpenMiningChannelError.new (kind := .extended) 1 .unknownUser) (MessageTests (OpenMiningChannelError .extended)
      .openExtendedMiningChannelError
      [0x01, 0x00, 0x00, 0x00, 0x0c, 0x75, 0x6e, 0x6b, 0x6e, 0x6f, 0x77, 0x6e, 0x2d, 0x75, 0x73, 0x65, 0x72]) := by
  decide +kernel

/-! ## macro_message/setup_connection.rs, setup_connection_success.rs, setup_connection_error.rs -/

-- make_deserialized_setup_connection with `miningSetupFlags`
example : unwrapThen (SetupConnectionMsg.new 2 2 (Flags.full miningSetupFlags) "0.0.0.0" 8545 "Bitmain" "S9i 13.5" "braiins-os-2018-09-22-1-hash" "some-device-uuid")
    (MessageTests (SetupConnectionMsg miningSetupFlags) .setupConnection
      ([0x02, 0x00, 0x02, 0x00] ++ Wire.u32 (Flags.full miningSetupFlags).bits ++ [
      0x07, 0x30, 0x2e, 0x30, 0x2e, 0x30, 0x2e, 0x30, 0x61, 0x21, 0x07, 0x42, 0x69, 0x74, 0x6d, 0x61, 0x69, 0x6e,
      0x08, 0x53, 0x39, 0x69, 0x20, 0x31, 0x33, 0x2e, 0x35, 0x1c, 0x62, 0x72, 0x61, 0x69, 0x69, 0x6e, 0x73, 0x2d,
      0x6f, 0x73, 0x2d, 0x32, 0x30, 0x31, 0x38, 0x2d, 0x30, 0x39, 0x2d, 0x32, 0x32, 0x2d, 0x31, 0x2d, 0x68, 0x61,
      0x73, 0x68, 0x10, 0x73, 0x6f, 0x6d, 0x65, 0x2d, 0x64, 0x65, 0x76, 0x69, 0x63, 0x65, 0x2d, 0x75, 0x75, 0x69, 0x64])) := by
  decide +kernel
-- empty_vendor, empty_firmware, bad_min_version, bad_max_version
example :
    isRequirementError (SetupConnectionMsg.new 2 2 (Flags.full miningSetupFlags) "0.0.0.0" 8545 "" "S9i 13.5" "braiins-os-2018-09-22-1-hash" "some-device-uuid") ∧
    isRequirementError (SetupConnectionMsg.new 2 2 (Flags.full miningSetupFlags) "0.0.0.0" 8545 "Bitmain" "S9i 13.5" "" "some-device-uuid") ∧
    isVersionError (SetupConnectionMsg.new 1 2 (Flags.full miningSetupFlags) "0.0.0.0" 8545 "Bitmain" "S9i 13.5" "braiins-os-2018-09-22-1-hash" "some-device-uuid") ∧
    isVersionError (SetupConnectionMsg.new 2 1 (Flags.full miningSetupFlags) "0.0.0.0" 8545 "Bitmain" "S9i 13.5" "braiins-os-2018-09-22-1-hash" "some-device-uuid") := by
  decide +kernel
-- make_deserialized_setup_connection_error, empty_feature_flags_error
example : unwrapThen (SetupConnectionError.new (Flags.full miningSetupFlags) .unsupportedFeatureFlags)
      (MessageTests (SetupConnectionError miningSetupFlags) .setupConnectionError (Wire.u32 (Flags.full miningSetupFlags).bits ++ [
      0x19, 0x75, 0x6e, 0x73, 0x75, 0x70, 0x70, 0x6f, 0x72, 0x74, 0x65, 0x64, 0x2d, 0x66, 0x65, 0x61, 0x74, 0x75,
      0x72, 0x65, 0x2d, 0x66, 0x6c, 0x61, 0x67, 0x73])) ∧
    isRequirementError (SetupConnectionError.new (Flags.empty miningSetupFlags) .unsupportedFeatureFlags) := by
  decide +kernel
-- make_deserialized_setup_connection with `jobNegotiationSetupFlags`
example : unwrapThen (SetupConnectionMsg.new 2 2 (Flags.full jobNegotiationSetupFlags) "0.0.0.0" 8545 "Bitmain" "S9i 13.5" "braiins-os-2018-09-22-1-hash" "some-device-uuid")
    (MessageTests (SetupConnectionMsg jobNegotiationSetupFlags) .setupConnection
      ([0x02, 0x00, 0x02, 0x00] ++ Wire.u32 (Flags.full jobNegotiationSetupFlags).bits ++ [
      0x07, 0x30, 0x2e, 0x30, 0x2e, 0x30, 0x2e, 0x30, 0x61, 0x21, 0x07, 0x42, 0x69, 0x74, 0x6d, 0x61, 0x69, 0x6e,
      0x08, 0x53, 0x39, 0x69, 0x20, 0x31, 0x33, 0x2e, 0x35, 0x1c, 0x62, 0x72, 0x61, 0x69, 0x69, 0x6e, 0x73, 0x2d,
      0x6f, 0x73, 0x2d, 0x32, 0x30, 0x31, 0x38, 0x2d, 0x30, 0x39, 0x2d, 0x32, 0x32, 0x2d, 0x31, 0x2d, 0x68, 0x61,
      0x73, 0x68, 0x10, 0x73, 0x6f, 0x6d, 0x65, 0x2d, 0x64, 0x65, 0x76, 0x69, 0x63, 0x65, 0x2d, 0x75, 0x75, 0x69, 0x64])) := by
  decide +kernel
-- empty_vendor, empty_firmware, bad_min_version, bad_max_version
example :
    isRequirementError (SetupConnectionMsg.new 2 2 (Flags.full jobNegotiationSetupFlags) "0.0.0.0" 8545 "" "S9i 13.5" "braiins-os-2018-09-22-1-hash" "some-device-uuid") ∧
    isRequirementError (SetupConnectionMsg.new 2 2 (Flags.full jobNegotiationSetupFlags) "0.0.0.0" 8545 "Bitmain" "S9i 13.5" "" "some-device-uuid") ∧
    isVersionError (SetupConnectionMsg.new 1 2 (Flags.full jobNegotiationSetupFlags) "0.0.0.0" 8545 "Bitmain" "S9i 13.5" "braiins-os-2018-09-22-1-hash" "some-device-uuid") ∧
    isVersionError (SetupConnectionMsg.new 2 1 (Flags.full jobNegotiationSetupFlags) "0.0.0.0" 8545 "Bitmain" "S9i 13.5" "braiins-os-2018-09-22-1-hash" "some-device-uuid") := by
  decide +kernel
-- make_deserialized_setup_connection_error, empty_feature_flags_error
example : unwrapThen (SetupConnectionError.new (Flags.full jobNegotiationSetupFlags) .unsupportedFeatureFlags)
      (MessageTests (SetupConnectionError jobNegotiationSetupFlags) .setupConnectionError (Wire.u32 (Flags.full jobNegotiationSetupFlags).bits ++ [
      0x19, 0x75, 0x6e, 0x73, 0x75, 0x70, 0x70, 0x6f, 0x72, 0x74, 0x65, 0x64, 0x2d, 0x66, 0x65, 0x61, 0x74, 0x75,
      0x72, 0x65, 0x2d, 0x66, 0x6c, 0x61, 0x67, 0x73])) ∧
    isRequirementError (SetupConnectionError.new (Flags.empty jobNegotiationSetupFlags) .unsupportedFeatureFlags) := by
  decide +kernel
-- make_deserialized_setup_connection_success with `miningSuccessFlags`
example : unwrapThen (SetupConnectionSuccess.new 2 (Flags.full miningSuccessFlags)) (MessageTests (SetupConnectionSuccess miningSuccessFlags)
      .setupConnectionSuccess ([0x02, 0x00] ++ Wire.u32 (Flags.full miningSuccessFlags).bits)) := by decide +kernel
-- make_deserialized_setup_connection_success with `jobNegotiationSuccessFlags`
example : unwrapThen (SetupConnectionSuccess.new 2 (Flags.full jobNegotiationSuccessFlags)) (MessageTests (SetupConnectionSuccess jobNegotiationSuccessFlags)
      .setupConnectionSuccess ([0x02, 0x00] ++ Wire.u32 (Flags.full jobNegotiationSuccessFlags).bits)) := by decide +kernel

/-! ## Flags -/

-- mining/setup_connection.rs: flags_serialize, flags_deserialize
example : serialize (⟨bitRequiresStandardJobs, by decide⟩ : Flags miningSetupFlags) = .ok [1, 0, 0, 0] ∧
    deserialize (Flags miningSetupFlags) [1, 0, 0, 0] = .ok ⟨bitRequiresStandardJobs, by decide⟩ ∧
    serialize (⟨bitRequiresWorkSelection, by decide⟩ : Flags miningSetupFlags) = .ok [2, 0, 0, 0] ∧
    deserialize (Flags miningSetupFlags) [2, 0, 0, 0] = .ok ⟨bitRequiresWorkSelection, by decide⟩ ∧
    serialize (⟨bitRequiresVersionRolling, by decide⟩ : Flags miningSetupFlags) = .ok [4, 0, 0, 0] ∧
    deserialize (Flags miningSetupFlags) [4, 0, 0, 0] = .ok ⟨bitRequiresVersionRolling, by decide⟩ ∧
    deserialize (Flags miningSetupFlags) [0xff, 0, 0, 0] = .err .unknownFlags := by decide
-- mining/setup_connection_success.rs: flags_serialize, flags_deserialize
example : serialize (⟨bitRequiresFixedVersion, by decide⟩ : Flags miningSuccessFlags) = .ok [1, 0, 0, 0] ∧
    deserialize (Flags miningSuccessFlags) [1, 0, 0, 0] = .ok ⟨bitRequiresFixedVersion, by decide⟩ ∧
    serialize (⟨bitRequiresExtendedChannels, by decide⟩ : Flags miningSuccessFlags) = .ok [2, 0, 0, 0] ∧
    deserialize (Flags miningSuccessFlags) [2, 0, 0, 0] = .ok ⟨bitRequiresExtendedChannels, by decide⟩ := by decide
-- job_negotiation/setup_connection.rs: flags_serialize, flags_deserialize
example : serialize (⟨bitRequiresAsyncJobMining, by decide⟩ : Flags jobNegotiationSetupFlags) = .ok [1, 0, 0, 0] ∧
    deserialize (Flags jobNegotiationSetupFlags) [1, 0, 0, 0] = .ok ⟨bitRequiresAsyncJobMining, by decide⟩ := by decide

/-! ## common/setup_connection.rs: `impl_setup_connection_tests!` -/

-- constructor_errors for newMining
example : isErr (SetupConnection.newMining 2 2 (Flags.full miningSetupFlags) "0.0.0.0" 8545 "" "S9u 13.5" "braiins-os-2018-09-22-1-hash" "some-uuid") ∧
    isErr (SetupConnection.newMining 2 2 (Flags.full miningSetupFlags) "0.0.0.0" 8545 "Bitmain" "S9u 13.5" "" "some-uuid") ∧
    isErr (SetupConnection.newMining 1 2 (Flags.full miningSetupFlags) "0.0.0.0" 8545 "Bitmain" "S9u 13.5" "braiins-os-2018-09-22-1-hash" "some-uuid") ∧
    isErr (SetupConnection.newMining 2 1 (Flags.full miningSetupFlags) "0.0.0.0" 8545 "Bitmain" "S9u 13.5" "braiins-os-2018-09-22-1-hash" "some-uuid") := by decide +kernel
-- serialize
example : unwrapThen (SetupConnection.newMining 2 2 (Flags.full miningSetupFlags) "0.0.0.0" 8545 "Bitmain" "S9u 13.5" "braiins-os-2018-09-22-1-hash" "some-uuid") fun conn =>
    unwrapThen (serialize conn) fun result => result.length = 75 ∧ result[0]? = some 0 ∧
      .ok ((result.drop 5).take 4) = serialize (Flags.full miningSetupFlags) ∧
      unwrapThen (deserialize SetupConnection result) fun _ => True := by
  decide +kernel
-- serialize_empty_flags
example : unwrapThen (SetupConnection.newMining 2 2 (Flags.empty miningSetupFlags) "0.0.0.0" 8545 "Bitmain" "S9u 13.5" "braiins-os-2018-09-22-1-hash" "some-uuid") fun conn =>
    unwrapThen (serialize conn) fun result => (result.drop 5).take 4 = [0, 0, 0, 0] := by
  decide +kernel
-- frame_message
example : unwrapThen (SetupConnection.newMining 2 2 (Flags.full miningSetupFlags) "0.0.0.0" 8545 "Bitmain" "S9u 13.5" "braiins-os-2018-09-22-1-hash" "some-uuid") fun conn =>
    unwrapThen (frame conn) fun network_message =>
    unwrapThen (serialize network_message) fun result =>
      result.length = 81 ∧ result.take 2 = [0, 0] ∧ result[2]? = some network_message.message_type.msgType ∧
      unwrapThen (deserialize U24 ((result.drop 3).take 3)) fun n => n.val.toNat = network_message.payload.length := by
  decide +kernel
-- constructor_errors for newJobNegotiation
example : isErr (SetupConnection.newJobNegotiation 2 2 (Flags.full jobNegotiationSetupFlags) "0.0.0.0" 8545 "" "S9u 13.5" "braiins-os-2018-09-22-1-hash" "some-uuid") ∧
    isErr (SetupConnection.newJobNegotiation 2 2 (Flags.full jobNegotiationSetupFlags) "0.0.0.0" 8545 "Bitmain" "S9u 13.5" "" "some-uuid") ∧
    isErr (SetupConnection.newJobNegotiation 1 2 (Flags.full jobNegotiationSetupFlags) "0.0.0.0" 8545 "Bitmain" "S9u 13.5" "braiins-os-2018-09-22-1-hash" "some-uuid") ∧
    isErr (SetupConnection.newJobNegotiation 2 1 (Flags.full jobNegotiationSetupFlags) "0.0.0.0" 8545 "Bitmain" "S9u 13.5" "braiins-os-2018-09-22-1-hash" "some-uuid") := by decide +kernel
-- serialize
example : unwrapThen (SetupConnection.newJobNegotiation 2 2 (Flags.full jobNegotiationSetupFlags) "0.0.0.0" 8545 "Bitmain" "S9u 13.5" "braiins-os-2018-09-22-1-hash" "some-uuid") fun conn =>
    unwrapThen (serialize conn) fun result => result.length = 75 ∧ result[0]? = some 1 ∧
      .ok ((result.drop 5).take 4) = serialize (Flags.full jobNegotiationSetupFlags) ∧
      unwrapThen (deserialize SetupConnection result) fun _ => True := by
  decide +kernel
-- serialize_empty_flags
example : unwrapThen (SetupConnection.newJobNegotiation 2 2 (Flags.empty jobNegotiationSetupFlags) "0.0.0.0" 8545 "Bitmain" "S9u 13.5" "braiins-os-2018-09-22-1-hash" "some-uuid") fun conn =>
    unwrapThen (serialize conn) fun result => (result.drop 5).take 4 = [0, 0, 0, 0] := by
  decide +kernel
-- frame_message
example : unwrapThen (SetupConnection.newJobNegotiation 2 2 (Flags.full jobNegotiationSetupFlags) "0.0.0.0" 8545 "Bitmain" "S9u 13.5" "braiins-os-2018-09-22-1-hash" "some-uuid") fun conn =>
    unwrapThen (frame conn) fun network_message =>
    unwrapThen (serialize network_message) fun result =>
      result.length = 81 ∧ result.take 2 = [0, 0] ∧ result[2]? = some network_message.message_type.msgType ∧
      unwrapThen (deserialize U24 ((result.drop 3).take 3)) fun n => n.val.toNat = network_message.payload.length := by
  decide +kernel

/-! ## nx-noise/src/types.rs -/

-- public_key_validation_test
example : ∀ k ∈ ([
    ⟨[0, 0, 0, 0, 0, 0, 0, 0, 0, 0, 0, 0, 0, 0, 0, 0, 0, 0, 0, 0, 0, 0, 0, 0, 0, 0, 0, 0, 0, 0, 0, 0], rfl⟩,
    ⟨[1, 0, 0, 0, 0, 0, 0, 0, 0, 0, 0, 0, 0, 0, 0, 0, 0, 0, 0, 0, 0, 0, 0, 0, 0, 0, 0, 0, 0, 0, 0, 0], rfl⟩,
    ⟨[224, 235, 122, 124, 59, 65, 184, 174, 22, 86, 227, 250, 241, 159, 196, 106, 218, 9, 141, 235, 156, 50, 177, 253,
      134, 98, 5, 22, 95, 73, 184, 0], rfl⟩,
    ⟨[95, 156, 149, 188, 163, 80, 140, 36, 177, 208, 177, 85, 156, 131, 239, 91, 4, 68, 92, 196, 88, 28, 142, 134,
      216, 34, 78, 221, 208, 159, 17, 87], rfl⟩,
    ⟨[236, 255, 255, 255, 255, 255, 255, 255, 255, 255, 255, 255, 255, 255, 255, 255, 255, 255, 255, 255, 255, 255,
      255, 255, 255, 255, 255, 255, 255, 255, 255, 127], rfl⟩,
    ⟨[237, 255, 255, 255, 255, 255, 255, 255, 255, 255, 255, 255, 255, 255, 255, 255, 255, 255, 255, 255, 255, 255,
      255, 255, 255, 255, 255, 255, 255, 255, 255, 127], rfl⟩,
    ⟨[238, 255, 255, 255, 255, 255, 255, 255, 255, 255, 255, 255, 255, 255, 255, 255, 255, 255, 255, 255, 255, 255,
      255, 255, 255, 255, 255, 255, 255, 255, 255, 127], rfl⟩,
    ⟨[205, 235, 122, 124, 59, 65, 184, 174, 22, 86, 227, 250, 241, 159, 196, 106, 218, 9, 141, 235, 156, 50, 177, 253,
      134, 98, 5, 22, 95, 73, 184, 128], rfl⟩,
    ⟨[76, 156, 149, 188, 163, 80, 140, 36, 177, 208, 177, 85, 156, 131, 239, 91, 4, 68, 92, 196, 88, 28, 142, 134,
      216, 34, 78, 221, 208, 159, 17, 215], rfl⟩,
    ⟨[217, 255, 255, 255, 255, 255, 255, 255, 255, 255, 255, 255, 255, 255, 255, 255, 255, 255, 255, 255, 255, 255,
      255, 255, 255, 255, 255, 255, 255, 255, 255, 255], rfl⟩,
    ⟨[218, 255, 255, 255, 255, 255, 255, 255, 255, 255, 255, 255, 255, 255, 255, 255, 255, 255, 255, 255, 255, 255,
      255, 255, 255, 255, 255, 255, 255, 255, 255, 255], rfl⟩,
    ⟨[219, 255, 255, 255, 255, 255, 255, 255, 255, 255, 255, 255, 255, 255, 255, 255, 255, 255, 255, 255, 255, 255,
      255, 255, 255, 255, 255, 255, 255, 255, 255, 255], rfl⟩] : List (Arr 32)),
    Noise.publicKeyFromBytes k = .err .invalidPublicKeyError := by decide +kernel
example : ∃ k, Noise.decodeStr32 "31e0303fd6418d2f8c0e78b91f22e8caed0fbe48656dcf4767e4834f701b8f62" = .ok k ∧
    Noise.publicKeyFromBytes k = .ok k :=
  ⟨hexKey 0x31e0303fd6418d2f8c0e78b91f22e8caed0fbe48656dcf4767e4834f701b8f62, by decide +kernel⟩

/-! ## Examples in the documentation -/

-- macro_message/setup_connection_error.rs:29-42
example : unwrapThen (SetupConnectionError.new (⟨bitRequiresVersionRolling, by decide⟩ : Flags miningSetupFlags)
    .unsupportedFeatureFlags) fun e => e.error_code = .unsupportedFeatureFlags := by decide
-- macro_message/setup_connection_success.rs:20-32
example : unwrapThen (SetupConnectionSuccess.new 2 (⟨bitRequiresFixedVersion, by decide⟩ : Flags miningSuccessFlags))
    fun c => c.flags = ⟨bitRequiresFixedVersion, by decide⟩ := by decide
-- macro_message/setup_connection.rs:30-69, common/setup_connection.rs:93-108, 137-152
example : unwrapThen (SetupConnection.newMining 2 2
    (Flags.union ⟨bitRequiresStandardJobs, by decide⟩ ⟨bitRequiresVersionRolling, by decide⟩) "0.0.0.0" 8545 "Bitmain"
    "S9i 13.5" "braiins-os-2018-09-22-1-hash" "some-device-uuid")
    fun c => (match c with | .mining v => v.min_version == 2 | _ => false) = true := by decide +kernel
example : unwrapThen (SetupConnection.newJobNegotiation 2 2 ⟨bitRequiresAsyncJobMining, by decide⟩ "0.0.0.0" 8545 "Bitmain"
    "S9i 13.5" "braiins-os-2018-09-22-1-hash" "some-device-uuid")
    fun c => (match c with | .jobNegotiation v => v.min_version == 2 | _ => false) = true := by decide +kernel
-- nx-noise/src/types.rs:68-86, 103-116, 146-164, 182-195, 228-246, 266-279, 317-333, 344-358
example : ∃ k, Noise.keyFromStr "0000000000000000000000000000000000000000000000000000000000000000" = .ok k ∧
    Noise.isEmptyKey k = true ∧ Noise.isEmptyKey Noise.EMPTY = true :=
  ⟨Noise.EMPTY, by decide +kernel⟩
example : ∃ k, Noise.keyFromStr "4a3acbfdb163dec651dfa3194dece676d437029c62a408b4c5ea9114246e4893" = .ok k ∧
    Noise.isEmptyKey k = false :=
  ⟨hexKey 0x4a3acbfdb163dec651dfa3194dece676d437029c62a408b4c5ea9114246e4893, by decide +kernel⟩

/-! ## benches/mining_benchmark.rs -/

example : unwrapThen (OpenExtendedMiningChannel.new 1 "user id" ⟨0x40400000⟩ ⟨Arr.replicate 32 4⟩ 5) fun msg =>
    unwrapThen (serialize msg) fun ser => unwrapThen (deserialize OpenExtendedMiningChannel ser) fun _ => True := by
  decide +kernel
example : unwrapThen (OpenMiningChannelError.new (kind := .extended) 1 .unknownUser) fun msg =>
    unwrapThen (serialize msg) fun ser =>
    unwrapThen (deserialize (OpenMiningChannelError .extended) ser) fun _ => True := by
  decide +kernel

/-! ## noise/mod.rs -/

-- init_signed_certificate, invalid_time_signed_certificate: `valid_until` seconds from a clock that does not run back or
-- past the end of a `u32`
example (now : UInt32) (valid_until : UInt32) (h0 : 0 < valid_until) (h : now.toNat + valid_until.toNat < 2 ^ 32)
    (k : StaticPublicKey) :
    SignedCertificate.new 0 now (now + valid_until) k = .ok ⟨0, now, now + valid_until, k⟩ ∧
    isErr (SignedCertificate.new 0 (now + valid_until) now k) := by
  have h0' : (0 : UInt32).toNat < valid_until.toNat := h0
  have h0'' : 0 < valid_until.toNat := h0'
  have hlt : now < now + valid_until := by
    rw [UInt32.lt_iff_toNat_lt, UInt32.toNat_add, Nat.mod_eq_of_lt h]
    omega
  constructor
  · exact if_neg (by rw [ge_iff_le, UInt32.not_le]; exact hlt)
  · show isErr (if now + valid_until ≥ now then _ else _) = true
    rw [if_pos (UInt32.le_of_lt hlt)]
    rfl
-- invalid_pubkey
example (strict : Bool) (k : StaticPublicKey) (m : SignatureNoiseMessage (Crypto.authority strict)) :
    isParseError (CertificateFormat.new "jg9QygGzKSVyxExPrj6bSCDq93c17Krj9yq5kNQnM3GP65" k m) := by
  have h : (Crypto.Base58.decode "jg9QygGzKSVyxExPrj6bSCDq93c17Krj9yq5kNQnM3GP65").map List.length = some 34 := by
    decide +kernel
  unfold CertificateFormat.new
  rw [authority_base58]
  cases hd : Crypto.Base58.decode "jg9QygGzKSVyxExPrj6bSCDq93c17Krj9yq5kNQnM3GP65" with
  | none => rw [hd] at h; cases h
  | some b =>
    rw [hd] at h
    have hl : b.length = 34 := Option.some.inj h
    simp only [Arr.ofSlice?, hl]
    rfl

-- noise_nx: `C71_example` is its sequence of calls, for all keys and clocks, except that the test uses
-- `signature_noise_msg.serialize` directly and a window of 100 seconds

/-! ## network/encryptor.rs -/

-- basic_handshake, with the keys of `sampleRun` in place of random ones
example :
    let initiator := ConnectionEncryptor.newOutbound Crypto.rfc (Noise.Keypair.default Crypto.rfc (hexKey 1))
    let receiver := ConnectionEncryptor.newInbound Crypto.rfc (Noise.Keypair.default Crypto.rfc sampleRun.sR) none
    ∃ x y z initiator1 initiator2 receiver1,
      initiator.initHandshake Crypto.rfc (Noise.Keypair.default Crypto.rfc sampleRun.eI) = (.ok x, initiator1) ∧
      receiver.recvHandshake Crypto.rfc (Noise.Keypair.default Crypto.rfc sampleRun.eR) x = (.ok y, receiver1, y) ∧
      initiator1.recvHandshake Crypto.rfc (Noise.Keypair.default Crypto.rfc (hexKey 2)) y = (.ok z, initiator2, z) ∧
      initiator2.isHandshakeComplete = true ∧ receiver1.isHandshakeComplete = true := by
  have hk : (⟨[], sampleRun.eI, sampleRun.eR, sampleRun.sR, List.replicate 992 0, List.replicate 928 0⟩ :
      Noise.NX.Run).KeysNonzero Crypto.rfc ∧
      ((⟨[], sampleRun.eI, sampleRun.eR, sampleRun.sR, List.replicate 992 0, List.replicate 928 0⟩ :
        Noise.NX.Run).keys Crypto.rfc).1 ≠ Noise.NX.zeros := by
    unfold Noise.NX.Run.KeysNonzero
    decide +kernel
  obtain ⟨o1, o2, i1, z, h1, h2, h3, h4, h5, _⟩ := C54_handshake Crypto.rfc Crypto.rfc_correct Crypto.rfc_dh (hexKey 1) sampleRun.eI
    sampleRun.eR sampleRun.sR (Noise.Keypair.default Crypto.rfc (hexKey 2))
    (Noise.Keypair.default Crypto.rfc (hexKey 2)) false _ rfl hk.1 hk.2
  exact ⟨_, _, z, o1, o2, i1, h1, h2, h3, h4, h5⟩

end SV2.RepoTests
