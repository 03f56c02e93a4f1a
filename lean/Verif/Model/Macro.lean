import Verif.Model.Messages
/-!
# `impl_message!` for any declaration

`impl_message!(Name, field1 Type1, field2 Type2, ...)` (macro_message/message.rs:11-54) as one definition that takes the
list of field types, the constructor `new` and the message type.  `Props/Macro.lean` shows that each message written out
in `Messages.lean` is an expansion of it.
-/

namespace SV2.Macro

/-- The types of `types/` that can stand in a declaration: those with a `Serializable` and a `Deserializable`. -/
inductive Ty where
  | bool | u8 | u16 | u24 | u32 | f32 | u256
  | str0_32 | str0_255
  | b0_31 | b0_32 | b0_255 | b0_64K | b0_16M
  /-- a `bitflags!` struct with `impl_bitflags_serde!` and declared bits `all` -/
  | flags (all : UInt32)
  | setupConnectionErrorCode | openMiningChannelErrorCode
  deriving DecidableEq

/-- The values of a field type. -/
@[reducible] def Ty.Val : Ty → Type
  | .bool => Bool
  | .u8 => UInt8
  | .u16 => UInt16
  | .u24 => U24
  | .u32 => UInt32
  | .f32 => F32
  | .u256 => U256
  | .str0_32 => STR0_32
  | .str0_255 => STR0_255
  | .b0_31 => B0_31
  | .b0_32 => B0_32
  | .b0_255 => B0_255
  | .b0_64K => B0_64K
  | .b0_16M => B0_16M
  | .flags all => Flags all
  | .setupConnectionErrorCode => SetupConnectionErrorCode
  | .openMiningChannelErrorCode => OpenMiningChannelErrorCode

/-- `$field_type: Serializable`. -/
def Ty.ser {σ : Type} (w : Writer σ) : (t : Ty) → t.Val → SM σ Error Nat
  | .bool, x => Serializable.ser w (x : Bool)
  | .u8, x => Serializable.ser w (x : UInt8)
  | .u16, x => Serializable.ser w (x : UInt16)
  | .u24, x => Serializable.ser w (x : U24)
  | .u32, x => Serializable.ser w (x : UInt32)
  | .f32, x => Serializable.ser w (x : F32)
  | .u256, x => Serializable.ser w (x : U256)
  | .str0_32, x => Serializable.ser w (x : STR0_32)
  | .str0_255, x => Serializable.ser w (x : STR0_255)
  | .b0_31, x => Serializable.ser w (x : B0_31)
  | .b0_32, x => Serializable.ser w (x : B0_32)
  | .b0_255, x => Serializable.ser w (x : B0_255)
  | .b0_64K, x => Serializable.ser w (x : B0_64K)
  | .b0_16M, x => Serializable.ser w (x : B0_16M)
  | .flags all, x => Serializable.ser w (x : Flags all)
  | .setupConnectionErrorCode, x => Serializable.ser w (x : SetupConnectionErrorCode)
  | .openMiningChannelErrorCode, x => Serializable.ser w (x : OpenMiningChannelErrorCode)

/-- `$field_type: Deserializable`. -/
def Ty.deser : (t : Ty) → ParseM t.Val
  | .bool => Deserializable.deser (α := Bool)
  | .u8 => Deserializable.deser (α := UInt8)
  | .u16 => Deserializable.deser (α := UInt16)
  | .u24 => Deserializable.deser (α := U24)
  | .u32 => Deserializable.deser (α := UInt32)
  | .f32 => Deserializable.deser (α := F32)
  | .u256 => Deserializable.deser (α := U256)
  | .str0_32 => Deserializable.deser (α := STR0_32)
  | .str0_255 => Deserializable.deser (α := STR0_255)
  | .b0_31 => Deserializable.deser (α := B0_31)
  | .b0_32 => Deserializable.deser (α := B0_32)
  | .b0_255 => Deserializable.deser (α := B0_255)
  | .b0_64K => Deserializable.deser (α := B0_64K)
  | .b0_16M => Deserializable.deser (α := B0_16M)
  | .flags all => Deserializable.deser (α := Flags all)
  | .setupConnectionErrorCode => Deserializable.deser (α := SetupConnectionErrorCode)
  | .openMiningChannelErrorCode => Deserializable.deser (α := OpenMiningChannelErrorCode)

/-- The fields of the struct, in order, macro_message/message.rs:23-28. -/
@[reducible] def Fields : List Ty → Type
  | [] => Unit
  | t :: ts => t.Val × Fields ts

/-- The elements of the array `[$(self.$field.serialize(writer)?,)*]`, macro_message/message.rs:32-34: evaluated in
order, stopping at the first error. -/
def serFields {σ : Type} (w : Writer σ) : (ts : List Ty) → Fields ts → SM σ Error (List Nat)
  | [], _ => pure []
  | t :: ts, (x, xs) => do
    let n ← t.ser w x
    let ns ← serFields w ts xs
    pure (n :: ns)

/-- The arguments `$($field_type::deserialize(parser)?,)*`, macro_message/message.rs:42-44: evaluated in order,
stopping at the first error. -/
def deserFields : (ts : List Ty) → ParseM (Fields ts)
  | [] => pure ()
  | t :: ts => do
    let x ← t.deser
    let xs ← deserFields ts
    pure (x, xs)

/-- A use of the macro, with the hand-written `new` of the struct: it gets the decoded fields and returns the fields of
the struct.  (The conversions of the arguments, such as `Into<String>`, are part of `new`.) -/
structure Decl where
  fields : List Ty
  new : Fields fields → Result (Fields fields)
  messageType : MessageType

/-- The struct, macro_message/message.rs:22-28. -/
structure Msg (d : Decl) where
  fields : Fields d.fields

/-- The three implementations, macro_message/message.rs:30-52.  The `usize` sum is an unbounded sum. -/
instance (d : Decl) : Frameable (Msg d) where
  ser w m := do
    let counts ← serFields w d.fields m.fields
    pure counts.sum
  deser := do
    let args ← deserFields d.fields
    let fields ← SM.lift (d.new args)
    pure ⟨fields⟩
  messageType := d.messageType

end SV2.Macro
