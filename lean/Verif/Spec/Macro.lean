import Verif.Model.Macro
import Verif.Spec.Wire
/-!
# The wire format of a declared message: the formats of its fields, one after the other
-/

namespace SV2.Macro

/-- The format of one field. -/
def Ty.wire : (t : Ty) → t.Val → Bytes
  | .bool, x => [if (x : Bool) then 1 else 0]
  | .u8, x => Wire.u8 x
  | .u16, x => Wire.u16 x
  | .u24, x => Wire.u24 (U24.val x).toNat
  | .u32, x => Wire.u32 x
  | .f32, x => Wire.u32 (F32.bits x)
  | .u256, x => (U256.val x).toList
  | .str0_32, x => Wire.str (Str0.data x)
  | .str0_255, x => Wire.str (Str0.data x)
  | .b0_31, x => Wire.bytes8 (B0.data x)
  | .b0_32, x => Wire.bytes8 (B0.data x)
  | .b0_255, x => Wire.bytes8 (B0.data x)
  | .b0_64K, x => Wire.bytes16 (B0.data x)
  | .b0_16M, x => Wire.bytes24 (B0.data x)
  | .flags _, x => Wire.u32 (Flags.bits x)
  | .setupConnectionErrorCode, x => Wire.str (Wire.setupErrorString x)
  | .openMiningChannelErrorCode, x => Wire.str (Wire.openErrorString x)

/-- The value is one that the constructor of its type returns. -/
def Ty.OK : (t : Ty) → t.Val → Prop
  | .u24, x => (U24.val x).toNat < 2 ^ 24
  | .str0_32, x => Wire.StrOK (max := 32) x
  | .str0_255, x => Wire.StrOK (max := 255) x
  | .b0_31, x => Wire.B8OK (max := 31) x
  | .b0_32, x => Wire.B8OK (max := 32) x
  | .b0_255, x => Wire.B8OK (max := 255) x
  | .b0_64K, x => Wire.B16OK (max := 65535) x
  | .b0_16M, x => Wire.B24OK (max := 16777215) x
  | _, _ => True

/-- The format of the fields. -/
def wire : (ts : List Ty) → Fields ts → Bytes
  | [], _ => []
  | t :: ts, (x, xs) => t.wire x ++ wire ts xs

/-- All fields are values that constructors return. -/
def FieldsOK : (ts : List Ty) → Fields ts → Prop
  | [], _ => True
  | t :: ts, (x, xs) => t.OK x ∧ FieldsOK ts xs

/-- What is asked of `new`: it does not panic, and when it accepts it stores what it was given. -/
structure Decl.Stores (d : Decl) : Prop where
  noPanic : ∀ v, d.new v ≠ .panic
  keeps : ∀ v v', FieldsOK d.fields v → d.new v = .ok v' → v' = v

/-- A message of the declaration: its fields come from constructors, and `new` accepts them. -/
def Valid {d : Decl} (m : Msg d) : Prop := FieldsOK d.fields m.fields ∧ ∃ v, d.new m.fields = .ok v

end SV2.Macro
