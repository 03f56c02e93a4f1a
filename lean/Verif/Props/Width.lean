import Verif.Model.Width
import Verif.Props.StreamMacro
/-!
# C87: other targets

The rest of the model takes `usize` to have 64 bits and `next_by` to be built with overflow checks.  Here: parsing gives
the same results for every other width from 26 bits on, with and without overflow checks.
-/

namespace SV2

/-- With 64 bits this is the function of the model, and its variant for a release build. -/
theorem C87_next_by_64 (n : Nat) (p : ByteParser) :
    p.nextByWidth 64 true n = p.nextBy n ∧ p.nextByWidth 64 false n = p.nextByRelease n := by
  constructor
  · have hu : usizeMax = 2 ^ 64 - 1 := rfl
    simp only [ByteParser.nextByWidth, ByteParser.nextBy, Bool.true_and, decide_eq_true_eq]
    by_cases h : p.start + n ≥ 2 ^ 64
    · rw [if_pos h, if_pos (c := p.start + n > usizeMax) (by omega)]
    · rw [if_neg h, if_neg (c := p.start + n > usizeMax) (by omega), Nat.mod_eq_of_lt (by omega)]
  · simp only [ByteParser.nextByWidth, ByteParser.nextByRelease, Bool.false_and, Bool.false_eq_true, if_false]

/-- For requests of less than 2^24 bytes with the cursor inside the input, neither the width of `usize` nor the build
makes a difference.  A slice has at most 2^(w-1) - 1 bytes. -/
theorem C87_next_by (w : Nat) (hw : 26 ≤ w) (hw' : w ≤ 64) (checks : Bool) (bytes : Bytes) (start n : Nat)
    (hb : bytes.length < 2 ^ (w - 1)) (hs : start ≤ bytes.length) (hn : n < 2 ^ 24) :
    ByteParser.nextByWidth w checks n ⟨bytes, start⟩ = ByteParser.nextBy n ⟨bytes, start⟩ := by
  have h1 : 2 ^ 25 ≤ 2 ^ (w - 1) := Nat.pow_le_pow_right (by decide) (by omega)
  have h2 : 2 ^ w = 2 * 2 ^ (w - 1) := by
    rw [← Nat.pow_succ', Nat.succ_eq_add_one, Nat.sub_add_cancel (by omega)]
  have h3 : 2 ^ w ≤ 2 ^ 64 := Nat.pow_le_pow_right (by decide) hw'
  have h4 : start + n < 2 ^ w := by omega
  have hu : usizeMax = 2 ^ 64 - 1 := rfl
  simp only [ByteParser.nextByWidth, ByteParser.nextBy]
  rw [if_neg (by simp; omega), if_neg (c := start + n > usizeMax) (by omega), Nat.mod_eq_of_lt h4]

example : ByteParser.nextByWidth 32 true 2 ⟨[1, 2, 3], 1⟩ = (.ok [2, 3], ⟨[1, 2, 3], 3⟩) := by decide +kernel

/-! ## Decoders as sequences of `next_by` calls -/

/-- What a decoder does: it ends with a result, or asks for some bytes and goes on as they tell. -/
inductive Requests (α : Type) where
  | done (r : Result α)
  | next (n : Nat) (k : Bytes → Requests α)

/-- Run it with some `next_by`, whose errors end it. -/
def Requests.run {α : Type} (nextBy : Nat → ParseM Bytes) : Requests α → ParseM α
  | .done r => fun p => (r, p)
  | .next n k => fun p =>
    match nextBy n p with
    | (.ok b, p') => (k b).run nextBy p'
    | (.err e, p') => (.err e, p')
    | (.panic, p') => (.panic, p')

/-- It never asks for 2^24 bytes or more at once. -/
inductive Requests.Small {α : Type} : Requests α → Prop where
  | done (r : Result α) : Small (.done r)
  | next {n : Nat} {k : Bytes → Requests α} : n < 2 ^ 24 → (∀ b, Small (k b)) → Small (.next n k)

namespace Law

/-- The decoder of the type asks for less than 2^24 bytes at once, and gives the same result and leaves the cursor at the
same place whatever the width of `usize` and whether or not overflow is checked. -/
def Portable (α : Type) [Deserializable α] : Prop :=
  ∃ t : Requests α, t.Small ∧ (∀ p, Deserializable.deser (α := α) p = t.run ByteParser.nextBy p) ∧
    ∀ (w : Nat) (checks : Bool) (bytes : Bytes) (start : Nat), 26 ≤ w → w ≤ 64 → bytes.length < 2 ^ (w - 1) →
      start ≤ bytes.length →
      t.run (ByteParser.nextByWidth w checks) ⟨bytes, start⟩ = Deserializable.deser (α := α) ⟨bytes, start⟩

end Law

open Law

variable {α β : Type}

theorem Requests.run_width {t : Requests α} (ht : t.Small) {w : Nat} (hw : 26 ≤ w) (hw' : w ≤ 64) (checks : Bool)
    {bytes : Bytes} (hb : bytes.length < 2 ^ (w - 1)) {start : Nat} (hs : start ≤ bytes.length) :
    t.run (ByteParser.nextByWidth w checks) ⟨bytes, start⟩ = t.run ByteParser.nextBy ⟨bytes, start⟩ := by
  induction ht generalizing start with
  | done r => rfl
  | @next n k hn _ ih =>
    simp only [Requests.run]
    rw [C87_next_by w hw hw' checks bytes start n hb hs hn]
    have h1 : ByteParser.nextBy n ⟨bytes, start⟩ = (.panic, ⟨bytes, start⟩) ∨
        (∃ e, ByteParser.nextBy n ⟨bytes, start⟩ = (.err e, ⟨bytes, start⟩)) ∨
        ∃ b, start + n ≤ bytes.length ∧ ByteParser.nextBy n ⟨bytes, start⟩ = (.ok b, ⟨bytes, start + n⟩) := by
      unfold ByteParser.nextBy
      dsimp only
      split
      · exact .inl rfl
      · split
        · rename_i h
          exact .inr (.inr ⟨_, h.2, rfl⟩)
        · exact .inr (.inl ⟨_, rfl⟩)
    rcases h1 with h1 | ⟨e, h1⟩ | ⟨b, h1, h2⟩
    · rw [h1]
    · rw [h1]
    · rw [h2]
      exact ih b h1

/-- A decoder that is such a sequence. -/
def Modest (d : ParseM α) : Prop := ∃ t : Requests α, t.Small ∧ ∀ p, d p = t.run ByteParser.nextBy p

theorem Modest.portable [Deserializable α] (h : Modest (Deserializable.deser (α := α))) : Portable α := by
  obtain ⟨t, h1, h2⟩ := h
  refine ⟨t, h1, h2, fun w checks bytes start hw hw' hb hs => ?_⟩
  rw [Requests.run_width h1 hw hw' checks hb hs, h2]

theorem Modest.lift (o : Result α) : Modest (SM.lift o) := ⟨.done o, .done o, fun _ => rfl⟩

theorem Modest.pure (a : α) : Modest (pure a) := ⟨.done (.ok a), .done _, fun _ => rfl⟩

theorem Modest.fail (e : Error) : Modest (SM.fail e : ParseM α) := ⟨.done (.err e), .done _, fun _ => rfl⟩

theorem Modest.panic : Modest (SM.panic : ParseM α) := ⟨.done .panic, .done _, fun _ => rfl⟩

theorem Modest.nextBy {n : Nat} (hn : n < 2 ^ 24) : Modest (ByteParser.nextBy n) := by
  refine ⟨.next n fun b => .done (.ok b), .next hn fun b => .done _, fun p => ?_⟩
  simp only [Requests.run]
  rcases ByteParser.nextBy n p with ⟨_ | _ | _, _⟩ <;> rfl

/-- One sequence after another, if the first has a value. -/
def Requests.bind (t : Requests α) (f : α → Requests β) : Requests β :=
  match t with
  | .done (.ok a) => f a
  | .done (.err e) => .done (.err e)
  | .done .panic => .done .panic
  | .next n k => .next n fun b => (k b).bind f

theorem Requests.run_bind (t : Requests α) (f : α → Requests β) (nb : Nat → ParseM Bytes) :
    (t.bind f).run nb = (t.run nb >>= fun a => (f a).run nb) := by
  induction t with
  | done r => cases r <;> rfl
  | next n k ih =>
    funext p
    rw [SM.bind_run]
    simp only [Requests.bind, Requests.run]
    rcases nb n p with ⟨b | _ | _, q⟩
    · simp only [ih, SM.bind_run]
    · rfl
    · rfl

theorem Modest.bind {d : ParseM α} {f : α → ParseM β} (h1 : Modest d) (h2 : ∀ a, Modest (f a)) : Modest (d >>= f) := by
  obtain ⟨t, ht, h1⟩ := h1
  have h2' : ∀ a, ∃ t : Requests β, t.Small ∧ f a = t.run ByteParser.nextBy := fun a =>
    let ⟨t, h, h'⟩ := h2 a
    ⟨t, h, funext h'⟩
  refine ⟨t.bind fun a => (h2' a).choose, ?_, fun p => ?_⟩
  · induction ht generalizing d with
    | done r =>
      cases r with
      | ok a => exact (h2' a).choose_spec.1
      | err e => exact .done _
      | panic => exact .done _
    | @next n k hn _ ih => exact .next hn fun b => ih b (fun _ => rfl)
  · rw [Requests.run_bind, SM.bind_run, SM.bind_run, h1]
    rcases t.run ByteParser.nextBy p with ⟨a | _ | _, q⟩
    · simp only [← (h2' a).choose_spec.2]
    · rfl
    · rfl

theorem Modest.readExact {n : Nat} (hn : n < 2 ^ 24) : Modest (readExact n) := by
  unfold SV2.readExact
  refine Modest.bind (Modest.nextBy hn) fun s => ?_
  split
  · exact Modest.pure _
  · exact Modest.panic

theorem modest_bool : Modest (Deserializable.deser (α := Bool)) :=
  Modest.bind (Modest.readExact (by decide)) fun _ => Modest.pure _

theorem modest_u8 : Modest (Deserializable.deser (α := UInt8)) :=
  Modest.bind (Modest.readExact (by decide)) fun _ => Modest.pure _

theorem modest_u16 : Modest (Deserializable.deser (α := UInt16)) :=
  Modest.bind (Modest.readExact (by decide)) fun _ => Modest.pure _

theorem modest_u32 : Modest (Deserializable.deser (α := UInt32)) :=
  Modest.bind (Modest.readExact (by decide)) fun _ => Modest.pure _

theorem modest_f32 : Modest (Deserializable.deser (α := F32)) :=
  Modest.bind (Modest.readExact (by decide)) fun _ => Modest.pure _

theorem modest_u24 : Modest (Deserializable.deser (α := U24)) :=
  Modest.bind (Modest.readExact (by decide)) fun _ => Modest.lift _

theorem modest_u256 : Modest (Deserializable.deser (α := U256)) :=
  Modest.bind (Modest.readExact (by decide)) fun _ => Modest.pure _

theorem modest_str {max : Nat} : Modest (Deserializable.deser (α := Str0 max)) := by
  refine Modest.bind modest_u8 fun n => Modest.bind (Modest.nextBy ?_) fun b => ?_
  · have := n.toNat_lt; omega
  · split
    · exact Modest.lift _
    · exact Modest.fail _

theorem modest_b8 {max : Nat} : Modest (Deserializable.deser (α := B0 UInt8 max)) :=
  Modest.bind modest_u8 fun l => Modest.bind (Modest.nextBy (by
    have := l.toNat_lt
    show l.toNat < _
    omega)) fun _ => Modest.lift _

theorem modest_b16 {max : Nat} : Modest (Deserializable.deser (α := B0 UInt16 max)) :=
  Modest.bind modest_u16 fun l => Modest.bind (Modest.nextBy (by
    have := l.toNat_lt
    show l.toNat < _
    omega)) fun _ => Modest.lift _

/-- The `U24` a decoder returns is below 2^24. -/
theorem Modest.bind_u24 {f : U24 → ParseM β} (h2 : ∀ l : U24, l.val.toNat < 2 ^ 24 → Modest (f l)) :
    Modest (Deserializable.deser (α := U24) >>= f) := by
  have key : Deserializable.deser (α := U24) >>= f =
      Deserializable.deser (α := U24) >>= fun l => if l.val.toNat < 2 ^ 24 then f l else SM.panic := by
    show (SV2.readExact 3 >>= fun s : Arr 3 => SM.lift (U24.new (UInt32.ofNat (fromLE (s.toList ++ [0]))))) >>= _ =
      (SV2.readExact 3 >>= fun s : Arr 3 => SM.lift (U24.new (UInt32.ofNat (fromLE (s.toList ++ [0]))))) >>= _
    rw [SM.bind_assoc', SM.bind_assoc']
    congr 1
    funext s
    unfold U24.new U24.tryFromUsize
    split
    · rfl
    · next h =>
      simp only [SM.lift_ok, SM.pure_bind']
      rw [if_pos]
      simp only [UInt32.toNat_ofNat']
      simp only [UInt32.toNat_ofNat'] at h
      omega
  rw [key]
  refine Modest.bind modest_u24 fun l => ?_
  split
  · exact h2 l (by assumption)
  · exact Modest.panic

theorem modest_b24 {max : Nat} : Modest (Deserializable.deser (α := B0 U24 max)) :=
  Modest.bind_u24 fun _ h => Modest.bind (Modest.nextBy h) fun _ => Modest.lift _

theorem modest_flags {all : UInt32} : Modest (Deserializable.deser (α := (Flags all))) := by
  refine Modest.bind modest_u32 fun b => ?_
  split
  · exact Modest.pure _
  · exact Modest.fail _

theorem modest_code [ErrorCode α] : Modest (ErrorCode.deser : ParseM α) :=
  Modest.bind modest_str fun _ => Modest.lift _

theorem modest_protocol : Modest (Deserializable.deser (α := Protocol)) := Modest.bind modest_u8 fun _ => Modest.lift _

theorem modest_setupMsg {all : UInt32} : Modest (Deserializable.deser (α := (SetupConnectionMsg all))) :=
  Modest.bind modest_u16 fun _ => Modest.bind modest_u16 fun _ => Modest.bind modest_flags fun _ =>
    Modest.bind modest_str fun _ => Modest.bind modest_u16 fun _ => Modest.bind modest_str fun _ =>
    Modest.bind modest_str fun _ => Modest.bind modest_str fun _ => Modest.bind modest_str fun _ =>
    Modest.lift _

theorem modest_setupSuccess {all : UInt32} : Modest (Deserializable.deser (α := (SetupConnectionSuccess all))) :=
  Modest.bind modest_u16 fun _ => Modest.bind modest_flags fun _ => Modest.lift _

theorem modest_setupError {all : UInt32} : Modest (Deserializable.deser (α := (SetupConnectionError all))) :=
  Modest.bind modest_flags fun _ => Modest.bind modest_code fun _ => Modest.lift _

theorem modest_setupConnection : Modest (Deserializable.deser (α := SetupConnection)) := by
  refine Modest.bind modest_protocol fun pr => ?_
  split
  · exact Modest.bind modest_setupMsg fun _ => Modest.pure _
  · exact Modest.bind modest_setupMsg fun _ => Modest.pure _
  · exact Modest.fail _

theorem modest_channelEndpointChanged : Modest (Deserializable.deser (α := ChannelEndpointChanged)) :=
  Modest.bind modest_u32 fun _ => Modest.lift _

theorem modest_openStandard : Modest (Deserializable.deser (α := OpenStandardMiningChannel)) :=
  Modest.bind modest_u32 fun _ => Modest.bind modest_str fun _ => Modest.bind modest_f32 fun _ =>
    Modest.bind modest_u256 fun _ => Modest.lift _

theorem modest_openStandardSuccess : Modest (Deserializable.deser (α := OpenStandardMiningChannelSuccess)) :=
  Modest.bind modest_u32 fun _ => Modest.bind modest_u32 fun _ => Modest.bind modest_u256 fun _ =>
    Modest.bind modest_b8 fun _ => Modest.bind modest_u32 fun _ => Modest.lift _

theorem modest_openExtended : Modest (Deserializable.deser (α := OpenExtendedMiningChannel)) :=
  Modest.bind modest_u32 fun _ => Modest.bind modest_str fun _ => Modest.bind modest_f32 fun _ =>
    Modest.bind modest_u256 fun _ => Modest.bind modest_u16 fun _ => Modest.lift _

theorem modest_openExtendedSuccess : Modest (Deserializable.deser (α := OpenExtendedMiningChannelSuccess)) :=
  Modest.bind modest_u32 fun _ => Modest.bind modest_u32 fun _ => Modest.bind modest_u256 fun _ =>
    Modest.bind modest_u16 fun _ => Modest.bind modest_b8 fun _ => Modest.lift _

theorem modest_openError {k : ChannelKind} : Modest (Deserializable.deser (α := (OpenMiningChannelError k))) :=
  Modest.bind modest_u32 fun _ => Modest.bind modest_code fun _ => Modest.lift _

theorem modest_updateChannel : Modest (Deserializable.deser (α := UpdateChannel)) :=
  Modest.bind modest_u32 fun _ => Modest.bind modest_f32 fun _ => Modest.bind modest_u256 fun _ =>
    Modest.lift _

theorem modest_message : Modest (Deserializable.deser (α := Message)) := by
  rw [message_deser]
  refine Modest.bind modest_u16 fun _ => Modest.bind modest_u8 fun _ => Modest.bind (Modest.lift _) fun _ => ?_
  split
  · exact Modest.fail _
  · exact Modest.bind_u24 fun l h => Modest.bind (Modest.nextBy h) fun _ => Modest.pure _

theorem modest_signature {E : SigScheme} : Modest (Deserializable.deser (α := (Signature E))) := by
  refine Modest.bind (Modest.nextBy (by decide)) fun b => ?_
  split
  · exact Modest.fail _
  · split
    · exact Modest.pure _
    · exact Modest.panic

theorem modest_signatureNoiseMessage {E : SigScheme} : Modest (Deserializable.deser (α := (SignatureNoiseMessage E))) :=
  Modest.bind modest_u16 fun _ => Modest.bind modest_u32 fun _ => Modest.bind modest_u32 fun _ =>
    Modest.bind modest_signature fun _ => Modest.pure _

/-- The field types. -/
theorem C87_types : Portable Bool ∧ Portable UInt8 ∧ Portable UInt16 ∧ Portable UInt32 ∧ Portable F32 ∧ Portable U24 ∧ Portable U256 ∧
    (∀ max, Portable (Str0 max)) ∧ (∀ max, Portable (B0 UInt8 max)) ∧ (∀ max, Portable (B0 UInt16 max)) ∧
    (∀ max, Portable (B0 U24 max)) ∧ (∀ all, Portable (Flags all)) ∧ Portable Protocol ∧ Portable SetupConnectionErrorCode ∧
    Portable OpenMiningChannelErrorCode :=
  ⟨modest_bool.portable, modest_u8.portable, modest_u16.portable, modest_u32.portable, modest_f32.portable,
    modest_u24.portable, modest_u256.portable, fun _ => modest_str.portable, fun _ => modest_b8.portable,
    fun _ => modest_b16.portable, fun _ => modest_b24.portable, fun _ => modest_flags.portable, modest_protocol.portable,
    Modest.portable modest_code, Modest.portable modest_code⟩

/-- The messages and the frame. -/
theorem C87_messages : (∀ all, Portable (SetupConnectionMsg all)) ∧ (∀ all, Portable (SetupConnectionSuccess all)) ∧
    (∀ all, Portable (SetupConnectionError all)) ∧ Portable SetupConnection ∧ Portable ChannelEndpointChanged ∧
    Portable OpenStandardMiningChannel ∧ Portable OpenStandardMiningChannelSuccess ∧ Portable OpenExtendedMiningChannel ∧
    Portable OpenExtendedMiningChannelSuccess ∧ (∀ kind, Portable (OpenMiningChannelError kind)) ∧ Portable UpdateChannel ∧
    Portable Message ∧ (∀ E, Portable (SignatureNoiseMessage E)) :=
  ⟨fun _ => modest_setupMsg.portable, fun _ => modest_setupSuccess.portable, fun _ => modest_setupError.portable,
    modest_setupConnection.portable, modest_channelEndpointChanged.portable, modest_openStandard.portable,
    modest_openStandardSuccess.portable, modest_openExtended.portable, modest_openExtendedSuccess.portable,
    fun _ => modest_openError.portable, modest_updateChannel.portable, modest_message.portable,
    fun _ => modest_signatureNoiseMessage.portable⟩

namespace Macro

theorem Ty.modest (t : Ty) : Modest t.deser := by
  cases t
  · exact modest_bool
  · exact modest_u8
  · exact modest_u16
  · exact modest_u24
  · exact modest_u32
  · exact modest_f32
  · exact modest_u256
  · exact modest_str
  · exact modest_str
  · exact modest_b8
  · exact modest_b8
  · exact modest_b8
  · exact modest_b16
  · exact modest_b24
  · exact modest_flags
  · exact modest_code
  · exact modest_code

theorem modest_fields (ts : List Ty) : Modest (deserFields ts) := by
  induction ts with
  | nil => exact Modest.pure _
  | cons t ts ih => exact Modest.bind t.modest fun _ => Modest.bind ih fun _ => Modest.pure _

/-- Every message that `impl_message!` can declare. -/
theorem C87_any_declaration (d : Decl) : Portable (Msg d) :=
  Modest.portable (Modest.bind (modest_fields _) fun _ => Modest.bind (Modest.lift _) fun _ => Modest.pure _)

end Macro

/-- Where it does make a difference: a program that asks for 2^32 - 1 bytes (no decoder of the library does) panics on a
32-bit target with overflow checks, and gets an error without them or on a 64-bit target. -/
example : ByteParser.nextByWidth 32 true 0xffffffff ⟨[1, 2, 3], 1⟩ = (.panic, ⟨[1, 2, 3], 1⟩) ∧
    (∃ msg, ByteParser.nextByWidth 32 false 0xffffffff ⟨[1, 2, 3], 1⟩ = (.err (.parseError msg), ⟨[1, 2, 3], 1⟩)) ∧
    (∃ msg, ByteParser.nextByWidth 64 true 0xffffffff ⟨[1, 2, 3], 1⟩ = (.err (.parseError msg), ⟨[1, 2, 3], 1⟩)) :=
  ⟨by decide +kernel, ⟨"out of bounds error", by decide +kernel⟩, ⟨"out of bounds error", by decide +kernel⟩⟩

end SV2
