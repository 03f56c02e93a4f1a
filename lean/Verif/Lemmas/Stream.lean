import Verif.Lemmas.Frame
import Verif.Lemmas.Certificate
import Verif.Spec.Stream
/-!
# Decoders and input that arrives in pieces
-/

namespace SV2

open Law

variable {α β : Type}

/-- The parser with more input behind. -/
def ByteParser.more (p : ByteParser) (t : Bytes) : ByteParser := ⟨p.bytes ++ t, p.start⟩

/-- Answers other than "too short" do not change when the input grows. -/
def Stable (d : ParseM α) : Prop :=
  ∀ (p : ByteParser) (t : Bytes), ¬ TooShort (d p).1 →
    d (p.more t) = ((d p).1, (d p).2.more t) ∧ (d p).2.bytes = p.bytes

theorem not_tooShort_ok (a : α) : ¬ TooShort (.ok a : Result α) := by
  rintro ⟨_, h⟩; cases h

theorem not_tooShort_panic : ¬ TooShort (.panic : Result α) := by
  rintro ⟨_, h⟩; cases h

theorem Stable.pure (a : α) : Stable (pure a) := fun _ _ _ => ⟨rfl, rfl⟩

theorem Stable.fail (e : Error) : Stable (SM.fail e : ParseM α) := fun _ _ _ => ⟨rfl, rfl⟩

theorem Stable.panic : Stable (SM.panic : ParseM α) := fun _ _ _ => ⟨rfl, rfl⟩

theorem Stable.lift (o : Result α) : Stable (SM.lift o) := fun _ _ _ => ⟨rfl, rfl⟩

theorem Stable.bind {d : ParseM α} {f : α → ParseM β} (h1 : Stable d) (h2 : ∀ a, Stable (f a)) :
    Stable (d >>= f) := by
  intro p t h
  have h1' := h1 p t
  rw [SM.bind_run] at h
  rw [SM.bind_run, SM.bind_run]
  rcases hd : d p with ⟨o, q⟩
  rw [hd] at h h1'
  cases o with
  | ok a =>
    obtain ⟨e1, e2⟩ := h1' (not_tooShort_ok a)
    simp only at e1 e2 h ⊢
    rw [e1]
    obtain ⟨e3, e4⟩ := h2 a q t h
    exact ⟨e3, e4.trans e2⟩
  | err e =>
    have hn : ¬ TooShort (.err e : Result α) := by
      rintro ⟨msg, hm⟩
      cases hm
      exact h ⟨msg, rfl⟩
    obtain ⟨e1, e2⟩ := h1' hn
    simp only at e1 e2 ⊢
    rw [e1]
    exact ⟨rfl, e2⟩
  | panic =>
    obtain ⟨e1, e2⟩ := h1' not_tooShort_panic
    simp only at e1 e2 ⊢
    rw [e1]
    exact ⟨rfl, e2⟩

theorem Stable.nextBy (n : Nat) : Stable (ByteParser.nextBy n) := by
  intro p t h
  simp only [ByteParser.nextBy] at h ⊢
  by_cases h1 : p.start + n > usizeMax
  · have : (p.more t).start + n > usizeMax := h1
    simp only [h1, this, if_true]
    exact ⟨trivial, trivial⟩
  · have h1' : ¬ (p.more t).start + n > usizeMax := h1
    simp only [h1, h1', if_false] at h ⊢
    by_cases h2 : p.start ≤ p.start + n ∧ p.start + n ≤ p.bytes.length
    · have h3 : (p.more t).start ≤ (p.more t).start + n ∧ (p.more t).start + n ≤ (p.more t).bytes.length := by
        simp only [ByteParser.more, List.length_append]; omega
      simp only [h2, h3, and_self, if_true]
      refine ⟨?_, trivial⟩
      simp only [ByteParser.more, Prod.mk.injEq, and_true, Out.ok.injEq]
      rw [List.drop_append_of_le_length (by omega),
        List.take_append_of_le_length (by rw [List.length_drop]; omega)]
    · exfalso
      rw [if_neg h2] at h
      exact h ⟨_, rfl⟩

theorem Stable.readExact (n : Nat) : Stable (readExact n) := by
  unfold SV2.readExact
  refine Stable.bind (Stable.nextBy n) fun s => ?_
  split
  · exact Stable.pure _
  · exact Stable.panic

theorem Stable.final [Deserializable α] (h : Stable (Deserializable.deser (α := α))) : Final α := by
  intro bytes more start hn
  obtain ⟨h1, h2⟩ := h ⟨bytes, start⟩ more hn
  have : (ByteParser.more ⟨bytes, start⟩ more) = ⟨bytes ++ more, start⟩ := rfl
  rw [← this, h1]
  simp only [ByteParser.more, h2]

/-! ## Position -/

/-- The parser seen from a larger input with `pre` in front. -/
def ByteParser.behind (p : ByteParser) (pre : Bytes) : ByteParser := ⟨pre ++ p.bytes, pre.length + p.start⟩

/-- What is in front of the cursor does not matter. -/
def Shifts (d : ParseM α) : Prop :=
  ∀ (p : ByteParser) (pre : Bytes), p.Valid → (p.behind pre).Valid →
    d (p.behind pre) = ((d p).1, (d p).2.behind pre) ∧ (d p).2.Valid ∧ ((d p).2.behind pre).Valid ∧
      (d p).2.bytes = p.bytes

theorem Shifts.pure (a : α) : Shifts (pure a) := fun _ _ h1 h2 => ⟨rfl, h1, h2, rfl⟩

theorem Shifts.fail (e : Error) : Shifts (SM.fail e : ParseM α) := fun _ _ h1 h2 => ⟨rfl, h1, h2, rfl⟩

theorem Shifts.panic : Shifts (SM.panic : ParseM α) := fun _ _ h1 h2 => ⟨rfl, h1, h2, rfl⟩

theorem Shifts.lift (o : Result α) : Shifts (SM.lift o) := fun _ _ h1 h2 => ⟨rfl, h1, h2, rfl⟩

theorem Shifts.bind {d : ParseM α} {f : α → ParseM β} (h1 : Shifts d) (h2 : ∀ a, Shifts (f a)) :
    Shifts (d >>= f) := by
  intro p pre hv hv'
  obtain ⟨e1, e2, e3, e4⟩ := h1 p pre hv hv'
  rw [SM.bind_run, SM.bind_run, e1]
  rcases hd : d p with ⟨o, q⟩
  rw [hd] at e2 e3 e4
  cases o with
  | ok a =>
    obtain ⟨g1, g2, g3, g4⟩ := h2 a q pre e2 e3
    exact ⟨g1, g2, g3, g4.trans e4⟩
  | err e => exact ⟨rfl, e2, e3, e4⟩
  | panic => exact ⟨rfl, e2, e3, e4⟩

theorem Shifts.nextBy {n : Nat} (hn : n < 2 ^ 63) : Shifts (ByteParser.nextBy n) := by
  intro p pre hv hv'
  have hr : (p.behind pre).rest = p.rest := by
    simp [ByteParser.behind, ByteParser.rest, List.drop_append]
  by_cases h : n ≤ p.rest.length
  · rw [nextBy_ok hv h, nextBy_ok hv' (by rw [hr]; exact h), hr]
    refine ⟨by simp [ByteParser.behind, ByteParser.adv, Nat.add_assoc], hv.adv h, ?_, rfl⟩
    have := hv'.adv (n := n) (by rw [hr]; exact h)
    simpa [ByteParser.behind, ByteParser.adv, Nat.add_assoc] using this
  · rw [nextBy_err hv (by omega) hn, nextBy_err hv' (by rw [hr]; omega) hn]
    exact ⟨rfl, hv, hv', rfl⟩

theorem Shifts.readExact {n : Nat} (hn : n < 2 ^ 63) : Shifts (readExact n) := by
  unfold SV2.readExact
  refine Shifts.bind (Shifts.nextBy hn) fun s => ?_
  split
  · exact Shifts.pure _
  · exact Shifts.panic

theorem Shifts.positionFree [Deserializable α] (h : Shifts (Deserializable.deser (α := α))) : PositionFree α := by
  intro before bytes hs
  have hv : ByteParser.Valid ⟨bytes, 0⟩ := ⟨Nat.zero_le _, by
    unfold IsSlice at hs; simp only [List.length_append] at hs; show bytes.length < _; omega⟩
  have hb : ByteParser.behind ⟨bytes, 0⟩ before = ⟨before ++ bytes, before.length⟩ := rfl
  have hv' : (ByteParser.behind ⟨bytes, 0⟩ before).Valid := by
    rw [hb]
    exact ⟨by simp, hs⟩
  obtain ⟨e1, _, _, e4⟩ := h ⟨bytes, 0⟩ before hv hv'
  rw [← hb, e1]
  simp only [ByteParser.behind, e4]

/-! ## Both, for every decoder of the library -/

/-- Final answers, whatever is in front. -/
structure Streams (d : ParseM α) : Prop where
  stable : Stable d
  shifts : Shifts d

theorem Streams.pure (a : α) : Streams (pure a) := ⟨Stable.pure a, Shifts.pure a⟩

theorem Streams.fail (e : Error) : Streams (SM.fail e : ParseM α) := ⟨Stable.fail e, Shifts.fail e⟩

theorem Streams.panic : Streams (SM.panic : ParseM α) := ⟨Stable.panic, Shifts.panic⟩

theorem Streams.lift (o : Result α) : Streams (SM.lift o) := ⟨Stable.lift o, Shifts.lift o⟩

theorem Streams.bind {d : ParseM α} {f : α → ParseM β} (h1 : Streams d) (h2 : ∀ a, Streams (f a)) :
    Streams (d >>= f) := ⟨h1.stable.bind fun a => (h2 a).stable, h1.shifts.bind fun a => (h2 a).shifts⟩

theorem Streams.nextBy {n : Nat} (hn : n < 2 ^ 63) : Streams (ByteParser.nextBy n) :=
  ⟨Stable.nextBy n, Shifts.nextBy hn⟩

theorem Streams.readExact {n : Nat} (hn : n < 2 ^ 63) : Streams (readExact n) :=
  ⟨Stable.readExact n, Shifts.readExact hn⟩

/-- A type whose decoder behaves. -/
def Streamed (α : Type) [Deserializable α] : Prop := Streams (Deserializable.deser (α := α))

theorem streamed_bool : Streamed Bool := Streams.bind (Streams.readExact (by decide)) fun _ => Streams.pure _

theorem streamed_u8 : Streamed UInt8 := Streams.bind (Streams.readExact (by decide)) fun _ => Streams.pure _

theorem streamed_u16 : Streamed UInt16 := Streams.bind (Streams.readExact (by decide)) fun _ => Streams.pure _

theorem streamed_u32 : Streamed UInt32 := Streams.bind (Streams.readExact (by decide)) fun _ => Streams.pure _

theorem streamed_f32 : Streamed F32 := Streams.bind (Streams.readExact (by decide)) fun _ => Streams.pure _

theorem streamed_u24 : Streamed U24 := Streams.bind (Streams.readExact (by decide)) fun _ => Streams.lift _

theorem streamed_u256 : Streamed U256 := Streams.bind (Streams.readExact (by decide)) fun _ => Streams.pure _

theorem streamed_str {max : Nat} : Streamed (Str0 max) := by
  refine Streams.bind streamed_u8 fun n => Streams.bind (Streams.nextBy ?_) fun b => ?_
  · have := n.toNat_lt; omega
  · split
    · exact Streams.lift _
    · exact Streams.fail _

theorem streamed_b0 {L : Type} [LengthType L] {max : Nat} (h : Streamed L)
    (hn : ∀ l : L, LengthType.toUsize l < 2 ^ 63) : Streamed (B0 L max) :=
  Streams.bind h fun l => Streams.bind (Streams.nextBy (hn l)) fun _ => Streams.lift _

theorem streamed_b8 {max : Nat} : Streamed (B0 UInt8 max) :=
  streamed_b0 streamed_u8 fun l => by
    have := l.toNat_lt
    show l.toNat < _
    omega

theorem streamed_b16 {max : Nat} : Streamed (B0 UInt16 max) :=
  streamed_b0 streamed_u16 fun l => by
    have := l.toNat_lt
    show l.toNat < _
    omega

theorem streamed_b24 {max : Nat} : Streamed (B0 U24 max) :=
  streamed_b0 streamed_u24 fun l => by
    have := l.val.toNat_lt
    show l.val.toNat < _
    omega

theorem streamed_flags {all : UInt32} : Streamed (Flags all) := by
  refine Streams.bind streamed_u32 fun b => ?_
  split
  · exact Streams.pure _
  · exact Streams.fail _

theorem streamed_code [ErrorCode α] : Streams (ErrorCode.deser : ParseM α) :=
  Streams.bind streamed_str fun _ => Streams.lift _

theorem streamed_protocol : Streamed Protocol := Streams.bind streamed_u8 fun _ => Streams.lift _

theorem streamed_setupMsg {all : UInt32} : Streamed (SetupConnectionMsg all) :=
  Streams.bind streamed_u16 fun _ => Streams.bind streamed_u16 fun _ => Streams.bind streamed_flags fun _ =>
    Streams.bind streamed_str fun _ => Streams.bind streamed_u16 fun _ => Streams.bind streamed_str fun _ =>
    Streams.bind streamed_str fun _ => Streams.bind streamed_str fun _ => Streams.bind streamed_str fun _ =>
    Streams.lift _

theorem streamed_setupSuccess {all : UInt32} : Streamed (SetupConnectionSuccess all) :=
  Streams.bind streamed_u16 fun _ => Streams.bind streamed_flags fun _ => Streams.lift _

theorem streamed_setupError {all : UInt32} : Streamed (SetupConnectionError all) :=
  Streams.bind streamed_flags fun _ => Streams.bind streamed_code fun _ => Streams.lift _

theorem streamed_setupConnection : Streamed SetupConnection := by
  refine Streams.bind streamed_protocol fun pr => ?_
  split
  · exact Streams.bind streamed_setupMsg fun _ => Streams.pure _
  · exact Streams.bind streamed_setupMsg fun _ => Streams.pure _
  · exact Streams.fail _

theorem streamed_channelEndpointChanged : Streamed ChannelEndpointChanged :=
  Streams.bind streamed_u32 fun _ => Streams.lift _

theorem streamed_openStandard : Streamed OpenStandardMiningChannel :=
  Streams.bind streamed_u32 fun _ => Streams.bind streamed_str fun _ => Streams.bind streamed_f32 fun _ =>
    Streams.bind streamed_u256 fun _ => Streams.lift _

theorem streamed_openStandardSuccess : Streamed OpenStandardMiningChannelSuccess :=
  Streams.bind streamed_u32 fun _ => Streams.bind streamed_u32 fun _ => Streams.bind streamed_u256 fun _ =>
    Streams.bind streamed_b8 fun _ => Streams.bind streamed_u32 fun _ => Streams.lift _

theorem streamed_openExtended : Streamed OpenExtendedMiningChannel :=
  Streams.bind streamed_u32 fun _ => Streams.bind streamed_str fun _ => Streams.bind streamed_f32 fun _ =>
    Streams.bind streamed_u256 fun _ => Streams.bind streamed_u16 fun _ => Streams.lift _

theorem streamed_openExtendedSuccess : Streamed OpenExtendedMiningChannelSuccess :=
  Streams.bind streamed_u32 fun _ => Streams.bind streamed_u32 fun _ => Streams.bind streamed_u256 fun _ =>
    Streams.bind streamed_u16 fun _ => Streams.bind streamed_b8 fun _ => Streams.lift _

theorem streamed_openError {k : ChannelKind} : Streamed (OpenMiningChannelError k) :=
  Streams.bind streamed_u32 fun _ => Streams.bind streamed_code fun _ => Streams.lift _

theorem streamed_updateChannel : Streamed UpdateChannel :=
  Streams.bind streamed_u32 fun _ => Streams.bind streamed_f32 fun _ => Streams.bind streamed_u256 fun _ =>
    Streams.lift _

theorem streamed_message : Streamed Message := by
  unfold Streamed
  rw [message_deser]
  refine Streams.bind streamed_u16 fun _ => Streams.bind streamed_u8 fun _ => Streams.bind (Streams.lift _) fun _ => ?_
  split
  · exact Streams.fail _
  · refine Streams.bind streamed_u24 fun l => Streams.bind (Streams.nextBy ?_) fun _ => Streams.pure _
    have := l.val.toNat_lt
    omega

theorem streamed_signature {E : SigScheme} : Streamed (Signature E) := by
  refine Streams.bind (Streams.nextBy (by decide)) fun b => ?_
  split
  · exact Streams.fail _
  · split
    · exact Streams.pure _
    · exact Streams.panic

theorem streamed_signatureNoiseMessage {E : SigScheme} : Streamed (SignatureNoiseMessage E) :=
  Streams.bind streamed_u16 fun _ => Streams.bind streamed_u32 fun _ => Streams.bind streamed_u32 fun _ =>
    Streams.bind streamed_signature fun _ => Streams.pure _

theorem Streamed.final [Deserializable α] (h : Streamed α) : Final α := Stable.final (Streams.stable h)

theorem Streamed.positionFree [Deserializable α] (h : Streamed α) : PositionFree α :=
  Shifts.positionFree (Streams.shifts h)

/-! ## How much a decoder asks for -/

/-- At most `n` bytes are used, and `n` bytes are enough for an answer. -/
def Asks (d : ParseM α) (n : Nat) : Prop :=
  ∀ p : ByteParser, p.Valid → (∃ k, k ≤ n ∧ k ≤ p.rest.length ∧ (d p).2 = p.adv k) ∧
    (n ≤ p.rest.length → ¬ TooShort (d p).1)

theorem Asks.pure (a : α) : Asks (pure a) 0 :=
  fun _ _ => ⟨⟨0, Nat.le_refl _, Nat.zero_le _, rfl⟩, fun _ => not_tooShort_ok a⟩

theorem Asks.fail {e : Error} (h : ∀ msg, e ≠ .parseError msg) (n : Nat) : Asks (SM.fail e : ParseM α) n :=
  fun _ _ => ⟨⟨0, Nat.zero_le _, Nat.zero_le _, rfl⟩, fun _ => by
    rintro ⟨msg, hm⟩
    cases hm
    exact h msg rfl⟩

theorem Asks.panic : Asks (SM.panic : ParseM α) 0 :=
  fun _ _ => ⟨⟨0, Nat.le_refl _, Nat.zero_le _, rfl⟩, fun _ => not_tooShort_panic⟩

theorem Asks.lift {o : Result α} (h : ¬ TooShort o) : Asks (SM.lift o) 0 :=
  fun _ _ => ⟨⟨0, Nat.le_refl _, Nat.zero_le _, rfl⟩, fun _ => h⟩

theorem Asks.mono {d : ParseM α} {m n : Nat} (h : Asks d m) (hn : m ≤ n) : Asks d n := by
  intro p hv
  obtain ⟨⟨k, h1, h2, h3⟩, h4⟩ := h p hv
  exact ⟨⟨k, by omega, h2, h3⟩, fun h => h4 (by omega)⟩

theorem Asks.bind {d : ParseM α} {f : α → ParseM β} {m n : Nat} (h1 : Asks d m) (h2 : ∀ a, Asks (f a) n) :
    Asks (d >>= f) (m + n) := by
  intro p hv
  obtain ⟨⟨k, e1, e2, e3⟩, e4⟩ := h1 p hv
  rw [SM.bind_run]
  rcases hd : d p with ⟨o, q⟩
  rw [hd] at e3 e4
  simp only at e3
  cases o with
  | ok a =>
    subst e3
    obtain ⟨⟨k', g1, g2, g3⟩, g4⟩ := h2 a (p.adv k) (hv.adv e2)
    rw [ByteParser.rest_adv, List.length_drop] at g2 g4
    refine ⟨⟨k + k', by omega, by omega, ?_⟩, fun h => g4 (by omega)⟩
    simp only [g3, ByteParser.adv_adv]
  | err e =>
    refine ⟨⟨k, by omega, e2, e3⟩, fun h => ?_⟩
    rintro ⟨msg, hm⟩
    cases hm
    exact e4 (by omega) ⟨msg, rfl⟩
  | panic => exact ⟨⟨k, by omega, e2, e3⟩, fun _ => not_tooShort_panic⟩

theorem Asks.nextBy {n : Nat} (hn : n < 2 ^ 63) : Asks (ByteParser.nextBy n) n := by
  intro p hv
  by_cases h : n ≤ p.rest.length
  · rw [nextBy_ok hv h]
    exact ⟨⟨n, Nat.le_refl _, h, rfl⟩, fun _ => not_tooShort_ok _⟩
  · rw [nextBy_err hv (by omega) hn]
    exact ⟨⟨0, Nat.zero_le _, Nat.zero_le _, rfl⟩, fun h' => absurd h' h⟩

theorem Asks.readExact {n : Nat} (hn : n < 2 ^ 63) : Asks (readExact n) n := by
  unfold SV2.readExact
  refine Asks.bind (n := 0) (Asks.nextBy hn) fun s => ?_
  split
  · exact Asks.pure _
  · exact Asks.panic

theorem Asks.deser [Deserializable α] {n : Nat} (h : Asks (Deserializable.deser (α := α)) n) : AsksAtMost α n := by
  intro bytes start hs hle
  have hv : ByteParser.Valid ⟨bytes, start⟩ := ⟨hle, hs⟩
  obtain ⟨⟨k, h1, _, h3⟩, h4⟩ := h _ hv
  rw [ByteParser.rest_length] at h4
  refine ⟨?_, fun h => h4 (by show n ≤ bytes.length - start; omega)⟩
  rw [h3]
  show start + k ≤ start + n
  omega

theorem not_tooShort_u24 (v : UInt32) : ¬ TooShort (U24.new v) := by
  rintro ⟨msg, h⟩
  unfold U24.new U24.tryFromUsize at h
  split at h <;> cases h

theorem not_tooShort_str {max : Nat} (s : String) : ¬ TooShort (Str0.new s : Result (Str0 max)) := by
  rintro ⟨msg, h⟩
  unfold Str0.new at h
  split at h <;> cases h

theorem not_tooShort_b0 {L : Type} [LengthType L] {max : Nat} (b : Bytes) :
    ¬ TooShort (B0.new b : Result (B0 L max)) := by
  rintro ⟨msg, h⟩
  unfold B0.new at h
  split at h
  · cases h
  · split at h <;> cases h

theorem not_tooShort_bind {o : Result α} {f : α → Result β} (h1 : ¬ TooShort o) (h2 : ∀ a, ¬ TooShort (f a)) :
    ¬ TooShort (o >>= f) := by
  cases o with
  | ok a => exact h2 a
  | err e =>
    rintro ⟨msg, h⟩
    cases h
    exact h1 ⟨msg, rfl⟩
  | panic => exact not_tooShort_panic

theorem not_tooShort_err {e : Error} (h : ∀ msg, e ≠ .parseError msg) : ¬ TooShort (.err e : Result α) := by
  rintro ⟨msg, hm⟩
  cases hm
  exact h msg rfl

theorem not_tooShort_messageType (e : UInt16) (m : UInt8) : ¬ TooShort (MessageType.new e m) := by
  rcases messageType_new_cases e m with ⟨t, h⟩ | h <;> rw [h]
  · exact not_tooShort_ok t
  · exact not_tooShort_err (by intro _ h; cases h)

theorem asks_bool : Asks (Deserializable.deser (α := Bool)) 1 :=
  Asks.bind (n := 0) (Asks.readExact (by decide)) fun _ => Asks.pure _

theorem asks_u8 : Asks (Deserializable.deser (α := UInt8)) 1 :=
  Asks.bind (n := 0) (Asks.readExact (by decide)) fun _ => Asks.pure _

theorem asks_u16 : Asks (Deserializable.deser (α := UInt16)) 2 :=
  Asks.bind (n := 0) (Asks.readExact (by decide)) fun _ => Asks.pure _

theorem asks_u32 : Asks (Deserializable.deser (α := UInt32)) 4 :=
  Asks.bind (n := 0) (Asks.readExact (by decide)) fun _ => Asks.pure _

theorem asks_f32 : Asks (Deserializable.deser (α := F32)) 4 :=
  Asks.bind (n := 0) (Asks.readExact (by decide)) fun _ => Asks.pure _

theorem asks_u24 : Asks (Deserializable.deser (α := U24)) 3 :=
  Asks.bind (n := 0) (Asks.readExact (by decide)) fun _ => Asks.lift (not_tooShort_u24 _)

theorem asks_u256 : Asks (Deserializable.deser (α := U256)) 32 :=
  Asks.bind (n := 0) (Asks.readExact (by decide)) fun _ => Asks.pure _

theorem asks_str {max : Nat} : Asks (Deserializable.deser (α := Str0 max)) 256 := by
  refine Asks.bind (m := 1) (n := 255) asks_u8 fun n => ?_
  have := n.toNat_lt
  refine (Asks.bind (n := 0) (Asks.nextBy (n := n.toNat) (by omega)) fun b => ?_).mono (by omega)
  split
  · exact Asks.lift (not_tooShort_str _)
  · exact Asks.fail (by intro _ h; cases h) 0

theorem asks_b8 {max : Nat} : Asks (Deserializable.deser (α := B0 UInt8 max)) 256 := by
  refine Asks.bind (m := 1) (n := 255) asks_u8 fun n => ?_
  have := n.toNat_lt
  exact (Asks.bind (n := 0) (Asks.nextBy (n := n.toNat) (by omega)) fun b =>
    Asks.lift (not_tooShort_b0 _)).mono (by omega)

theorem asks_b16 {max : Nat} : Asks (Deserializable.deser (α := B0 UInt16 max)) 65537 := by
  refine Asks.bind (m := 2) (n := 65535) asks_u16 fun n => ?_
  have := n.toNat_lt
  exact (Asks.bind (n := 0) (Asks.nextBy (n := n.toNat) (by omega)) fun b =>
    Asks.lift (not_tooShort_b0 _)).mono (by omega)

/-- The `U24` a decoder returns is below 2^24. -/
theorem Asks.bind_u24 {f : U24 → ParseM β} {n : Nat} (h2 : ∀ l : U24, l.val.toNat < 2 ^ 24 → Asks (f l) n) :
    Asks (Deserializable.deser (α := U24) >>= f) (3 + n) := by
  have key : Deserializable.deser (α := U24) >>= f =
      Deserializable.deser (α := U24) >>= fun l => if l.val.toNat < 2 ^ 24 then f l else SM.panic := by
    show (SV2.readExact 3 >>= fun s : Arr 3 => SM.lift (U24.new (UInt32.ofNat (fromLE (s.toList ++ [0]))))) >>= _ =
      (SV2.readExact 3 >>= fun s : Arr 3 => SM.lift (U24.new (UInt32.ofNat (fromLE (s.toList ++ [0]))))) >>= _
    rw [SM.bind_assoc', SM.bind_assoc']
    congr 1
    funext s
    unfold U24.new U24.tryFromUsize
    split
    · rfl
    · next h =>
      simp only [SM.lift_ok, SM.pure_bind']
      rw [if_pos]
      simp only [UInt32.toNat_ofNat']
      simp only [UInt32.toNat_ofNat'] at h
      omega
  rw [key]
  refine Asks.bind asks_u24 fun l => ?_
  split
  · next h => exact h2 l h
  · exact Asks.panic.mono (Nat.zero_le _)

theorem asks_b24 {max : Nat} : Asks (Deserializable.deser (α := B0 U24 max)) 16777218 := by
  refine Asks.bind_u24 (n := 16777215) fun l h => ?_
  exact (Asks.bind (n := 0) (Asks.nextBy (n := l.val.toNat) (by omega)) fun b =>
    Asks.lift (not_tooShort_b0 _)).mono (by omega)

theorem asks_flags {all : UInt32} : Asks (Deserializable.deser (α := Flags all)) 4 := by
  refine Asks.bind (n := 0) asks_u32 fun b => ?_
  split
  · exact Asks.pure _
  · exact Asks.fail (by intro _ h; cases h) 0

theorem asks_code [ErrorCode α] (h : ∀ s, ¬ TooShort (ErrorCode.fromStr s : Result α)) :
    Asks (ErrorCode.deser : ParseM α) 256 :=
  Asks.bind (n := 0) asks_str fun s => Asks.lift (h s.data)

theorem not_tooShort_ite {c : Prop} [Decidable c] {a : α} {r : Result α} (h : ¬ TooShort r) :
    ¬ TooShort (if c then .ok a else r) := by
  split
  · exact not_tooShort_ok a
  · exact h

theorem asks_setupCode : Asks (Deserializable.deser (α := SetupConnectionErrorCode)) 256 :=
  asks_code fun _ => not_tooShort_ite (not_tooShort_ite (not_tooShort_ite (not_tooShort_err (by intro _ h; cases h))))

theorem asks_openCode : Asks (Deserializable.deser (α := OpenMiningChannelErrorCode)) 256 :=
  asks_code fun _ => not_tooShort_ite (not_tooShort_ite (not_tooShort_err (by intro _ h; cases h)))

theorem asks_protocol : Asks (Deserializable.deser (α := Protocol)) 1 :=
  Asks.bind (n := 0) asks_u8 fun _ => Asks.lift (not_tooShort_ite (not_tooShort_ite (not_tooShort_ite
    (not_tooShort_ite (not_tooShort_err (by intro _ h; cases h))))))

theorem not_tooShort_setup {all : UInt32} (a b : UInt16) (f : Flags all) (h : String) (p : UInt16)
    (v hw fw d : String) : ¬ TooShort (SetupConnectionMsg.new a b f h p v hw fw d) := by
  unfold SetupConnectionMsg.new
  split
  · exact not_tooShort_err (by intro _ h; cases h)
  split
  · exact not_tooShort_err (by intro _ h; cases h)
  split
  · exact not_tooShort_err (by intro _ h; cases h)
  split
  · exact not_tooShort_err (by intro _ h; cases h)
  exact not_tooShort_bind (not_tooShort_str _) fun _ => not_tooShort_bind (not_tooShort_str _) fun _ =>
    not_tooShort_bind (not_tooShort_str _) fun _ => not_tooShort_bind (not_tooShort_str _) fun _ =>
    not_tooShort_bind (not_tooShort_str _) fun _ => not_tooShort_ok _

theorem asks_setupMsg {all : UInt32} : Asks (Deserializable.deser (α := SetupConnectionMsg all)) 1290 :=
  (Asks.bind asks_u16 fun _ => Asks.bind asks_u16 fun _ => Asks.bind asks_flags fun _ =>
    Asks.bind asks_str fun _ => Asks.bind asks_u16 fun _ => Asks.bind asks_str fun _ =>
    Asks.bind asks_str fun _ => Asks.bind asks_str fun _ => Asks.bind asks_str fun _ =>
    Asks.lift (not_tooShort_setup _ _ _ _ _ _ _ _ _)).mono (by decide)

theorem asks_setupSuccess {all : UInt32} : Asks (Deserializable.deser (α := SetupConnectionSuccess all)) 6 :=
  (Asks.bind asks_u16 fun _ => Asks.bind asks_flags fun _ => Asks.lift (not_tooShort_ok _)).mono (by decide)

theorem asks_setupError {all : UInt32} : Asks (Deserializable.deser (α := SetupConnectionError all)) 260 := by
  refine (Asks.bind asks_flags fun f => Asks.bind asks_setupCode fun c => Asks.lift ?_).mono (by decide)
  unfold SetupConnectionError.new
  split
  · exact not_tooShort_err (by intro _ h; cases h)
  · exact not_tooShort_ok _

theorem asks_setupConnection : Asks (Deserializable.deser (α := SetupConnection)) 1291 := by
  refine (Asks.bind (n := 1290) asks_protocol fun pr => ?_).mono (by decide)
  split
  · exact Asks.bind (n := 0) asks_setupMsg fun _ => Asks.pure _
  · exact Asks.bind (n := 0) asks_setupMsg fun _ => Asks.pure _
  · exact Asks.fail (by intro _ h; cases h) _

theorem asks_channelEndpointChanged : Asks (Deserializable.deser (α := ChannelEndpointChanged)) 4 :=
  Asks.bind (n := 0) asks_u32 fun _ => Asks.lift (not_tooShort_ok _)

theorem asks_openStandard : Asks (Deserializable.deser (α := OpenStandardMiningChannel)) 296 :=
  (Asks.bind asks_u32 fun _ => Asks.bind asks_str fun _ => Asks.bind asks_f32 fun _ =>
    Asks.bind asks_u256 fun _ => Asks.lift (not_tooShort_bind (not_tooShort_str _) fun _ =>
      not_tooShort_ok _)).mono (by decide)

theorem asks_openStandardSuccess : Asks (Deserializable.deser (α := OpenStandardMiningChannelSuccess)) 300 :=
  (Asks.bind asks_u32 fun _ => Asks.bind asks_u32 fun _ => Asks.bind asks_u256 fun _ =>
    Asks.bind asks_b8 fun _ => Asks.bind asks_u32 fun _ => Asks.lift (not_tooShort_bind (not_tooShort_b0 _) fun _ =>
      not_tooShort_ok _)).mono (by decide)

theorem asks_openExtended : Asks (Deserializable.deser (α := OpenExtendedMiningChannel)) 298 :=
  (Asks.bind asks_u32 fun _ => Asks.bind asks_str fun _ => Asks.bind asks_f32 fun _ =>
    Asks.bind asks_u256 fun _ => Asks.bind asks_u16 fun _ => Asks.lift (not_tooShort_bind (not_tooShort_str _) fun _ =>
      not_tooShort_ok _)).mono (by decide)

theorem asks_openExtendedSuccess : Asks (Deserializable.deser (α := OpenExtendedMiningChannelSuccess)) 298 :=
  (Asks.bind asks_u32 fun _ => Asks.bind asks_u32 fun _ => Asks.bind asks_u256 fun _ =>
    Asks.bind asks_u16 fun _ => Asks.bind asks_b8 fun _ => Asks.lift (not_tooShort_bind (not_tooShort_b0 _) fun _ =>
      not_tooShort_ok _)).mono (by decide)

theorem asks_openError {k : ChannelKind} : Asks (Deserializable.deser (α := OpenMiningChannelError k)) 260 :=
  (Asks.bind asks_u32 fun _ => Asks.bind asks_openCode fun _ => Asks.lift (not_tooShort_ok _)).mono (by decide)

theorem asks_updateChannel : Asks (Deserializable.deser (α := UpdateChannel)) 40 :=
  (Asks.bind asks_u32 fun _ => Asks.bind asks_f32 fun _ => Asks.bind asks_u256 fun _ =>
    Asks.lift (not_tooShort_ok _)).mono (by decide)

theorem asks_message : Asks (Deserializable.deser (α := Message)) 16777221 := by
  rw [message_deser]
  refine (Asks.bind (n := 16777219) asks_u16 fun _ => Asks.bind (n := 16777218) asks_u8 fun _ =>
    Asks.bind (m := 0) (n := 16777218) (Asks.lift (not_tooShort_messageType _ _)) fun _ => ?_).mono (by decide)
  split
  · exact Asks.fail (by intro _ h; cases h) _
  · refine Asks.bind_u24 (n := 16777215) fun l h => ?_
    exact (Asks.bind (n := 0) (Asks.nextBy (n := l.val.toNat) (by omega)) fun b => Asks.pure _).mono (by omega)

theorem asks_signatureNoiseMessage {E : SigScheme} : Asks (Deserializable.deser (α := SignatureNoiseMessage E)) 74 := by
  refine (Asks.bind asks_u16 fun _ => Asks.bind asks_u32 fun _ => Asks.bind asks_u32 fun _ =>
    Asks.bind (n := 0) (Asks.bind (m := 64) (n := 0) (Asks.nextBy (by decide)) fun b => ?_) fun _ =>
      Asks.pure _).mono (by decide)
  split
  · exact Asks.fail (by intro _ h; cases h) _
  · split
    · exact Asks.pure _
    · exact Asks.panic

end SV2
