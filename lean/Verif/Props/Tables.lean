import Verif.Model.Tables
import Verif.Props.Types
/-!
# C74: the table macros and the sized-type macros for any arguments
-/

namespace SV2.Tables
open Law

set_option linter.unusedSectionVars false
set_option maxRecDepth 10000

variable {V : Type} [DecidableEq V]

/-! ## Error codes -/

/-- Each variant stands in one row. -/
def CodeDecl.OneRow (d : CodeDecl V) : Prop := ∀ r ∈ d.rows, ∀ r' ∈ d.rows, r.1 = r'.1 → r.2 = r'.2

/-- No two variants share a string. -/
def CodeDecl.Distinct (d : CodeDecl V) : Prop := ∀ r ∈ d.rows, ∀ r' ∈ d.rows, r.2 = r'.2 → r.1 = r'.1

/-- The length of each string fits in the length byte. -/
def CodeDecl.Short (d : CodeDecl V) : Prop := ∀ r ∈ d.rows, r.2.utf8ByteSize ≤ 255

/-- common/setup_connection_error_code.rs:20-25. -/
def setupDecl : CodeDecl SetupConnectionErrorCode where
  rows := [(.unsupportedFeatureFlags, "unsupported-feature-flags"), (.unsupportedProtocol, "unsupported-protocol"),
    (.protocolVersionMismatch, "protocol-version-mismatch")]
  exhaustive v := by cases v <;> exact ⟨_, by first | exact .head _ | exact .tail _ (.head _) | exact .tail _ (.tail _ (.head _))⟩
  inMemory := by decide +kernel

/-- mining/open_mining_channel_error.rs:13-18. -/
def openDecl : CodeDecl OpenMiningChannelErrorCode where
  rows := [(.unknownUser, "unknown-user"), (.maxTargetOutOfRange, "max-target-out-of-range")]
  exhaustive v := by cases v <;> exact ⟨_, by first | exact .head _ | exact .tail _ (.head _) | exact .tail _ (.tail _ (.head _))⟩
  inMemory := by decide +kernel

theorem toStr_mem (d : CodeDecl V) (v : V) : (v, toStr d v) ∈ d.rows := by
  unfold toStr
  cases h : d.rows.find? (fun row => row.1 = v) with
  | some row =>
    have h1 := List.find?_some h
    have h2 := List.mem_of_find?_eq_some h
    simp only [decide_eq_true_eq] at h1
    subst h1
    exact h2
  | none =>
    obtain ⟨s, hs⟩ := d.exhaustive v
    have := List.find?_eq_none.mp h _ hs
    simp at this

theorem fromStr_mem {d : CodeDecl V} {s : String} {c : Code d} (h : fromStr d s = .ok c) :
    (c.variant, s) ∈ d.rows := by
  unfold fromStr at h
  cases hf : d.rows.find? (fun row => row.2 = s) with
  | some row =>
    rw [hf] at h
    cases h
    have h1 := List.find?_some hf
    have h2 := List.mem_of_find?_eq_some hf
    simp only [decide_eq_true_eq] at h1
    subst h1
    exact h2
  | none => rw [hf] at h; cases h

theorem fromStr_ok {d : CodeDecl V} {s : String} {v : V} (h : (v, s) ∈ d.rows) : ∃ c, fromStr d s = .ok c := by
  unfold fromStr
  cases hf : d.rows.find? (fun row => row.2 = s) with
  | some row => exact ⟨_, rfl⟩
  | none =>
    have := List.find?_eq_none.mp hf _ h
    simp at this

theorem fromStr_unknown {d : CodeDecl V} {s : String} (h : ∀ v, (v, s) ∉ d.rows) :
    fromStr d s = .err .unknownErrorCode := by
  unfold fromStr
  cases hf : d.rows.find? (fun row => row.2 = s) with
  | some row =>
    have h1 := List.find?_some hf
    have h2 := List.mem_of_find?_eq_some hf
    simp only [decide_eq_true_eq] at h1
    subst h1
    exact absurd h2 (h _)
  | none => rfl

theorem fromStr_ne_panic (d : CodeDecl V) (s : String) : fromStr d s ≠ .panic := by
  unfold fromStr
  split <;> simp

/-- The two error code enums of the library are expansions: the same bytes and count for every writer, the same path of
the decoder on every input. -/
theorem C74_expansions :
    (∀ (σ : Type) (w : Writer σ) (c : SetupConnectionErrorCode),
      Serializable.ser w c = Serializable.ser w (⟨c⟩ : Code setupDecl)) ∧
    (Deserializable.deser (α := SetupConnectionErrorCode) = do
      let c ← Deserializable.deser (α := Code setupDecl)
      pure c.variant) ∧
    (∀ (σ : Type) (w : Writer σ) (c : OpenMiningChannelErrorCode),
      Serializable.ser w c = Serializable.ser w (⟨c⟩ : Code openDecl)) ∧
    (Deserializable.deser (α := OpenMiningChannelErrorCode) = do
      let c ← Deserializable.deser (α := Code openDecl)
      pure c.variant) := by
  have run : ∀ {α : Type} [ErrorCode α] (d : CodeDecl α) [DecidableEq α],
      (∀ s, (ErrorCode.fromStr s : Result α) = (fromStr d s).bind fun c => .ok c.variant) →
      ErrorCode.deser (α := α) = (do
        let c ← ErrorCode.deser (α := Code d)
        pure c.variant) := by
    intro α _ d _ h
    unfold ErrorCode.deser
    rw [SM.bind_assoc']
    congr 1
    funext x
    rw [h]
    show _ = SM.lift (fromStr d x.data) >>= _
    cases fromStr d x.data <;> rfl
  refine ⟨?_, ?_, ?_, ?_⟩
  · intro σ w c; cases c <;> rfl
  · refine run setupDecl fun s => ?_
    simp only [ErrorCode.fromStr, fromStr, setupDecl]
    by_cases h1 : s = "unsupported-feature-flags"
    · subst h1; rfl
    · by_cases h2 : s = "unsupported-protocol"
      · subst h2; rfl
      · by_cases h3 : s = "protocol-version-mismatch"
        · subst h3; rfl
        · simp [h1, h2, h3, List.find?, Ne.symm h1, Ne.symm h2, Ne.symm h3, Out.bind]
  · intro σ w c; cases c <;> rfl
  · refine run openDecl fun s => ?_
    simp only [ErrorCode.fromStr, fromStr, openDecl]
    by_cases h1 : s = "unknown-user"
    · subst h1; rfl
    · by_cases h2 : s = "max-target-out-of-range"
      · subst h2; rfl
      · simp [h1, h2, List.find?, Ne.symm h1, Ne.symm h2, Out.bind]

/-- Whatever the table, a code is written as the length of its string modulo 256 in one byte, then the whole string. -/
theorem C74_written (d : CodeDecl V) (c : Code d) :
    ∃ s, (c.variant, s) ∈ d.rows ∧
      serialize c = .ok (UInt8.ofNat (s.utf8ByteSize % 256) :: s.toByteArray.data.toList) ∧
      ∀ buf, (Serializable.ser vecWriter c buf).1 = .ok (1 + s.utf8ByteSize % 256) := by
  have h256 : ∀ n : Nat, UInt8.ofNat (n % 256) = UInt8.ofNat n := by
    intro n
    apply UInt8.toNat_inj.mp
    simp
  refine ⟨_, toStr_mem d c.variant, ?_, ?_⟩
  · rw [h256, ← strBytes_length]
    simp only [serialize, Serializable.ser, ErrorCode.ser, ErrorCode.toStr0, ErrorCode.toStr, writeBuf, SM.bind_run,
      vecWriter_write, toLE]
    simp [strBytes, Pure.pure]
    exact h256 _
  · intro buf
    simp only [Serializable.ser, ErrorCode.ser, ErrorCode.toStr0, ErrorCode.toStr, writeBuf, SM.bind_run,
      vecWriter_write, toLE]
    simp [strBytes_length, Pure.pure]

theorem lawfulCode {d : CodeDecl V} (h1 : d.OneRow) (h2 : d.Distinct) (h3 : d.Short) :
    LawfulCode (Code d) (fun c => toStr d c.variant) := by
  refine ⟨fun _ => rfl, fun c => h3 _ (toStr_mem d _), ?_, ?_, fromStr_ne_panic d⟩
  · intro c
    obtain ⟨c', hc⟩ := fromStr_ok (toStr_mem d c.variant)
    have := h2 _ (toStr_mem d c.variant) _ (fromStr_mem hc) rfl
    cases c; cases c'
    simp only at this
    subst this
    exact hc
  · intro s c hs
    exact h1 _ (fromStr_mem hs) _ (toStr_mem d _) rfl

theorem lawful {d : CodeDecl V} (h1 : d.OneRow) (h2 : d.Distinct) (h3 : d.Short) :
    Lawful (Code d) (fun _ => True) (fun c => Wire.str (toStr d c.variant)) :=
  have h := lawfulCode h1 h2 h3
  ⟨fun c _ => code_emits h c, fun c _ => code_reads h c, fun c _ => code_rejects h c, code_inverts h, code_safe h⟩

/-- A table with one row for each variant: every code comes back from its bytes exactly when the strings are distinct and
at most 255 bytes long.  Then the codec also counts its bytes, is canonical and refuses cut-off input. -/
theorem C74_roundtrip_iff {d : CodeDecl V} (h1 : d.OneRow) :
    ((∀ c : Code d, ∃ e, RoundTrips c e) ↔ d.Distinct ∧ d.Short) ∧
    (d.Distinct → d.Short → Canonical (Code d) ∧
      ∀ c : Code d, CountsBytes c ∧ RejectsTruncated c ∧ ∀ s, (c.variant, s) ∈ d.rows → RoundTrips c (Wire.str s)) := by
  have hstr : ∀ (c : Code d) s, (c.variant, s) ∈ d.rows → s = toStr d c.variant :=
    fun c s hs => h1 _ hs _ (toStr_mem d _) rfl
  refine ⟨⟨?_, ?_⟩, ?_⟩
  · intro h
    -- what a code's bytes decode to
    have key : ∀ v s, (v, s) ∈ d.rows → s.utf8ByteSize ≤ 255 ∧ fromStr d s = .ok ⟨v⟩ := by
      intro v s hs
      obtain ⟨e, he, hd, _⟩ := h ⟨v⟩
      obtain ⟨s', hs', hw, _⟩ := C74_written d ⟨v⟩
      have : s' = s := h1 _ hs' _ hs rfl
      subst this
      rw [hw] at he
      cases he
      have hlen : (s'.toByteArray.data.toList).length = s'.utf8ByteSize := strBytes_length s'
      have hsl : IsSlice (UInt8.ofNat (s'.utf8ByteSize % 256) :: s'.toByteArray.data.toList) := by
        have := d.inMemory _ hs
        simp only [IsSlice, List.length_cons, hlen]
        exact this
      have hd := hd [] (by simpa using hsl)
      rw [List.append_nil] at hd
      have hn : (UInt8.ofNat (s'.utf8ByteSize % 256)).toNat = s'.utf8ByteSize % 256 := by simp
      obtain ⟨_, d2, _, d4⟩ := C04_decode (max := 255) _ _ hsl
      rw [hn, hlen] at d2 d4
      have hle : s'.utf8ByteSize % 256 ≤ s'.utf8ByteSize := Nat.mod_le _ _
      -- the string read by the decoder
      have hd' : ((do
          let x ← Deserializable.deser (α := STR0_255)
          SM.lift (fromStr d x.data) : ParseM (Code d))
          ⟨UInt8.ofNat (s'.utf8ByteSize % 256) :: s'.toByteArray.data.toList, 0⟩).1 = .ok ⟨v⟩ := hd
      rw [SM.bind_run] at hd'
      by_cases hu : ∃ t : String, t.toByteArray.data.toList = s'.toByteArray.data.toList.take (s'.utf8ByteSize % 256)
      · obtain ⟨t, ht⟩ := hu
        have h4 := d4 t hle ht (by omega)
        have h4' : (Deserializable.deser (α := STR0_255)
            ⟨UInt8.ofNat (s'.utf8ByteSize % 256) :: s'.toByteArray.data.toList, 0⟩).1 =
              .ok ⟨UInt8.ofNat (s'.utf8ByteSize % 256), t⟩ := h4
        revert hd' h4'
        cases Deserializable.deser (α := STR0_255)
            ⟨UInt8.ofNat (s'.utf8ByteSize % 256) :: s'.toByteArray.data.toList, 0⟩ with
        | mk o p =>
          intro hd' h4'
          simp only at h4'
          subst h4'
          have hf : fromStr d t = .ok ⟨v⟩ := hd'
          have : t = s' := h1 _ (fromStr_mem hf) _ hs rfl
          subst this
          refine ⟨?_, hf⟩
          have := congrArg List.length ht
          rw [List.length_take, hlen] at this
          omega
      · have h2 := d2 hle hu
        have h2' : (Deserializable.deser (α := STR0_255)
            ⟨UInt8.ofNat (s'.utf8ByteSize % 256) :: s'.toByteArray.data.toList, 0⟩).1 =
              .err .fromUtf8Error := h2
        revert hd' h2'
        cases Deserializable.deser (α := STR0_255)
            ⟨UInt8.ofNat (s'.utf8ByteSize % 256) :: s'.toByteArray.data.toList, 0⟩ with
        | mk o p =>
          intro hd' h2'
          simp only at h2'
          subst h2'
          cases hd'
    refine ⟨?_, fun r hr => (key r.1 r.2 hr).1⟩
    intro r hr r' hr' hrr
    have h1 := (key r.1 r.2 hr).2
    rw [hrr, (key r'.1 r'.2 hr').2] at h1
    simp only [Out.ok.injEq, Code.mk.injEq] at h1
    exact h1.symm
  · rintro ⟨h2, h3⟩ c
    exact ⟨_, (lawful h1 h2 h3).roundTrips c trivial⟩
  · intro h2 h3
    have hl := lawful h1 h2 h3
    refine ⟨hl.canonical, fun c => ⟨hl.countsBytes c trivial, hl.rejectsTruncated c trivial ?_, ?_⟩⟩
    · have := d.inMemory _ (toStr_mem d c.variant)
      simp only [IsSlice, Wire.str, List.length_cons]
      rw [show (toStr d c.variant).toByteArray.data.toList.length = _ from strBytes_length _]
      exact this
    · intro s hs
      rw [hstr c s hs]
      exact hl.roundTrips c trivial

/-- Whatever the table: the decoder never panics, what it accepts stands in the table, and a string that is not in the
table is refused as an unknown code. -/
theorem C74_decoder (d : CodeDecl V) :
    NeverPanics (Code d) ∧
    (∀ bytes (c : Code d), IsSlice bytes → deserialize (Code d) bytes = .ok c →
      ∃ s rest, (c.variant, s) ∈ d.rows ∧ bytes = Wire.str s ++ rest) ∧
    ∀ (s : String) (rest : Bytes), (∀ v, (v, s) ∉ d.rows) → s.utf8ByteSize ≤ 255 → IsSlice (Wire.str s ++ rest) →
      deserialize (Code d) (Wire.str s ++ rest) = .err .unknownErrorCode := by
  have hstr := lawful_str (max := 255) (by decide)
  refine ⟨?_, ?_, ?_⟩
  · refine Safe.neverPanics (α := Code d) ?_
    exact Safe.bind hstr.safe fun s => Safe.lift (fromStr_ne_panic d s.data)
  · intro bytes c hs h
    have hi : Inverts (Deserializable.deser (α := Code d)) (fun c e => ∃ s, (c.variant, s) ∈ d.rows ∧ e = Wire.str s) := by
      refine (Inverts.bind hstr.inverts (fun s => Inverts.lift _)).mono ?_
      rintro c e ⟨s, e1, e2, rfl, ⟨_, rfl⟩, hc, rfl⟩
      exact ⟨_, fromStr_mem hc, by simp⟩
    obtain ⟨e, rest, h1, ⟨s, h2, rfl⟩⟩ := hi.deserialize hs h
    exact ⟨s, rest, h2, h1⟩
  · intro s rest h hlen hs
    have hr := (C04_roundtrip (max := 255) (by decide) s _ (Str0.new_ok hlen)).2.1 rest hs
    have hr' : (Deserializable.deser (α := STR0_255) ⟨Wire.str s ++ rest, 0⟩).1 = .ok _ := hr
    show ((do
          let x ← Deserializable.deser (α := STR0_255)
          SM.lift (fromStr d x.data) : ParseM (Code d)) ⟨Wire.str s ++ rest, 0⟩).1 = _
    rw [SM.bind_run]
    revert hr'
    cases Deserializable.deser (α := STR0_255) ⟨Wire.str s ++ rest, 0⟩ with
    | mk o p =>
      intro hr'
      simp only at hr'
      subst hr'
      exact fromStr_unknown h

/-- The library's two tables meet the conditions. -/
theorem C74_library_tables : (setupDecl.OneRow ∧ setupDecl.Distinct ∧ setupDecl.Short) ∧
    (openDecl.OneRow ∧ openDecl.Distinct ∧ openDecl.Short) := by
  unfold CodeDecl.OneRow CodeDecl.Distinct CodeDecl.Short
  decide +kernel

/-- A table whose first string has 257 bytes. -/
def longDecl : CodeDecl Bool where
  rows := [(false, String.ofList (List.replicate 257 'x')), (true, "x")]
  exhaustive v := by cases v <;> exact ⟨_, by first | exact .head _ | exact .tail _ (.head _) | exact .tail _ (.tail _ (.head _))⟩
  inMemory := by decide +kernel

/-- A string longer than 255 bytes is accepted without an error and arrives as another code; the count returned is 2 for
258 bytes. -/
theorem C74_long_string_confused :
    ∃ e, serialize (⟨false⟩ : Code longDecl) = .ok e ∧ e.length = 258 ∧
      deserialize (Code longDecl) e = .ok ⟨true⟩ ∧
      (Serializable.ser vecWriter (⟨false⟩ : Code longDecl) []).1 = .ok 2 := by
  refine ⟨_, rfl, ?_, ?_, ?_⟩ <;> decide +kernel

/-- A table with one string for two variants: the second comes back as the first. -/
def sameDecl : CodeDecl Bool where
  rows := [(false, "busy"), (true, "busy")]
  exhaustive v := by cases v <;> exact ⟨_, by first | exact .head _ | exact .tail _ (.head _) | exact .tail _ (.tail _ (.head _))⟩
  inMemory := by decide +kernel

theorem C74_shared_string_confused :
    ∃ e, serialize (⟨true⟩ : Code sameDecl) = .ok e ∧ deserialize (Code sameDecl) e = .ok ⟨false⟩ := by
  refine ⟨_, rfl, ?_⟩
  decide +kernel

example : longDecl.OneRow ∧ ¬ longDecl.Short ∧ sameDecl.OneRow ∧ ¬ sameDecl.Distinct := by
  unfold CodeDecl.OneRow CodeDecl.Distinct CodeDecl.Short
  decide +kernel

/-! ## `impl_sized_STR0!` and `impl_sized_B0!` with any bound -/

theorem str0_serialize {max : Nat} (x : Str0 max) : serialize x = .ok (x.length :: strBytes x.data) := by
  simp only [serialize, Serializable.ser, writeBuf, SM.bind_run, vecWriter_write, toLE]
  simp [Pure.pure]

/-- `impl_sized_STR0!` with bound `max`: every string its constructor accepts comes back exactly when `max` is at most
255.  The library uses 32 and 255. -/
theorem C74_str0_iff (max : Nat) :
    (∀ (s : String) (x : Str0 max), Str0.new s = .ok x → ∃ e, RoundTrips x e) ↔ max ≤ 255 := by
  constructor
  · intro h
    by_cases hm : max ≤ 255
    · exact hm
    · exfalso
      have hsize : (String.ofList (List.replicate 256 'x')).utf8ByteSize = 256 := by decide +kernel
      have hnew := Str0.new_ok (max := max) (s := String.ofList (List.replicate 256 'x')) (by omega)
      rw [hsize] at hnew
      obtain ⟨e, he, hd, _⟩ := h _ _ hnew
      have he' : e = 0 :: strBytes (String.ofList (List.replicate 256 'x')) := by
        rw [str0_serialize] at he
        simp only [Out.ok.injEq] at he
        rw [← he]
        rfl
      have hl := strBytes_length (String.ofList (List.replicate 256 'x'))
      have hsl : IsSlice e := by
        rw [he']
        simp only [IsSlice, List.length_cons, hl, hsize]
        omega
      have hd := hd [] (by simpa using hsl)
      rw [List.append_nil, he'] at hd
      rw [he'] at hsl
      have h4 := (C04_decode (max := max) 0 _ hsl).2.2.2 "" (by simp) (by simp) (by simp)
      rw [h4] at hd
      simp only [Out.ok.injEq, Str0.mk.injEq] at hd
      have := congrArg String.utf8ByteSize hd.2
      rw [hsize] at this
      exact absurd this (by decide)
  · intro hm s x hx
    exact ⟨_, C04_roundtrip hm s x hx⟩

/-- `impl_sized_B0!` with any bound: the constructor panics exactly on bytes that are within the bound but whose length
does not fit the length type. -/
theorem C74_b0_panics (max : Nat) (v : Bytes) :
    ((B0.new v : Result (B0 UInt8 max)) = .panic ↔ v.length ≤ max ∧ 255 < v.length) ∧
    ((B0.new v : Result (B0 UInt16 max)) = .panic ↔ v.length ≤ max ∧ 65535 < v.length) ∧
    ((B0.new v : Result (B0 U24 max)) = .panic ↔ v.length ≤ max ∧ 16777215 < v.length) := by
  have key : ∀ (L : Type) [LengthType L] (top : Nat),
      (∀ n, (LengthType.tryFromUsize n : Option L) = none ↔ top < n) →
      ((B0.new v : Result (B0 L max)) = .panic ↔ v.length ≤ max ∧ top < v.length) := by
    intro L _ top h
    simp only [B0.new]
    by_cases hm : v.length > max
    · rw [if_pos hm]
      constructor
      · intro h; cases h
      · rintro ⟨h1, _⟩; omega
    · rw [if_neg hm]
      cases ht : (LengthType.tryFromUsize v.length : Option L) with
      | none => exact ⟨fun _ => ⟨by omega, (h _).mp ht⟩, fun _ => rfl⟩
      | some l =>
        constructor
        · intro h; cases h
        · rintro ⟨_, h2⟩
          rw [(h _).mpr h2] at ht
          cases ht
  refine ⟨key _ 255 ?_, key _ 65535 ?_, key _ 16777215 ?_⟩ <;> intro n <;>
    simp only [LengthType.tryFromUsize, U24.tryFromUsize]
  · split <;> simp <;> omega
  · split <;> simp <;> omega
  · by_cases h : n > 2 ^ 24 - 1
    · rw [if_pos h]; simp; omega
    · rw [if_neg h]; simp; omega

/-- Decoding never panics, whatever the bound: the length read from the input fits the length type. -/
theorem C74_b0_decoder (max : Nat) :
    NeverPanics (B0 UInt8 max) ∧ NeverPanics (B0 UInt16 max) ∧ NeverPanics (B0 U24 max) ∧ NeverPanics (Str0 max) := by
  have key : ∀ (L : Type) [LengthType L] (top : Nat) (encL : Nat → Bytes), LawfulLength L top encL →
      NeverPanics (B0 L max) := by
    intro L _ top encL hL
    have htop := hL.top_lt
    refine Safe.neverPanics ?_
    refine Safe.bind' hL.codec.safe hL.codec.inverts ?_
    rintro l e ⟨hl, _⟩
    refine Safe.bind' (Safe.nextBy (by omega)) (Inverts.nextBy _) ?_
    rintro b e2 ⟨rfl, hb⟩
    refine Safe.lift ?_
    by_cases hm : b.length > max
    · rw [B0.new_err hm]; simp
    · obtain ⟨l', h1, _⟩ := hL.tryFrom b.length (by omega)
      simp only [B0.new]
      rw [if_neg hm, h1]
      simp
  refine ⟨key _ _ _ lawfulLength_u8, key _ _ _ lawfulLength_u16, key _ _ _ lawfulLength_u24, ?_⟩
  refine Safe.neverPanics ?_
  refine Safe.bind lawful_u8.safe fun n => ?_
  refine Safe.bind (Safe.nextBy (by have := n.toNat_lt; omega)) fun b => ?_
  cases fromUtf8 b with
  | none => exact Safe.fail _
  | some s => exact Safe.lift (Str0.new_ne_panic s)

example : (B0.new (List.replicate 256 0) : Result (B0 UInt8 300)) = .panic ∧
    (B0.new (List.replicate 255 0) : Result (B0 UInt8 300)).isOk = true := by decide +kernel

/-! ## Message types -/

/-- Each variant stands in one row. -/
def TypeDecl.OneRow (d : TypeDecl V) : Prop := ∀ r ∈ d.rows, ∀ r' ∈ d.rows, r.1 = r'.1 → r.2 = r'.2

/-- No two variants share an extension type and message type. -/
def TypeDecl.Distinct (d : TypeDecl V) : Prop :=
  ∀ r ∈ d.rows, ∀ r' ∈ d.rows, r.2.1 = r'.2.1 → r.2.2.1 = r'.2.2.1 → r.1 = r'.1

/-- types/message_type.rs:74-105. -/
def messageTypeDecl : TypeDecl MessageType where
  rows := [
    (.setupConnection, 0x0000, 0x00, false),
    (.setupConnectionSuccess, 0x0000, 0x01, false),
    (.setupConnectionError, 0x0000, 0x02, false),
    (.channelEndpointChanged, 0x0000, 0x03, true),
    (.openStandardMiningChannel, 0x0000, 0x10, false),
    (.openStandardMiningChannelSuccess, 0x0000, 0x11, false),
    (.openStandardMiningChannelError, 0x0000, 0x12, false),
    (.openExtendedMiningChannel, 0x0000, 0x13, false),
    (.openExtendedMiningChannelSuccess, 0x0000, 0x14, false),
    (.openExtendedMiningChannelError, 0x0000, 0x15, false),
    (.updateChannel, 0x0000, 0x16, true),
    (.updateChannelError, 0x0000, 0x17, true),
    (.closeChannel, 0x0000, 0x18, true),
    (.setExtranoncePrefix, 0x0000, 0x19, true),
    (.submitSharesStandard, 0x0000, 0x1a, true),
    (.submitSharesExtended, 0x0000, 0x1b, true),
    (.submitSharesSuccess, 0x0000, 0x1c, true),
    (.submitSharesError, 0x0000, 0x1d, true),
    (.newMiningJob, 0x0000, 0x1e, true),
    (.newExtendedMiningJob, 0x0000, 0x1f, true),
    (.setNewPrevHash, 0x0000, 0x20, true),
    (.setTarget, 0x0000, 0x21, true),
    (.setCustomMiningJob, 0x0000, 0x22, false),
    (.setCustomMiningJobSuccess, 0x0000, 0x23, false),
    (.setCustomMiningJobError, 0x0000, 0x24, false),
    (.reconnect, 0x0000, 0x25, false),
    (.setGroupChannel, 0x0000, 0x26, false),
    (.testMessage1, 0x0000, 0xfe, false),
    (.testMessage2, 0x0000, 0xff, true)]
  exhaustive v := by cases v <;> exact ⟨_, by simp; rfl⟩

theorem row_mem (d : TypeDecl V) (v : V) : (v, d.extType v, d.msgType v, d.channelBit v) ∈ d.rows := by
  show (v, d.row v) ∈ d.rows
  unfold TypeDecl.row
  cases h : d.rows.find? (fun row => row.1 = v) with
  | some row =>
    have h1 := List.find?_some h
    have h2 := List.mem_of_find?_eq_some h
    simp only [decide_eq_true_eq] at h1
    subst h1
    exact h2
  | none =>
    obtain ⟨s, hs⟩ := d.exhaustive v
    have := List.find?_eq_none.mp h _ hs
    simp at this

theorem new_mem {d : TypeDecl V} {e : UInt16} {m : UInt8} {v : V} (h : d.new e m = .ok v) :
    ∃ b, (v, e, m, b) ∈ d.rows := by
  unfold TypeDecl.new at h
  cases hf : d.rows.find? (fun row => row.2.1 = e ∧ row.2.2.1 = m) with
  | some row =>
    rw [hf] at h
    cases h
    have h1 := List.find?_some hf
    have h2 := List.mem_of_find?_eq_some hf
    simp only [decide_eq_true_eq] at h1
    obtain ⟨rfl, rfl⟩ := h1
    exact ⟨_, h2⟩
  | none => rw [hf] at h; cases h

theorem new_ok {d : TypeDecl V} {e : UInt16} {m : UInt8} {v : V} {b : Bool} (h : (v, e, m, b) ∈ d.rows) :
    ∃ v', d.new e m = .ok v' := by
  unfold TypeDecl.new
  cases hf : d.rows.find? (fun row => row.2.1 = e ∧ row.2.2.1 = m) with
  | some row => exact ⟨_, rfl⟩
  | none =>
    have := List.find?_eq_none.mp hf _ h
    simp at this

/-- `MessageType` is an expansion of the macro. -/
theorem C74_message_type_expansion :
    (∀ e m, MessageType.new e m = messageTypeDecl.new e m) ∧
    ∀ t, t.extType = messageTypeDecl.extType t ∧ t.msgType = messageTypeDecl.msgType t ∧
      t.channelBit = messageTypeDecl.channelBit t := by
  refine ⟨?_, fun t => by cases t <;> decide +kernel⟩
  have hE : ∀ e m, e ≠ 0 → MessageType.new e m = messageTypeDecl.new e m := by
    intro e m he
    simp [MessageType.new, TypeDecl.new, messageTypeDecl, he, Ne.symm he]
  have h0 : ∀ k : Fin 256, MessageType.new 0 (UInt8.ofNat k) = messageTypeDecl.new 0 (UInt8.ofNat k) := by
    decide +kernel
  intro e m
  by_cases he : e = 0
  · subst he
    have := h0 ⟨m.toNat, m.toNat_lt⟩
    simpa using this
  · exact hE e m he

/-- Any table with one row for each variant: the numbers of every variant lead back to it exactly when no two variants
share them. -/
theorem C74_message_types_iff {d : TypeDecl V} (h1 : d.OneRow) :
    ((∀ v, d.new (d.extType v) (d.msgType v) = .ok v) ↔ d.Distinct) ∧
    (∀ v e m b, (v, e, m, b) ∈ d.rows → d.extType v = e ∧ d.msgType v = m ∧ d.channelBit v = b) ∧
    (∀ e m v, d.new e m = .ok v → ∃ b, (v, e, m, b) ∈ d.rows) ∧
    ∀ e m, (∀ v b, (v, e, m, b) ∉ d.rows) → d.new e m = .err .unknownMessageType := by
  have hrow : ∀ v e m b, (v, e, m, b) ∈ d.rows → d.extType v = e ∧ d.msgType v = m ∧ d.channelBit v = b := by
    intro v e m b h
    have := h1 _ (row_mem d v) _ h rfl
    simp only [Prod.mk.injEq] at this
    exact this
  refine ⟨⟨?_, ?_⟩, hrow, fun e m v h => new_mem h, ?_⟩
  · rintro h ⟨v, e, m, b⟩ hr ⟨v', e', m', b'⟩ hr' h2 h3
    simp only at h2 h3
    subst h2 h3
    have e1 := h v
    have e2 := h v'
    rw [(hrow _ _ _ _ hr).1, (hrow _ _ _ _ hr).2.1] at e1
    rw [(hrow _ _ _ _ hr').1, (hrow _ _ _ _ hr').2.1, e1] at e2
    simpa using e2
  · intro h v
    obtain ⟨v', hv⟩ := new_ok (row_mem d v)
    obtain ⟨b, hb⟩ := new_mem hv
    rw [hv]
    have := h _ hb _ (row_mem d v) rfl rfl
    simp only at this
    rw [this]
  · intro e m h
    cases hn : d.new e m with
    | ok v =>
      obtain ⟨b, hb⟩ := new_mem hn
      exact absurd hb (h _ _)
    | err x =>
      unfold TypeDecl.new at hn
      split at hn
      · cases hn
      · cases hn; rfl
    | panic =>
      unfold TypeDecl.new at hn
      split at hn <;> cases hn

/-- The library's table meets the conditions. -/
theorem C74_message_type_table : messageTypeDecl.OneRow ∧ messageTypeDecl.Distinct := by
  unfold TypeDecl.OneRow TypeDecl.Distinct
  decide +kernel

/-- A table with the same numbers twice: the second variant's numbers lead to the first. -/
example : let d : TypeDecl Bool := ⟨[(false, 0, 7, true), (true, 0, 7, false)], fun v => by cases v <;> exact ⟨_, by simp; rfl⟩⟩
    d.OneRow ∧ ¬ d.Distinct ∧ d.new (d.extType true) (d.msgType true) = .ok false := by
  unfold TypeDecl.OneRow TypeDecl.Distinct
  decide +kernel

end SV2.Tables
