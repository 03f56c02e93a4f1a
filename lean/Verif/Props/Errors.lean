import Verif.Model.ErrorTrait
import Verif.Props.EncryptorHistory
import Std.Data.String.ToNat
/-!
# C63, C64: reporting errors
-/

namespace SV2

variable {F : Foreign}

/-- The error reached after following `source` `n` times. -/
def ErrorRef.follow : Nat → ErrorRef F → Option (ErrorRef F)
  | 0, r => some r
  | n + 1, r => r.source.bind (follow n)

/-- A loop `while let Some(s) = e.source()` ends. -/
def ErrorRef.Ends (r : ErrorRef F) : Prop := ∃ n, r.follow n = none

/-- **C63.** Following `source` from an error of the Noise crate returns that error again, for ever. -/
theorem C63_noise_endless (e : NoiseError) (x : F.Obj) (n : Nat) :
    (ErrorRef.noise e x).follow n = some (.noise e x) ∧
    (ErrorRef.lib (.noiseError e) x).follow (n + 1) = some (.noise e x) := by
  have h : ∀ n, (ErrorRef.noise e x).follow n = some (.noise e x) := by
    intro n
    induction n with
    | zero => rfl
    | succ n ih => exact ih
  exact ⟨h n, h n⟩

/-- **C63.** Those are the only errors with that defect: provided the error types of other crates have finite
chains, a chain ends exactly if it does not start from an error of the Noise crate. -/
theorem C63_ends_iff (hF : ∀ o : F.Obj, (ErrorRef.other o).Ends) (r : ErrorRef F) :
    r.Ends ↔ ¬ ((∃ e x, r = .noise e x) ∨ ∃ e x, r = .lib (.noiseError e) x) := by
  have hm : ∀ x : F.Obj, (∃ n, ((F.source x).map ErrorRef.other).bind (ErrorRef.follow n) = none) := by
    intro x
    obtain ⟨n, hn⟩ := hF x
    cases n with
    | zero => cases hn
    | succ n => exact ⟨n, hn⟩
  constructor
  · rintro ⟨n, hn⟩ (⟨e, x, rfl⟩ | ⟨e, x, rfl⟩)
    · rw [(C63_noise_endless e x n).1] at hn; cases hn
    · cases n with
      | zero => cases hn
      | succ n => rw [(C63_noise_endless e x n).2] at hn; cases hn
  · intro h
    match r with
    | .noise e x => exact absurd (.inl ⟨e, x, rfl⟩) h
    | .other o => exact hF o
    | .lib e x =>
      have : (∃ n, e = .noiseError n) ∨ (ErrorRef.lib e x).source = none ∨
          (ErrorRef.lib e x).source = (F.source x).map .other := by
        cases e <;> simp [ErrorRef.source]
      rcases this with ⟨n, rfl⟩ | hs | hs
      · exact absurd (.inr ⟨n, x, rfl⟩) h
      · exact ⟨1, by simp [ErrorRef.follow, hs]⟩
      · obtain ⟨n, hn⟩ := hm x
        exact ⟨n + 1, by rw [ErrorRef.follow, hs]; exact hn⟩

open Noise in
/-- **C63.** Every error that a connection encryptor returns has that defect. -/
theorem C63_encryptor (P : Prims) (c : ConnectionEncryptor) (rnd : Keypair) (bytes : Bytes) (e : Error)
    (h : (c.recvHandshake P rnd bytes).1 = .err e ∨ (c.initHandshake P rnd).1 = .err e) (x : F.Obj) :
    ¬ (ErrorRef.lib e x).Ends := by
  have : ∃ n, e = .noiseError n := by
    rcases h with h | h
    · unfold ConnectionEncryptor.recvHandshake at h
      split at h
      · simp only [Out.err.injEq] at h; exact ⟨_, h.symm⟩
      · cases h
      · split at h
        · simp only [Out.err.injEq] at h; exact ⟨_, h.symm⟩
        · cases h
        · cases h
    · unfold ConnectionEncryptor.initHandshake at h
      generalize List.replicate 1024 (0 : UInt8) = z at h
      split at h
      · simp only [Out.err.injEq] at h; exact ⟨_, h.symm⟩
      · cases h
      · cases h
  obtain ⟨n, rfl⟩ := this
  rintro ⟨k, hk⟩
  cases k with
  | zero => cases hk
  | succ k => rw [(C63_noise_endless n x k).2] at hk; cases hk

/-- Errors of other crates without causes. -/
def plain : Foreign := ⟨Unit, fun _ => "io", fun _ => none⟩

/-- The hypothesis of `C63_ends_iff` holds for them, and a wrapped one has a chain that ends. -/
example : (∀ o : plain.Obj, (ErrorRef.other o : ErrorRef plain).Ends) ∧
    (ErrorRef.lib .ioError () : ErrorRef plain).Ends ∧ ¬ (ErrorRef.lib (.noiseError .hex) () : ErrorRef plain).Ends := by
  have h : ∀ o : plain.Obj, (ErrorRef.other o : ErrorRef plain).Ends := fun _ => ⟨1, rfl⟩
  exact ⟨h, (C63_ends_iff h _).mpr (by rintro (⟨_, _, h⟩ | ⟨_, _, h⟩) <;> cases h), fun h' => ((C63_ends_iff h _).mp h') (.inr ⟨_, _, rfl⟩)⟩

/-- A concrete one: a connection encryptor that is given one byte. -/
example : ((ConnectionEncryptor.newOutbound Noise.toyPrims (Noise.Keypair.default Noise.toyPrims Noise.EMPTY)).recvHandshake
    Noise.toyPrims (Noise.Keypair.default Noise.toyPrims Noise.EMPTY) [0]).1
      = .err (.noiseError .unsupportedMessageLengthError) := by
  decide +kernel

/-! ## C64 -/

/-- The variants for a message that is too short. -/
def TooShort (e : NoiseError) : Prop :=
  e = .missingnsError ∨ e = .missingHsMacError ∨ e = .missingneError ∨ e = .missingrsError ∨ e = .missingreError

instance (e : NoiseError) : Decidable (TooShort e) := inferInstanceAs (Decidable (_ ∨ _))

/-- **C64.** Two errors of the Noise crate print the same text exactly if they are equal or both say that
something is missing from a message.  (`Hex` prints what it wraps; the crate never returns it.) -/
theorem C64_noise (x y : F.Obj) (e f : NoiseError) (he : e ≠ .hex) (hf : f ≠ .hex) :
    e.display F x = f.display F y ↔ e = f ∨ TooShort e ∧ TooShort f := by
  cases e <;> first | exact absurd rfl he | skip
  all_goals (cases f <;> first | exact absurd rfl hf | simp [NoiseError.display, TooShort])

/-- The text an error of the library carries. -/
def Error.text : Error → Option String
  | .versionError m | .protocolMismatchError m | .requirementError m | .deserializationError m | .parseError m => some m
  | _ => none

/-- The errors that print a wrapped error. -/
def Error.Wraps (e : Error) : Prop :=
  e = .base58Error ∨ e = .ioError ∨ e = .utf8Error ∨ e = .fromUtf8Error ∨ e = .authorityKeyError ∨
  e = .systemTimeError ∨ e = .tryFromSliceError ∨ ∃ n, e = .noiseError n

theorem split_at {α : Type} {c : α} {a b r s : List α} (ha : c ∉ a) (hb : c ∉ b)
    (h : a ++ c :: r = b ++ c :: s) : a = b ∧ r = s := by
  induction a generalizing b with
  | nil =>
    cases b with
    | nil => simpa using h
    | cons y b => simp only [List.nil_append, List.cons_append, List.cons.injEq] at h; exact absurd (h.1 ▸ List.mem_cons_self) hb
  | cons x a ih =>
    cases b with
    | nil => simp only [List.nil_append, List.cons_append, List.cons.injEq] at h; exact absurd (h.1 ▸ List.mem_cons_self) ha
    | cons y b =>
      simp only [List.cons_append, List.cons.injEq] at h
      obtain ⟨rfl, h⟩ := h
      obtain ⟨rfl, rfl⟩ := ih (fun m => ha (List.mem_cons_of_mem _ m)) (fun m => hb (List.mem_cons_of_mem _ m)) h
      exact ⟨rfl, rfl⟩

theorem repr_no (n : Nat) (c : Char) (h : c.isDigit = false) : c ∉ (uintDisplay n).toList := by
  intro hm
  have := Nat.isDigit_of_mem_toDigits (b := 10) (n := n) (by omega) (by omega) (c := c) (by simpa [uintDisplay, Nat.repr] using hm)
  rw [h] at this; cases this

theorem repr_list_inj {m n : Nat} (h : (uintDisplay m).toList = (uintDisplay n).toList) : m = n :=
  Nat.repr_inj.mp (String.toList_inj.mp h)

/-- Which text it is, from a few of its characters. -/
def textKind (l : List Char) : Nat :=
  if l[0]? = some '`' then 0
  else if l[0]? = some 'U' then 1
  else if l[0]? = some 'T' then 2
  else if l[0]? = some 'p' then if l[7]? = some 'm' then 3 else 4
  else if l[13]? = some 'm' then 5
  else 6

def Error.kind : Error → Nat
  | .versionError _ | .protocolMismatchError _ | .requirementError _ | .deserializationError _ | .parseError _ => 0
  | .unimplemented => 1
  | .unknownErrorCode => 2
  | .unexpectedMessageType _ _ => 3
  | .unexpectedChannelBit _ => 4
  | .unknownMessageType => 5
  | .unknownFlags => 6
  | _ => 7

theorem Error.kind_wraps (e : Error) : e.kind = 7 ↔ e.Wraps := by
  cases e <;> simp [Error.kind, Error.Wraps]

theorem pmt : "parsed message type `".toList = ['p', 'a', 'r', 's', 'e', 'd', ' ', 'm', 'e', 's', 's', 'a', 'g', 'e', ' ', 't', 'y', 'p', 'e', ' ', '`'] := by decide
theorem pcb : "parsed channel bit `".toList = ['p', 'a', 'r', 's', 'e', 'd', ' ', 'c', 'h', 'a', 'n', 'n', 'e', 'l', ' ', 'b', 'i', 't', ' ', '`'] := by decide
theorem suffix :
    "` does not match expected message".toList = '`' :: " does not match expected message".toList := by decide +kernel
theorem bq : "`".toList = ['`'] := by decide

theorem unexpectedTypeText_list (a b : String) : (unexpectedTypeText a b).toList =
    "parsed message type `".toList ++ (a.toList ++ ('/' :: (b.toList ++ ('`' :: " does not match expected message".toList)))) := by
  delta unexpectedTypeText
  rw [String.toList_append, String.toList_append, String.toList_append, String.toList_append, suffix,
    show "/".toList = ['/'] from by decide]
  simp only [List.append_assoc, List.cons_append, List.nil_append]

theorem unexpectedBitText_list (a : String) : (unexpectedBitText a).toList =
    "parsed channel bit `".toList ++ (a.toList ++ ('`' :: " does not match expected message".toList)) := by
  delta unexpectedBitText
  rw [String.toList_append, String.toList_append, suffix]
  simp only [List.append_assoc]

theorem Error.kind_display (x : F.Obj) (e : Error) (he : e.kind ≠ 7) : textKind (e.display F x).toList = e.kind := by
  cases e
  case base58Error | ioError | utf8Error | fromUtf8Error | authorityKeyError | systemTimeError | tryFromSliceError
    | noiseError => exact absurd rfl he
  case unimplemented | unknownErrorCode | unknownMessageType | unknownFlags =>
    first
    | exact (by decide +kernel : textKind "Unimplemented".toList = 1)
    | exact (by decide +kernel : textKind "The error code is invalid".toList = 2)
    | exact (by decide +kernel : textKind "the received message type is unknown".toList = 5)
    | exact (by decide +kernel : textKind "the received flags are unknown".toList = 6)
  case unexpectedMessageType | unexpectedChannelBit =>
    simp only [Error.display, Error.kind, unexpectedTypeText_list, unexpectedBitText_list, pmt, pcb, List.cons_append]
    simp [textKind]
  all_goals
    simp [Error.display, Error.kind, String.toList_append, bq, List.cons_append, textKind]

/-- **C64.** Two errors of the library that do not print a wrapped error print the same text exactly if they
are equal, or carry the same text: the variant is then lost.  In particular the two numbers of
`UnexpectedMessageType` can be read off. -/
theorem C64_library (x y : F.Obj) (e f : Error) (he : ¬ e.Wraps) (hf : ¬ f.Wraps) :
    e.display F x = f.display F y ↔ e = f ∨ ∃ m, e.text = some m ∧ f.text = some m := by
  rw [← Error.kind_wraps] at he hf
  constructor
  · intro h
    have hk : e.kind = f.kind := by rw [← Error.kind_display x e he, ← Error.kind_display y f hf, h]
    have h := congrArg String.toList h
    cases e
    case base58Error | ioError | utf8Error | fromUtf8Error | authorityKeyError | systemTimeError | tryFromSliceError
      | noiseError => exact absurd rfl he
    all_goals (cases f <;> first | (exfalso; revert hk; simp only [Error.kind]; decide) | skip)
    case unimplemented.unimplemented | unknownErrorCode.unknownErrorCode | unknownMessageType.unknownMessageType
      | unknownFlags.unknownFlags => exact .inl rfl
    case unexpectedMessageType.unexpectedMessageType a b c d =>
      simp only [Error.display, unexpectedTypeText_list, List.append_cancel_left_eq] at h
      obtain ⟨h1, h2⟩ := split_at (repr_no _ _ (by decide)) (repr_no _ _ (by decide)) h
      obtain ⟨h2, _⟩ := split_at (repr_no _ _ (by decide)) (repr_no _ _ (by decide)) h2
      exact .inl (by rw [UInt16.toNat_inj.mp (repr_list_inj h1), UInt8.toNat_inj.mp (repr_list_inj h2)])
    case unexpectedChannelBit.unexpectedChannelBit =>
      simp only [Error.display, unexpectedBitText_list, List.append_cancel_left_eq] at h
      rename_i a b _
      have hb : ∀ b, '`' ∉ (boolDisplay b).toList := by decide
      have hi : ∀ a b, (boolDisplay a).toList = (boolDisplay b).toList → a = b := by decide
      rw [hi _ _ (split_at (hb a) (hb b) h).1]
      exact .inl rfl
    all_goals
      refine .inr ⟨_, rfl, ?_⟩
      simp only [Error.display, String.toList_append, List.append_cancel_left_eq, List.append_cancel_right_eq,
        String.toList_inj] at h
      rw [h]; rfl
  · rintro (rfl | ⟨m, h1, h2⟩)
    · cases e
      case base58Error | ioError | utf8Error | fromUtf8Error | authorityKeyError | systemTimeError | tryFromSliceError
        | noiseError => exact absurd rfl he
      all_goals rfl
    · cases e <;> simp only [Error.text, Option.some.injEq, reduceCtorEq] at h1 <;> subst h1 <;>
        (cases f <;> simp only [Error.text, Option.some.injEq, reduceCtorEq] at h2 <;> subst h2 <;> rfl)

/-- **C64.** Numbers are printed in decimal, bits as `true` and `false`, and other texts between backquotes. -/
theorem C64_printed (x : F.Obj) (ext : UInt16) (msg : UInt8) (bit : Bool) :
    (Error.unexpectedMessageType ext msg).display F x =
      s!"parsed message type `{ext.toNat}/{msg.toNat}` does not match expected message" ∧
    (Error.unexpectedChannelBit bit).display F x = s!"parsed channel bit `{bit}` does not match expected message" ∧
    ∀ (e : Error) (m : String), e.text = some m → e.display F x = s!"`{m}`" := by
  refine ⟨?_, ?_, fun e m h => ?_⟩
  · delta Error.display
    dsimp only
    delta unexpectedTypeText uintDisplay
    simp only [toString]
  · delta Error.display
    dsimp only
    delta unexpectedBitText
    have hb : ∀ b, boolDisplay b = toString b := by decide
    rw [hb]
    rfl
  · cases e <;> simp only [Error.text, Option.some.injEq, reduceCtorEq] at h <;> subst h <;> rfl

/-- A case with different variants and one text, and one with different texts. -/
example : (Error.parseError "a").display plain () = (Error.versionError "a").display plain () ∧
    (Error.unexpectedMessageType 1 23).display plain () ≠ (Error.unexpectedMessageType 12 3).display plain () ∧
    (Error.unexpectedChannelBit true).display plain () = "parsed channel bit `true` does not match expected message" := by
  refine ⟨rfl, fun h => ?_, by decide +kernel⟩
  rcases (C64_library _ _ _ _ (by simp [Error.Wraps]) (by simp [Error.Wraps])).mp h with h | ⟨m, h, _⟩
  · revert h; decide
  · cases h

end SV2
