import Verif.Model.Fuzz
import Verif.Props.Types
import Verif.Props.Network
import Verif.Props.Certificate
import Verif.Model.Crypto.Scheme
/-!
# C78: what the fuzz harnesses can find
-/

namespace SV2.Fuzz
open Law Noise Crypto

theorem decode_safe {α : Type} [Deserializable α] (h : NeverPanics α) (data : Bytes) (hs : IsSlice data) :
    decode α data = false := by
  have := (h data 0 hs (Nat.zero_le _)).1
  unfold decode deserialize
  cases hr : (Deserializable.deser (α := α) ⟨data, 0⟩).1 with
  | panic => exact absurd hr this
  | ok _ => rfl
  | err _ => rfl

theorem main_safe (ts : List Target) (inputs : List Bytes) (h : ∀ t ∈ ts, ∀ i ∈ inputs, t i = false)
    (hl : ts.length ≤ inputs.length) : main ts inputs = (ts.length, false) := by
  induction ts generalizing inputs with
  | nil => cases inputs <;> rfl
  | cons t ts ih =>
    cases inputs with
    | nil => simp at hl
    | cons i inputs =>
      have h1 := h t (by simp) i (by simp)
      have h2 := ih inputs (fun t ht i hi => h t (by simp [ht]) i (by simp [hi])) (by simpa using hl)
      simp [main, h1, h2]

/-- The harnesses for the messages, the frame and the setup messages pass all their targets, whatever the inputs. -/
theorem C78_decoders (inputs : List Bytes) (hs : ∀ i ∈ inputs, i.length < 2 ^ 63) :
    (6 ≤ inputs.length → main miningMessages inputs = (6, false)) ∧
    (1 ≤ inputs.length → main networkFrame inputs = (1, false)) ∧
    (3 ≤ inputs.length → main setupConnection inputs = (3, false)) := by
  obtain ⟨m1, m2, m3, -, -, m6, m7, m8, m9, m10, m11, m12⟩ := C10_messages
  refine ⟨main_safe miningMessages _ ?_, main_safe networkFrame _ ?_, main_safe setupConnection _ ?_⟩
  · intro t ht i hi
    simp only [miningMessages, List.mem_cons, List.not_mem_nil, or_false] at ht
    rcases ht with rfl | rfl | rfl | rfl | rfl | rfl
    · exact decode_safe m6 i (hs i hi)
    · exact decode_safe m7 i (hs i hi)
    · exact decode_safe (m10 _) i (hs i hi)
    · exact decode_safe m8 i (hs i hi)
    · exact decode_safe m9 i (hs i hi)
    · exact decode_safe m11 i (hs i hi)
  · intro t ht i hi
    simp only [networkFrame, List.mem_cons, List.not_mem_nil, or_false] at ht
    subst ht
    exact decode_safe m12 i (hs i hi)
  · intro t ht i hi
    simp only [setupConnection, List.mem_cons, List.not_mem_nil, or_false] at ht
    rcases ht with rfl | rfl | rfl
    · exact decode_safe (m3 _) i (hs i hi)
    · exact decode_safe (m2 _) i (hs i hi)
    · exact decode_safe (m1 _) i (hs i hi)

/-- So does the one for the connection encryptor, with any primitives and keys, though further inputs on the same
encryptor, or one after `init_handshake`, can panic (C57, C62). -/
theorem C78_encryptor (P : Prims) (kR eR kI eI : Keypair) (first second : Bytes) :
    main (connectionEncryptor P kR eR kI eI) [first, second] = (2, false) := by
  have h1 := (C57_fresh P kR eR none first).1
  have h2 := (C57_fresh P kI eI none second).2
  have hp : ∀ {α : Type} (r : Result α), r ≠ .panic → panics r = false := by
    intro α r h
    cases r with
    | panic => exact absurd rfl h
    | ok _ => rfl
    | err _ => rfl
  simp [main, connectionEncryptor, hp _ h1, hp _ h2]

/-- The one for noise panics exactly on inputs of at least 74 bytes with a signature that the signature library refuses. -/
theorem C78_noise (E : SigScheme) (data : Bytes) (hs : data.length < 2 ^ 63) :
    main (noise E) [data] = (0, true) ↔
      ∃ s : Arr 64, s.toList = (data.drop 10).take 64 ∧ E.decodable s = false := by
  have hd := C31_decision (E := E) data hs
  have hm : main (noise E) [data] = (0, true) ↔ deserialize (SignatureNoiseMessage E) data = .panic := by
    unfold noise main decode
    cases deserialize (SignatureNoiseMessage E) data <;> simp [panics, main]
  rw [hm]
  constructor
  · intro h
    have hl : 74 ≤ data.length := by
      apply Classical.byContradiction
      intro hn
      obtain ⟨msg, he⟩ := hd.1 (by omega)
      rw [h] at he
      cases he
    have hlen : ((data.drop 10).take 64).length = 64 := by simp; omega
    refine ⟨⟨_, hlen⟩, rfl, ?_⟩
    cases hdec : E.decodable ⟨_, hlen⟩ with
    | false => rfl
    | true =>
      obtain ⟨m, hok, -⟩ := (hd.2 ⟨_, hlen⟩ hl rfl).1 hdec
      rw [h] at hok
      cases hok
  · rintro ⟨s, hsl, hdec⟩
    have hl : 74 ≤ data.length := by
      have := congrArg List.length hsl
      rw [s.len] at this
      simp at this
      omega
    exact (hd.2 s hl hsl).2 hdec

/-- With ed25519 of at least 1.3 these are the inputs whose 74th byte is at least 32; before, there are none. -/
theorem C78_noise_ed25519 (data : Bytes) (hs : data.length < 2 ^ 63) :
    (main (noise (dalek true)) [data] = (0, true) ↔ ∃ b, data[73]? = some b ∧ 32 ≤ b.toNat) ∧
    main (noise (dalek false)) [data] ≠ (0, true) := by
  constructor
  · rw [C78_noise _ _ hs]
    have key : ∀ s : Arr 64, s.toList = (data.drop 10).take 64 →
        ((dalek true).decodable s = false ↔ ∃ b, data[73]? = some b ∧ 32 ≤ b.toNat) := by
      intro s hsl
      have hl : 74 ≤ data.length := by
        have := congrArg List.length hsl
        rw [s.len] at this
        simp at this
        omega
      obtain ⟨b, hb⟩ : ∃ b, data[73]? = some b := ⟨_, List.getElem?_eq_getElem (by omega)⟩
      have hsec : s.toList.drop 32 = (data.drop 42).take 31 ++ [b] := by
        rw [hsl]
        apply List.ext_getElem?
        intro i
        rw [List.getElem?_drop, List.getElem?_take, List.getElem?_drop]
        by_cases hi : i < 31
        · rw [if_pos (by omega), List.getElem?_append_left (by simp; omega), List.getElem?_take, if_pos hi,
            List.getElem?_drop]
          congr 1; omega
        · by_cases hi' : i = 31
          · subst hi'
            rw [if_pos (by omega), List.getElem?_append_right (by simp; omega)]
            simpa [show 31 - min 31 (data.length - 42) = 0 by omega] using hb
          · rw [if_neg (by omega), List.getElem?_eq_none (by simp; omega)]
      have hdec : (dalek true).decodable s = decide (fromLE (s.toList.drop 32) < 2 ^ 253) := rfl
      rw [hdec, hsec]
      have hval : fromLE ((data.drop 42).take 31 ++ [b]) = fromLE ((data.drop 42).take 31) + 256 ^ 31 * b.toNat ∧
          fromLE ((data.drop 42).take 31) < 256 ^ 31 := by
        have gen : ∀ (l : Bytes), fromLE (l ++ [b]) = fromLE l + 256 ^ l.length * b.toNat ∧
            fromLE l < 256 ^ l.length := by
          intro l
          induction l with
          | nil => simp [fromLE]
          | cons a l ih =>
            have ha := a.toNat_lt
            simp only [List.cons_append, fromLE, List.length_cons, Nat.pow_succ, ih.1]
            constructor
            · rw [Nat.mul_add, Nat.add_assoc, Nat.mul_comm _ 256, Nat.mul_assoc]
            · omega
        have := gen ((data.drop 42).take 31)
        rwa [show ((data.drop 42).take 31).length = 31 by simp; omega] at this
      rw [hval.1]
      simp only [hb, Option.some.injEq, exists_eq_left', decide_eq_false_iff_not]
      have := hval.2
      omega
    constructor
    · rintro ⟨s, hsl, hdec⟩
      exact (key s hsl).mp hdec
    · rintro ⟨b, hb, h32⟩
      have hl : 74 ≤ data.length := by
        obtain ⟨h, -⟩ := List.getElem?_eq_some_iff.mp hb
        omega
      have hlen : ((data.drop 10).take 64).length = 64 := by simp; omega
      exact ⟨⟨_, hlen⟩, rfl, (key ⟨_, hlen⟩ rfl).mpr ⟨b, hb, h32⟩⟩
  · rw [Ne, C78_noise _ _ hs]
    rintro ⟨s, -, hdec⟩
    cases hdec

/-- An input that the harness for noise finds, and one that it does not. -/
example : main (noise (dalek true)) [List.replicate 74 32] = (0, true) ∧
    main (noise (dalek true)) [List.replicate 74 31] ≠ (0, true) ∧
    main (noise (dalek true)) [List.replicate 73 32] ≠ (0, true) := by
  refine ⟨(C78_noise_ed25519 _ (by decide)).1.mpr ⟨32, by decide, by decide⟩, ?_, ?_⟩
  · rw [Ne, (C78_noise_ed25519 _ (by decide)).1]
    rintro ⟨b, hb, h⟩
    rw [show (List.replicate 74 (31 : UInt8))[73]? = some 31 by decide] at hb
    cases hb
    exact absurd h (by decide)
  · rw [Ne, (C78_noise_ed25519 _ (by decide)).1]
    rintro ⟨b, hb, h⟩
    rw [show (List.replicate 73 (32 : UInt8))[73]? = none by decide] at hb
    cases hb

/-- Six inputs for the six targets. -/
example : main miningMessages [[], [1], [1, 2], [1, 2, 3], List.replicate 100 255, List.replicate 40 0] = (6, false) :=
  (C78_decoders _ (by decide)).1 (by decide)

end SV2.Fuzz
