import Verif.Lemmas.DistantRun
import Verif.Spec.Incognito
/-!
# The program of `Verif/Lemmas/Distant.lean` with another server

The rows of the two handshake keys are changed so that the other server sends the same message.
-/

namespace SV2.Long
variable {X V P R α β γ : Type}

theorem Prog.bind_assoc (m : Prog X V P R α) (f : α → Prog X V P R β) (g : β → Prog X V P R γ) :
    (m.bind f).bind g = m.bind fun a => (f a).bind g := by
  induction m with
  | ret a => rfl
  | hash x next ih => exact congrArg _ (funext fun v => ih v)
  | row k next ih => exact congrArg _ (funext fun v => ih v)
  | mix p next ih => exact congrArg _ (funext fun v => ih v)

end SV2.Long

namespace SV2.Noise

/-- A session without the other side's static key. -/
def NoiseSession.unnamed (s : NoiseSession) : NoiseSession := { s with hs := { s.hs with rs := NX.zeros } }

namespace NoiseSession

theorem unnamed_setSend (s : NoiseSession) (cs : CipherState) : s.unnamed.setSend cs = (s.setSend cs).unnamed := by
  unfold setSend
  show (if s.i then _ else _) = _
  split <;> rfl

theorem unnamed_setRecv (s : NoiseSession) (cs : CipherState) : s.unnamed.setRecv cs = (s.setRecv cs).unnamed := by
  unfold setRecv
  show (if s.i then _ else _) = _
  split <;> rfl

theorem unnamed_count (s : NoiseSession) (b : Bytes) :
    s.unnamed.count b = ((s.count b).1, (s.count b).2.1.unnamed, (s.count b).2.2) := by
  unfold count
  show (if s.mc + 1 < 2 ^ 128 then _ else _) = _
  split <;> rfl

theorem unnamed_send (P : Prims) (rnd : Keypair) (s : NoiseSession) (b : Bytes) (hm : 2 ≤ s.mc) :
    s.unnamed.sendMessage P rnd b =
      ((s.sendMessage P rnd b).1, (s.sendMessage P rnd b).2.1.unnamed, (s.sendMessage P rnd b).2.2) := by
  by_cases h : b.length < 16 ∨ 65535 < b.length
  · have h' : b.length < MAC_LENGTH ∨ b.length > MAX_MESSAGE := by simpa [MAC_LENGTH, MAX_MESSAGE] using h
    unfold sendMessage
    rw [if_pos h', if_pos h']
  · rw [send_transport _ _ _ h hm, send_transport _ s.unnamed _ h hm]
    have e : s.unnamed.sendCs = s.sendCs := rfl
    rw [e]
    generalize s.sendCs.writeMessageRegular P b = x
    obtain ⟨o, cs, buf⟩ := x
    cases o with
    | ok u =>
      cases u
      simp only [unnamed_setSend, unnamed_count]
    | err e => simp only [unnamed_setSend]
    | panic => simp only [unnamed_setSend]

theorem unnamed_recv (P : Prims) (s : NoiseSession) (b : Bytes) (hm : 2 ≤ s.mc) :
    s.unnamed.recvMessage P b =
      ((s.recvMessage P b).1, (s.recvMessage P b).2.1.unnamed, (s.recvMessage P b).2.2) := by
  by_cases h : b.length < 16 ∨ 65535 < b.length
  · have h' : b.length < MAC_LENGTH ∨ b.length > MAX_MESSAGE := by simpa [MAC_LENGTH, MAX_MESSAGE] using h
    unfold recvMessage
    rw [if_pos h', if_pos h']
  · rw [recv_transport _ _ h hm, recv_transport s.unnamed _ h hm]
    have e : s.unnamed.recvCs = s.recvCs := rfl
    rw [e]
    generalize s.recvCs.readMessageRegular P b = x
    obtain ⟨o, cs, buf⟩ := x
    cases o with
    | ok u =>
      cases u
      simp only [unnamed_setRecv, unnamed_count]
    | err e => simp only [unnamed_setRecv]
    | panic => simp only [unnamed_setRecv]

end NoiseSession

def Duo.unnamed (s : Duo) : Duo := (s.1.unnamed, s.2)

theorem Duo.act_unnamed (P : Prims) {k : Arr 32 × Arr 32} {s : Duo} (hs : s.Wears k) (second : Bool) (t : Talk) :
    s.unnamed.act P second t.move =
      ((s.act P second t.move).1, (s.act P second t.move).2.1, (s.act P second t.move).2.2.unnamed) := by
  cases t with
  | send who m0 m1 =>
    simp only [Talk.move, Duo.act]
    split
    · cases who with
      | initiator =>
        have e := NoiseSession.unnamed_send P Keypair.empty s.1 (if second then m1 else m0) hs.i.mc
        simp only [Duo.get]
        rw [show s.unnamed.1 = s.1.unnamed from rfl, e]
        generalize s.1.sendMessage P Keypair.empty (if second then m1 else m0) = x
        obtain ⟨o, x, w⟩ := x
        cases o with
        | ok u => cases u; rfl
        | err e => rfl
        | panic => rfl
      | responder =>
        simp only [Duo.get]
        rw [show s.unnamed.2 = s.2 from rfl]
        generalize s.2.sendMessage P Keypair.empty (if second then m1 else m0) = x
        obtain ⟨o, x, w⟩ := x
        cases o with
        | ok u => cases u; rfl
        | err e => rfl
        | panic => rfl
    · rfl
  | deliver who bytes =>
    simp only [Talk.move, Duo.act]
    cases who with
    | initiator =>
      have e := NoiseSession.unnamed_recv P s.1 bytes hs.i.mc
      simp only [Duo.get]
      rw [show s.unnamed.1 = s.1.unnamed from rfl, e]
      rfl
    | responder => rfl

end SV2.Noise

namespace SV2.Noise.Distant
open SV2.Long
open SV2.Noise.Veiled (Ask pairPrims talking talking_wears mocks)

section
variable (P : Prims) {M : Nat} (far : Bytes → Arr 32) (h0 : Arr 32)

theorem earJob_unnamed {α : Type} (listener : Listener) (hl : listener.Outside) (Q' : Prims) (second : Bool)
    (f : List Seen → Job M α) (hf : ∀ l, f l = f (l.map Seen.unnamed)) (j : Nat) {s : Duo} (hs : s.Wears mocks) (seen : List Seen) :
    (earJob far h0 listener Q' second j s seen).bind f =
      (earJob far h0 listener Q' second j s.unnamed (seen.map Seen.unnamed)).bind f := by
  have t1 : Twin Q' Q' mocks.1 mocks.1 := ⟨fun _ _ _ => rfl, fun _ _ _ _ => rfl, by decide, by decide⟩
  have t2 : Twin Q' Q' mocks.2 mocks.2 := ⟨fun _ _ _ => rfl, fun _ _ _ _ => rfl, by decide, by decide⟩
  induction j generalizing s seen with
  | zero => exact hf seen
  | succ j ih =>
    unfold earJob
    rw [Prog.bind_assoc, Prog.bind_assoc, ← (hl seen).1]
    congr 1
    funext t
    obtain ⟨-, w⟩ := Duo.act_twin t1 t2 hs second t
    rw [ih w, Duo.act_unnamed Q' hs, List.map_append]
    rfl

theorem verdictJob_unnamed (listener : Listener) (hl : listener.Outside) (Q' : Prims) (second : Bool) (rounds : Nat)
    (rs t : Arr 32) : verdictJob (M := M) far h0 listener Q' second rounds (talking rs t mocks) =
      verdictJob far h0 listener Q' second rounds (talking NX.zeros t mocks) :=
  earJob_unnamed far h0 listener hl Q' second _ (fun l => congrArg _ (hl l).2) rounds (talking_wears rs t mocks) []

/-- Another server, which has the same ephemeral secret. -/
structure Swap (c c' : Serving) : Prop where
  prologue : c'.prologue = c.prologue
  eR : c'.eR = c.eR
  first : c'.first = c.first
  length : c.buf.length = c'.buf.length
  short : c'.buf.length ≤ 65536

/-- What is done to the rows of the two handshake keys. -/
def stamps (c c' : Serving) : Fin 4 → KeyRow ≃ KeyRow
  | 0 => stamp (P.publicOf c.sR).toList (P.publicOf c'.sR).toList
  | 1 => stamp (body (c.buf.drop 80)) (body (c'.buf.drop 80))
  | _ => Equiv.refl _

theorem afterJob_stamps {c c' : Serving} (h : Swap c c') (listener : Bytes → Bytes → Listener)
    (hl : ∀ a b, (listener a b).Outside) (rounds : Nat) (second : Bool) (r : Fin 4 → KeyRow) :
    afterJob (M := M) P far h0 c' listener rounds second (fun j => stamps P c c' j (r j)) =
    afterJob P far h0 c listener rounds second r := by
  have e1 := stamp_enc P (P.publicOf c.sR).toList (P.publicOf c'.sR).toList (by rw [Arr.len, Arr.len])
    (by rw [Arr.len]; omega) (r 0)
  have e2 := stamp_enc P (body (c.buf.drop 80)) (body (c'.buf.drop 80))
    (by simp only [body, List.length_take, List.length_drop, h.length])
    (by have := h.short; simp only [body, List.length_take, List.length_drop]; omega) (r 1)
  unfold afterJob
  have e : replyJob (M := M) P far h0 c' (stamps P c c' 0 (r 0)) (stamps P c c' 1 (r 1)) = replyJob P far h0 c (r 0) (r 1) := by
    unfold replyJob
    simp only [stamps, h.prologue, h.eR, h.first, e1, e2]
  simp only [e, h.first]
  congr 1
  funext x
  rw [verdictJob_unnamed far h0 _ (hl _ _), verdictJob_unnamed far h0 _ (hl _ _) _ _ _ (P.publicOf c.sR)]
  rfl

theorem listenJob_swap [Finite (Ask M)] (A : Unit → Ask M) {c c' : Serving} (h : Swap c c')
    (listener : Bytes → Bytes → Listener) (hl : ∀ a b, (listener a b).Outside) (rounds : Nat) (second second' : Bool) :
    Nat.card {z : (Place (Ask M) Unit → Arr 32) × (Arr 32 ⊕ Unit × Fin 4 → KeyRow) //
      ((listenJob P far h0 c listener rounds second).guard A).run (ideal z.1 z.2) = some true} =
    Nat.card {z : (Place (Ask M) Unit → Arr 32) × (Arr 32 ⊕ Unit × Fin 4 → KeyRow) //
      ((listenJob P far h0 c' listener rounds second').guard A).run (ideal z.1 z.2) = some true} := by
  rw [← listenJob_alike P far h0 A c' c' rfl rfl h.short listener rounds second second']
  let τ : (Arr 32 ⊕ Unit × Fin 4 → KeyRow) ≃ (Arr 32 ⊕ Unit × Fin 4 → KeyRow) :=
    Equiv.piCongrRight fun k => match k with
      | .inl _ => Equiv.refl _
      | .inr (_, j) => stamps P c c' j
  refine Nat.card_congr ((Equiv.prodCongr (Equiv.refl _) τ).subtypeEquiv fun z => ?_)
  have e : (fun j => τ z.2 (.inr ((), j))) = fun j => stamps P c c' j (z.2 (.inr ((), j))) := rfl
  have hr : ((afterJob P far h0 c listener rounds second (fun j => z.2 (.inr ((), j)))).guard A).run (ideal z.1 z.2) =
      ((afterJob P far h0 c' listener rounds second (fun j => τ z.2 (.inr ((), j)))).guard A).run (ideal z.1 (τ z.2)) := by
    rw [e, afterJob_stamps P far h0 h listener hl]
    exact ((afterJob_plain P far h0 c listener rounds second _).guard A).run rfl rfl
  show ((afterJob P far h0 c listener rounds second (fun j => z.2 (.inr ((), j)))).guard A).run (ideal z.1 z.2) = some true ↔
    ((afterJob P far h0 c' listener rounds second (fun j => τ z.2 (.inr ((), j)))).guard A).run (ideal z.1 (τ z.2)) = some true
  rw [hr]

end

end SV2.Noise.Distant
