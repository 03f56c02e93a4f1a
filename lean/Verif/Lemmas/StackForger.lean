import Verif.Lemmas.Noise.Rekey
import Verif.Props.Stack
import Verif.Spec.Ideal
/-!
# Attackers that have frames sent

The frames sent can be read off the messages sent, so an attacker that sees both is one that sees the messages.
-/

namespace SV2.Stack
open Law Noise

variable {P : Prims}

theorem packet_small {f : Message} {room : Arr 16} (h1 : 16 ≤ (packet f room).length)
    (h2 : (packet f room).length ≤ 65535) : f.payload.length ≤ 65513 := by
  by_cases hw : f.payload.length % 2 ^ 32 < 2 ^ 24
  · have e : serialize f = .ok ([] ++ frameHeader ⟨f.message_type, f.payload.take (f.payload.length % 2 ^ 32)⟩ ++
        f.payload) := by
      unfold serialize
      rw [message_wrap f hw]
      simp only [frameHeader, List.length_take, Nat.min_eq_left (Nat.mod_le _ _)]
    unfold packet at h1 h2
    rw [e] at h1 h2
    simp only [List.nil_append, List.length_append, room.len, frameHeader_length] at h1 h2
    omega
  · have e : packet f room = [] := by
      unfold packet serialize
      rw [message_too_long vecWriter f [] (by omega)]
    rw [e] at h1
    simp at h1

/-- The frame with these bytes. -/
def decode (b : Bytes) : Message :=
  match deserialize Message b with
  | .ok f => f
  | _ => ⟨.testMessage1, []⟩

theorem decode_frame {f : Message} (h : f.payload.length ≤ 65513) : decode (Wire.frame f) = f := by
  unfold decode
  have := deserialize_frame f (by omega) (rest := []) (by
    unfold IsSlice
    rw [List.append_nil, wire_frame_length]
    omega)
  rw [List.append_nil] at this
  rw [this]

theorem decode_frames {fs : List Message} (h : ∀ f ∈ fs, f.payload.length ≤ 65513) :
    (fs.map Wire.frame).map decode = fs := by
  induction fs with
  | nil => rfl
  | cons f fs ih =>
    simp only [List.map_cons]
    rw [decode_frame (h f List.mem_cons_self), ih fun g hg => h g (List.mem_cons_of_mem _ hg)]

/-- The messages sent are the frames sent. -/
structure FInv (P : Prims) (keys : Arr 32 × Arr 32) (n1 n2 : Nat) (n : SNet) : Prop where
  inv : RInv P keys n1 n2 n.rnet
  sentI : n.rnet.net.sentI.map (·.1) = n.framesI.map Wire.frame
  sentR : n.rnet.net.sentR.map (·.1) = n.framesR.map Wire.frame
  smallI : ∀ f ∈ n.framesI, f.payload.length ≤ 65513
  smallR : ∀ f ∈ n.framesR, f.payload.length ≤ 65513

variable {keys : Arr 32 × Arr 32} {n1 n2 : Nat}

theorem FInv.start {i r : NoiseSession} {m1 m2 : UInt64} (h : InSync i r keys m1 m2) :
    FInv P keys m1.toNat m2.toNat { rnet := { net := { i := i, r := r } } } :=
  ⟨RInv.start h, rfl, rfl, nofun, nofun⟩

theorem FInv.step {n : SNet} (h : FInv P keys n1 n2 n) (act : SAct) : FInv P keys n1 n2 (n.step P act) := by
  obtain ⟨b1, _, b3, _⟩ := h.inv.bounds
  have hinv := h.inv.step act.act
  cases act with
  | rekeyI remote =>
    exact ⟨hinv, by simpa [SNet.step, SAct.act, RNet.step] using h.sentI,
      by simpa [SNet.step, SAct.act, RNet.step] using h.sentR,
      by simpa [SNet.step, SAct.act, RNet.step] using h.smallI, by simpa [SNet.step, SAct.act, RNet.step] using h.smallR⟩
  | rekeyR remote =>
    exact ⟨hinv, by simpa [SNet.step, SAct.act, RNet.step] using h.sentI,
      by simpa [SNet.step, SAct.act, RNet.step] using h.sentR,
      by simpa [SNet.step, SAct.act, RNet.step] using h.smallI, by simpa [SNet.step, SAct.act, RNet.step] using h.smallR⟩
  | stack act =>
    cases act with
    | toR w =>
      exact ⟨hinv, by simpa [SNet.step, SAct.act, StackAct.act, RNet.step, Net.step] using h.sentI,
        by simpa [SNet.step, SAct.act, StackAct.act, RNet.step, Net.step] using h.sentR,
        by simpa [SNet.step, SAct.act, StackAct.act, RNet.step, Net.step] using h.smallI,
        by simpa [SNet.step, SAct.act, StackAct.act, RNet.step, Net.step] using h.smallR⟩
    | toI w =>
      exact ⟨hinv, by simpa [SNet.step, SAct.act, StackAct.act, RNet.step, Net.step] using h.sentI,
        by simpa [SNet.step, SAct.act, StackAct.act, RNet.step, Net.step] using h.sentR,
        by simpa [SNet.step, SAct.act, StackAct.act, RNet.step, Net.step] using h.smallI,
        by simpa [SNet.step, SAct.act, StackAct.act, RNet.step, Net.step] using h.smallR⟩
    | iSend secret f room =>
      by_cases ho : (n.rnet.net.i.sendMessage P (Keypair.default P secret) (packet f room)).1.isOk = true
      · have hf : f.payload.length ≤ 65513 := by
          rcases NoiseSession.send_cases (P := P) (Keypair.default P secret) n.rnet.net.i (packet f room) b1 with
            ⟨g1, g2, _⟩ | ⟨e, he⟩
          · exact packet_small g1 g2
          · rw [he] at ho; cases ho
        refine ⟨hinv, ?_, ?_, ?_, ?_⟩ <;>
          simp only [SNet.step, SAct.act, StackAct.act, RNet.step, Net.step, ho, if_true, List.length_append,
            List.length_singleton, SAct.frame?, Nat.lt_irrefl, if_false, Nat.lt_succ_self]
        · rw [List.map_append, List.map_append, h.sentI, List.map_singleton, List.map_singleton,
            (packet_eq f room hf).2.1]
        · exact h.sentR
        · intro g hg
          rcases List.mem_append.mp hg with hg | hg
          · exact h.smallI g hg
          · rw [List.mem_singleton.mp hg]; exact hf
        · exact h.smallR
      · refine ⟨hinv, ?_, ?_, ?_, ?_⟩ <;>
          simp only [SNet.step, SAct.act, StackAct.act, RNet.step, Net.step, ho, Bool.false_eq_true, if_false, Nat.lt_irrefl]
        · exact h.sentI
        · exact h.sentR
        · exact h.smallI
        · exact h.smallR
    | rSend secret f room =>
      by_cases ho : (n.rnet.net.r.sendMessage P (Keypair.default P secret) (packet f room)).1.isOk = true
      · have hf : f.payload.length ≤ 65513 := by
          rcases NoiseSession.send_cases (P := P) (Keypair.default P secret) n.rnet.net.r (packet f room) b3 with
            ⟨g1, g2, _⟩ | ⟨e, he⟩
          · exact packet_small g1 g2
          · rw [he] at ho; cases ho
        refine ⟨hinv, ?_, ?_, ?_, ?_⟩ <;>
          simp only [SNet.step, SAct.act, StackAct.act, RNet.step, Net.step, ho, if_true, List.length_append,
            List.length_singleton, SAct.frame?, Nat.lt_irrefl, if_false, Nat.lt_succ_self]
        · exact h.sentI
        · rw [List.map_append, List.map_append, h.sentR, List.map_singleton, List.map_singleton,
            (packet_eq f room hf).2.1]
        · exact h.smallI
        · intro g hg
          rcases List.mem_append.mp hg with hg | hg
          · exact h.smallR g hg
          · rw [List.mem_singleton.mp hg]; exact hf
      · refine ⟨hinv, ?_, ?_, ?_, ?_⟩ <;>
          simp only [SNet.step, SAct.act, StackAct.act, RNet.step, Net.step, ho, Bool.false_eq_true, if_false, Nat.lt_irrefl]
        · exact h.sentI
        · exact h.sentR
        · exact h.smallI
        · exact h.smallR

/-- The frames sent, from the messages sent. -/
def withFrames (n : RNet) : SNet :=
  ⟨n, (n.net.sentI.map (·.1)).map decode, (n.net.sentR.map (·.1)).map decode⟩

theorem FInv.withFrames {n : SNet} (h : FInv P keys n1 n2 n) : withFrames n.rnet = n := by
  unfold Stack.withFrames
  rw [h.sentI, h.sentR, decode_frames h.smallI, decode_frames h.smallR]

/-- The attacker that sees the messages. -/
def SForger.below (forger : SForger) : RForger := fun past => (forger (past.map withFrames)).act

theorem SForger.below_atMost {forger : SForger} {q : Nat} (h : forger.AtMost q) : forger.below.AtMost q := by
  intro n past w hq
  obtain ⟨h1, h2⟩ := h (withFrames n) (past.map withFrames) w hq
  unfold SForger.below
  rw [List.map_cons]
  generalize forger _ = act at *
  constructor <;> intro e <;> cases act with
  | stack a => cases a <;> cases e <;> first | exact h1 rfl | exact h2 rfl
  | _ => cases e

theorem SForger.below_rekeys {forger : SForger} {E : Nat} (h : forger.Rekeys E) : forger.below.Rekeys E := by
  intro n past remote
  obtain ⟨h1, h2⟩ := h (withFrames n) (past.map withFrames) remote
  unfold SForger.below
  rw [List.map_cons]
  generalize forger _ = act at *
  constructor <;> intro hq e <;> cases act with
  | stack a => cases e
  | rekeyI r => cases e <;> exact h1 hq rfl
  | rekeyR r => cases e <;> exact h2 hq rfl

theorem attacked_below {forger : SForger} {start : SNet} (h : FInv P keys n1 n2 start) (j : Nat) :
    FInv P keys n1 n2 (SNet.attacked P forger start j).1 ∧
    (SNet.attacked P forger start j).1.rnet = (RNet.attacked P forger.below start.rnet j).1 ∧
    (RNet.attacked P forger.below start.rnet j).2.map withFrames = (SNet.attacked P forger start j).2 := by
  induction j with
  | zero => exact ⟨h, rfl, rfl⟩
  | succ j ih =>
    obtain ⟨h1, h2, h3⟩ := ih
    have hw : withFrames (RNet.attacked P forger.below start.rnet j).1 = (SNet.attacked P forger start j).1 := by
      rw [← h2]; exact h1.withFrames
    refine ⟨h1.step _, ?_, ?_⟩
    · show RNet.step P (SNet.attacked P forger start j).1.rnet (forger (_ :: _)).act = RNet.step P _ (forger.below (_ :: _))
      have : ∀ past, forger.below past = (forger (past.map withFrames)).act := fun _ => rfl
      rw [h2, this, List.map_cons, hw, h3]
    · show List.map withFrames (_ :: _) = _ :: _
      rw [List.map_cons, hw, h3]

/-- What was accepted being the beginning of what was sent, so are the frames. -/
theorem FInv.genuine {n : SNet} (h : FInv P keys n1 n2 n) (hg : n.rnet.net.Genuine) : n.Genuine := by
  have conv : ∀ (got : List (Bytes × NResult Unit × Bytes)) (fs : List Message),
      (∀ f ∈ fs, f.payload.length ≤ 65513) → accepted got <+: fs.map Wire.frame → Stack.read got <+: fs.map .ok := by
    intro got fs hfs hpre
    rw [read_of_accepted (fun f hf => hfs f (List.mem_of_mem_take hf)) (prefix_map_wire hpre), List.map_take]
    exact List.take_prefix _ _
  exact ⟨conv _ _ h.smallI (h.sentI ▸ hg.toR), conv _ _ h.smallR (h.sentR ▸ hg.toI)⟩

end SV2.Stack
