import Verif.Lemmas.Noise.Rekey
import Verif.Props.NoiseTransport
/-!
# C93: rekeying while messages are under way

The network and the rekeying are in `Verif/Spec/Rekey.lean`.
-/

namespace SV2
open Noise

variable (P : Prims)

/-- Whoever calls whichever rekey function whenever: the messages of the responder, and what comes of delivering anything to
the initiator, are as if nobody had called them. -/
theorem C93_to_initiator (i r : NoiseSession) (keys : Arr 32 × Arr 32) (n1 n2 : UInt64) (h : InSync i r keys n1 n2)
    (acts : List RAct) :
    let n := (RNet.run P { net := { i := i, r := r } } acts).net
    let m := Net.run P { i := i, r := r } (RAct.acts acts)
    n.sentR = m.sentR ∧ n.gotI = m.gotI := by
  have := SameNet.run (P := P) (RInv.start h) (NetInv.start h) ⟨rfl, rfl, rfl, rfl⟩ acts
  exact ⟨this.sent, this.got⟩

/-- Message number `j` of the initiator is encrypted with the key of its epoch - how often it had rekeyed - and nonce
`n1 + j`: rekeying does not start the counter again, and does not put off its end. -/
theorem C93_nonces (i r : NoiseSession) (keys : Arr 32 × Arr 32) (n1 n2 : UInt64) (h : InSync i r keys n1 n2)
    (acts : List RAct) :
    let n := RNet.run P { net := { i := i, r := r } } acts
    n.sentAt.length = n.net.sentI.length ∧ (∀ e ∈ n.sentAt, e ≤ n.rekeysI) ∧
    (∀ j p w, n.net.sentI[j]? = some (p, w) → ∃ e, n.sentAt[j]? = some e ∧
      w = NX.enc P (epochKey P keys.1 e) (n1.toNat + j) [] p ∧ n1.toNat + j < 2 ^ 64 - 1) ∧
    n.net.i.cs1.n.toNat = n1.toNat + n.net.sentI.length := by
  intro n
  have hinv : RInv P keys n1.toNat n2.toNat n := (RInv.start h).run acts
  refine ⟨hinv.toR.sentLength, hinv.toR.sentLe, ?_, hinv.toR.sn⟩
  intro j p w hj
  obtain ⟨e, h1, h2, _⟩ := hinv.toR.wires j p w hj
  have := (List.getElem?_eq_some_iff.mp hj).1
  have := hinv.toR.sn
  have := n.net.i.cs1.n.toNat_lt
  exact ⟨e, h1, h2, by omega⟩

/-- After any history, also with an attacker on the network: the message of the initiator that the responder waits for is
accepted if the responder has rekeyed as often as the initiator had when sending it, and gives what was sent. -/
theorem C93_next (hA : AeadCorrect P) (i r : NoiseSession) (keys : Arr 32 × Arr 32) (n1 n2 : UInt64)
    (h : InSync i r keys n1 n2) (acts : List RAct) (p w : Bytes) :
    let n := RNet.run P { net := { i := i, r := r } } acts
    n.net.sentI[(accepted n.net.gotR).length]? = some (p, w) →
    n.sentAt[(accepted n.net.gotR).length]? = some n.rekeysR →
    (n.net.r.recvMessage P w).1 = .ok () ∧ plain (n.net.r.recvMessage P w).2.2 = p := by
  intro n hw he
  have hinv : RInv P keys n1.toNat n2.toNat n := (RInv.start h).run acts
  obtain ⟨_, _, b3, b4⟩ := hinv.bounds
  exact hinv.toR.next hA hw he _ hinv.cs.2.2.2 b3 b4

/-- So if the network keeps the order, and the responder rekeys at the same places in the sequence of messages as the
initiator - not at the same time -, all messages are received, in both directions. -/
theorem C93_matched (hA : AeadCorrect P) (i r : NoiseSession) (keys : Arr 32 × Arr 32) (n1 n2 : UInt64)
    (h : InSync i r keys n1 n2) (acts : List RAct) (hf : RNet.Matched P { net := { i := i, r := r } } acts) :
    let n := (RNet.run P { net := { i := i, r := r } } acts).net
    (∀ g ∈ n.gotR, g.2.1 = .ok ()) ∧ (∀ g ∈ n.gotI, g.2.1 = .ok ()) ∧
    n.gotR.map (fun g => plain g.2.2) = (n.sentI.map (·.1)).take n.gotR.length ∧
    n.gotI.map (fun g => plain g.2.2) = (n.sentR.map (·.1)).take n.gotI.length := by
  have grow : ∀ (xs ys : List Bytes) (k : Nat), k ≤ xs.length → xs <+: ys → xs.take k = ys.take k := by
    rintro xs _ k hk ⟨t, rfl⟩
    rw [List.take_append_of_le_length hk]
  have one : ∀ (got : List (Bytes × NResult Unit × Bytes)) (sent : List (Bytes × Bytes)) (p w out : Bytes),
      got.map (fun g => plain g.2.2) = (sent.map (·.1)).take got.length → sent[got.length]? = some (p, w) →
      plain out = p →
      (got ++ [(w, (.ok () : NResult Unit), out)]).map (fun g => plain g.2.2) =
        (sent.map (·.1)).take (got ++ [(w, (.ok () : NResult Unit), out)]).length := by
    intro got sent p w out h1 h2 h3
    have hlt := (List.getElem?_eq_some_iff.mp h2).1
    rw [List.length_append, List.length_singleton, List.take_succ_eq_append_getElem (by simpa using hlt), List.map_append,
      h1]
    have : (sent.map (·.1))[got.length]? = some p := by rw [List.getElem?_map, h2]; rfl
    rw [List.getElem?_eq_getElem (by simpa using hlt), Option.some.injEq] at this
    rw [this, List.map_singleton, h3]
  have gen : ∀ (acts : List RAct) (n : RNet), RInv P keys n1.toNat n2.toNat n → n.Matched P acts →
      AllOk n.net.gotR → AllOk n.net.gotI →
      n.net.gotR.length ≤ n.net.sentI.length → n.net.gotI.length ≤ n.net.sentR.length →
      n.net.gotR.map (fun g => plain g.2.2) = (n.net.sentI.map (·.1)).take n.net.gotR.length →
      n.net.gotI.map (fun g => plain g.2.2) = (n.net.sentR.map (·.1)).take n.net.gotI.length →
      let n' := (n.run P acts).net
      AllOk n'.gotR ∧ AllOk n'.gotI ∧
      n'.gotR.map (fun g => plain g.2.2) = (n'.sentI.map (·.1)).take n'.gotR.length ∧
      n'.gotI.map (fun g => plain g.2.2) = (n'.sentR.map (·.1)).take n'.gotI.length := by
    intro acts
    induction acts with
    | nil => exact fun n _ _ o1 o2 _ _ p1 p2 => ⟨o1, o2, p1, p2⟩
    | cons act acts ih =>
      intro n hinv hf o1 o2 l1 l2 p1 p2
      have next := ih (n.step P act) (hinv.step act) hf.2
      obtain ⟨b1, b2, b3, b4⟩ := hinv.bounds
      cases act with
      | rekeyI remote => exact next o1 o2 l1 l2 p1 p2
      | rekeyR remote => exact next o1 o2 l1 l2 p1 p2
      | net act =>
      cases act with
      | iSend secret buf =>
        refine next o1 o2 ?_ l2 ?_ p2
        · exact Nat.le_trans l1 (Net.step_logs (P := P) n.net (.iSend secret buf)).1.length_le
        · show n.net.gotR.map _ = _
          rw [p1]
          exact grow _ _ _ (by simpa using l1) ((Net.step_logs (P := P) n.net (.iSend secret buf)).1.map _)
      | rSend secret buf =>
        have hp : n.net.sentR <+: (n.net.step P (.rSend secret buf)).sentR := by
          simp only [Net.step]
          split
          · exact List.prefix_append _ _
          · exact List.prefix_refl _
        refine next o1 o2 l1 (Nat.le_trans l2 hp.length_le) p1 ?_
        show n.net.gotI.map _ = _
        rw [p2]
        exact grow _ _ _ (by simpa using l2) (hp.map _)
      | toR wire =>
        obtain ⟨⟨hw, he⟩, _⟩ := hf
        rw [List.getElem?_map] at hw
        obtain ⟨⟨p, w⟩, hs, rfl⟩ := Option.map_eq_some_iff.mp hw
        have hlt := (List.getElem?_eq_some_iff.mp hs).1
        obtain ⟨g1, g2⟩ := hinv.toR.next hA (by rw [o1.accepted_length]; exact hs) (by rw [o1.accepted_length]; exact he)
          n.net.r hinv.cs.2.2.2 b3 b4
        refine next ?_ o2 ?_ l2 ?_ p2
        · intro g hg
          rcases List.mem_append.mp hg with hg | hg
          · exact o1 g hg
          · rw [List.mem_singleton.mp hg]; exact g1
        · simp only [RNet.step, Net.step, List.length_append, List.length_singleton]
          omega
        · simp only [RNet.step, Net.step]
          rw [g1]
          exact one _ _ p w _ p1 hs g2
      | toI wire =>
        obtain ⟨hw, _⟩ := hf
        simp only [List.getElem?_map] at hw
        obtain ⟨⟨p, w⟩, hs, rfl⟩ := Option.map_eq_some_iff.mp hw
        have hlt := (List.getElem?_eq_some_iff.mp hs).1
        obtain ⟨g1, g2⟩ := hinv.toI.next' hA (by rw [o2.accepted_length]; exact hs) n.net.i hinv.cs.2.1 b1 b2
        refine next o1 ?_ l1 ?_ p1 ?_
        · intro g hg
          rcases List.mem_append.mp hg with hg | hg
          · exact o2 g hg
          · rw [List.mem_singleton.mp hg]; exact g1
        · simp only [RNet.step, Net.step, List.length_append, List.length_singleton]
          omega
        · simp only [RNet.step, Net.step]
          rw [g1]
          exact one _ _ p w _ p2 hs g2
  exact gen acts _ (RInv.start h) hf (by simp [AllOk]) (by simp [AllOk]) (by simp) (by simp) (by simp) (by simp)

/-- Whatever the network delivers and whenever the sides rekey: what the responder accepted is the beginning of what the
initiator sent, each message under the key it was sent with, or an accepted message is a forgery. -/
theorem C93_prefix_or_forged (hA : AeadCorrect P) (i r : NoiseSession) (keys : Arr 32 × Arr 32) (n1 n2 : UInt64)
    (h : InSync i r keys n1 n2) (acts : List RAct) :
    let n := RNet.run P { net := { i := i, r := r } } acts
    (accepted n.net.gotR <+: n.net.sentI.map (·.1) ∧ acceptedWires n.net.gotR <+: n.net.sentI.map (·.2) ∧
      n.gotAt.map (epochKey P keys.1) <+: n.sentAt.map (epochKey P keys.1)) ∨
    ∃ j, n.ForgedAt P keys.1 n1.toNat j := by
  intro n
  have hinv : RInv P keys n1.toNat n2.toNat n := (RInv.start h).run acts
  exact hinv.toR.prefix_or_forged hA

/-- A responder that has rekeyed once more than the initiator had when it sent the message the responder waits for never
accepts anything again, whatever is sent, delivered or rekeyed: unless there is a forgery, or the keys come round. -/
theorem C93_overtaken (hA : AeadCorrect P) (i r : NoiseSession) (keys : Arr 32 × Arr 32) (n1 n2 : UInt64)
    (h : InSync i r keys n1 n2) (acts later : List RAct) (e : Nat) :
    let n := RNet.run P { net := { i := i, r := r } } acts
    let n' := RNet.run P { net := { i := i, r := r } } (acts ++ later)
    n.sentAt[(accepted n.net.gotR).length]? = some e → e < n.rekeysR →
    accepted n'.net.gotR = accepted n.net.gotR ∨ (∃ j, n'.ForgedAt P keys.1 n1.toNat j) ∨
      ∃ a b, a < b ∧ epochKey P keys.1 a = epochKey P keys.1 b := by
  intro n n' he hlt
  have hn' : n' = n.run P later := by
    show RNet.run P _ _ = _
    unfold n RNet.run
    rw [List.foldl_append]
  have hinv : RInv P keys n1.toNat n2.toNat n := (RInv.start h).run acts
  have hinv' : RInv P keys n1.toNat n2.toNat n' := (RInv.start h).run _
  obtain ⟨l1, l2, more, l3, l4⟩ := n.run_logs (P := P) later
  rw [← hn'] at l1 l2 l3
  rcases hinv'.toR.prefix_or_forged hA with ⟨_, _, hk⟩ | hf
  · have hpre := accepted_mono l2
    rcases Nat.lt_or_ge (accepted n.net.gotR).length (accepted n'.net.gotR).length with hl | hl
    · right; right
      have g0 := hinv.toR.gotLength
      have g1 := hinv'.toR.gotLength
      rw [l3, List.length_append] at g1
      have hlm : 0 < more.length := by omega
      have hj : n'.gotAt[(accepted n.net.gotR).length]? = some more[0] := by
        rw [l3, ← g0, List.getElem?_append_right (Nat.le_refl _), Nat.sub_self, List.getElem?_eq_getElem hlm]
      have hs : n'.sentAt[(accepted n.net.gotR).length]? = some e := by
        obtain ⟨t, ht⟩ := l1
        rw [← ht, List.getElem?_append_left (List.getElem?_eq_some_iff.mp he).1]
        exact he
      refine ⟨e, more[0], Nat.lt_of_lt_of_le hlt (l4 _ (List.getElem_mem hlm)), ?_⟩
      obtain ⟨t, ht⟩ := hk
      have := congrArg (·[(accepted n.net.gotR).length]?) ht
      simp only [List.getElem?_append_left
        (show (accepted n.net.gotR).length < (n'.gotAt.map (epochKey P keys.1)).length by
          rw [List.length_map]; exact (List.getElem?_eq_some_iff.mp hj).1), List.getElem?_map, hj, hs, Option.map_some,
        Option.some.injEq] at this
      exact this.symm
    · left
      exact (hpre.eq_of_length (Nat.le_antisymm hpre.length_le hl)).symm
  · exact .inr (.inl hf)

/-- Two messages of the initiator with a rekeying between them, both under way before the responder, having received the
first, rekeys - with the other function; and an answer that is not affected. -/
def toyRekeys : List RAct :=
  let k := epochKey toyPrims (Arr.replicate 32 3)
  [.net (.iSend NX.zeros (9 :: List.replicate 16 0)), .rekeyI false, .net (.iSend NX.zeros (8 :: List.replicate 16 0)),
    .net (.toR (NX.enc toyPrims (k 0) 0 [] [9])), .net (.rSend NX.zeros (7 :: List.replicate 16 0)), .rekeyR true,
    .net (.toR (NX.enc toyPrims (k 1) 1 [] [8])), .rekeyR false,
    .net (.toI (NX.enc toyPrims (Arr.replicate 32 4) 0 [] [7]))]

example : RNet.Matched toyPrims { net := { i := toyI, r := toyR } } toyRekeys := by
  refine ⟨trivial, trivial, trivial, ⟨?_, ?_⟩, trivial, trivial, ⟨?_, ?_⟩, trivial, ?_, trivial⟩ <;> decide +kernel

example : let n := RNet.run toyPrims { net := { i := toyI, r := toyR } } toyRekeys
    n.sentAt = [0, 1] ∧ n.gotAt = [0, 1] ∧ accepted n.net.gotR = [[9], [8]] ∧ accepted n.net.gotI = [[7]] ∧
    epochKey toyPrims (Arr.replicate 32 3) 0 ≠ epochKey toyPrims (Arr.replicate 32 3) 1 := by decide +kernel

/-- Without the rekeying of the responder the second message is refused; with one too many, the first one. -/
example :
    let k := epochKey toyPrims (Arr.replicate 32 3)
    let n := RNet.run toyPrims { net := { i := toyI, r := toyR } }
      (toyRekeys.take 5 ++ [.net (.toR (NX.enc toyPrims (k 1) 1 [] [8]))])
    let n' := RNet.run toyPrims { net := { i := toyI, r := toyR } }
      (toyRekeys.take 3 ++ [.rekeyR false, .net (.toR (NX.enc toyPrims (k 0) 0 [] [9]))])
    n.net.gotR.map (·.2.1) = [.ok (), .err .decryptionError] ∧
    n'.net.gotR.map (·.2.1) = [.err .decryptionError] ∧ n'.sentAt[0]? = some 0 ∧ 0 < n'.rekeysR := by decide +kernel

end SV2
