import Verif.Lemmas.Stolen
import Verif.Props.Forward
/-!
# What a change of keys protects

`rekey_local_cipherstate` (noisesession.rs:62-64) replaces the key for the messages of the initiator by one from which the old
one cannot be found.  `rekey_remote_cipherstate` (noisesession.rs:67-69) does the same to the same key, so the key for the
messages of the responder always stays.
-/

namespace SV2.Noise

variable (P : Prims) (rest : Arr 32 → Arr 12 → Nat → UInt8) {σ : Type}

/-- Two sessions after the handshake, an attacker, and any number of times: some steps, then both sides change the key.  In each
step the initiator sends one of two texts of the attacker's choice, or bytes of its choice are delivered to the responder.
After the last change the attacker gets both sessions with all keys.  The share of first keys and block functions for which it
says yes differs between the first and the second texts by at most `2 * times * (times * steps * m + m + times) / 2 ^ 256`. -/
theorem C107_stolen (i r : NoiseSession) (hi : i.i = true) (hr : r.i = false) (hi' : 2 ≤ i.getMessageCount)
    (hr' : 2 ≤ r.getMessageCount) (thief : Thief σ) (x : σ) {M m : Nat} (hm : ∀ x, (thief.next x).Within M m)
    (hv : ∀ x i r, (thief.verdict x i r).Within M m) (hc : ∀ x, (thief.next x).Alone) (hc' : ∀ x i r, (thief.verdict x i r).Alone)
    (steps times : Nat) (second second' : Bool) :
    2 ^ 256 * Nat.card {y : Arr 32 × Blocks // Stolen P rest y.2 i r thief x steps times second y.1} ≤
      2 ^ 256 * Nat.card {y : Arr 32 × Blocks // Stolen P rest y.2 i r thief x steps times second' y.1} +
        2 * times * (times * (steps * m) + m + times) * Nat.card (Arr 32 × Blocks) := by
  have h := Nat.mul_le_mul_left (2 ^ 256) (Stealing.few_tell P rest i r hi hr hi' hr' thief x hm hv hc hc' steps times second second')
  rw [Nat.mul_add] at h
  rw [Nat.card_prod, Crypto.Poly1305.card_keys, Nat.mul_left_comm _ (2 ^ 256)]
  exact h

/-- Some calls of `rekey_local_cipherstate` (true) and `rekey_remote_cipherstate` (false). -/
def NoiseSession.rekeys (Q : Prims) (calls : List Bool) (s : NoiseSession) : NoiseSession :=
  calls.foldl (fun s call => if call then s.rekeyLocal Q else s.rekeyRemote Q) s

theorem NoiseSession.rekeys_cs2 (Q : Prims) (calls : List Bool) (s : NoiseSession) : (s.rekeys Q calls).cs2 = s.cs2 := by
  induction calls generalizing s with
  | nil => rfl
  | cons call calls ih => cases call <;> exact ih _

theorem sent_opens {Q : Prims} (hQ : AeadCorrect Q) {s s' : NoiseSession} (hs : 2 ≤ s.getMessageCount) {rnd : Keypair} {m wire : Bytes}
    (h : s.sendMessage Q rnd m = (.ok (), s', wire)) :
    s'.sendCs.k = s.sendCs.k ∧ s'.i = s.i ∧
    ∃ c tag, wire = c ++ tag.toList ∧ Q.aeadOpen s.sendCs.k (NX.nonce s.sendCs.n.toNat) [] c tag = some (plain m) := by
  by_cases hl : m.length < 16 ∨ 65535 < m.length
  · rw [NoiseSession.send_badLength _ _ _ hl] at h
    cases h
  · rw [NoiseSession.send_transport _ _ _ hl hs] at h
    rcases CipherState.write_cases (P := Q) s.sendCs m (by omega) with ⟨-, -, e⟩ | ⟨e', e⟩
    · rw [e] at h
      simp only at h
      rcases NoiseSession.count_cases (s.setSend ⟨s.sendCs.k, s.sendCs.n + 1⟩)
        (CipherState.sealed Q s.sendCs.k s.sendCs.n [] (body m)) with ⟨-, e⟩ | ⟨-, e⟩
      · rw [e] at h
        obtain ⟨-, h⟩ := Prod.mk.inj h
        obtain ⟨h1, h2⟩ := Prod.mk.inj h
        subst h1
        refine ⟨?_, ?_, _, _, h2.symm, ?_⟩
        · unfold NoiseSession.setSend NoiseSession.sendCs
          cases s.i <;> rfl
        · unfold NoiseSession.setSend
          split <;> rfl
        · rw [← prepNonce_eq]
          exact hQ _ _ _ _
      · rw [e] at h
        cases (Prod.mk.inj h).1
    · rw [e] at h
      cases (Prod.mk.inj h).1

/-- The messages of the responder are not protected: however often either side calls either of the two functions afterwards,
each side still has the key that opens all that the responder has sent. -/
theorem C107_other_direction {Q : Prims} (hQ : AeadCorrect Q) {i r r' : NoiseSession} (hr : r.i = false)
    (hr' : 2 ≤ r.getMessageCount) (hk : i.cs2.k = r.cs2.k) {rnd : Keypair} {m wire : Bytes}
    (h : r.sendMessage Q rnd m = (.ok (), r', wire)) (calls : List Bool) :
    ∃ c tag, wire = c ++ tag.toList ∧
      Q.aeadOpen (i.rekeys Q calls).cs2.k (NX.nonce r.cs2.n.toNat) [] c tag = some (plain m) ∧
      Q.aeadOpen (r'.rekeys Q calls).cs2.k (NX.nonce r.cs2.n.toNat) [] c tag = some (plain m) := by
  obtain ⟨h1, h2, c, tag, e, ho⟩ := sent_opens hQ hr' h
  have hr'' : r'.i = false := h2.trans hr
  have e1 : r.sendCs = r.cs2 := if_neg (by rw [hr]; exact Bool.false_ne_true)
  have e2 : r'.sendCs = r'.cs2 := if_neg (by rw [hr'']; exact Bool.false_ne_true)
  rw [e1] at ho
  rw [e1, e2] at h1
  refine ⟨c, tag, e, ?_, ?_⟩
  · rw [NoiseSession.rekeys_cs2, hk]
    exact ho
  · rw [NoiseSession.rekeys_cs2, h1]
    exact ho

/-- The change of keys is needed: right after it has sent a message, the initiator has the key that opens it. -/
theorem C107_before {Q : Prims} (hQ : AeadCorrect Q) {i i' : NoiseSession} (hi : i.i = true) (hi' : 2 ≤ i.getMessageCount)
    {rnd : Keypair} {m wire : Bytes} (h : i.sendMessage Q rnd m = (.ok (), i', wire)) :
    ∃ c tag, wire = c ++ tag.toList ∧ Q.aeadOpen i'.cs1.k (NX.nonce i.cs1.n.toNat) [] c tag = some (plain m) := by
  obtain ⟨h1, h2, c, tag, e, ho⟩ := sent_opens hQ hi' h
  have e1 : i.sendCs = i.cs1 := if_pos hi
  have e2 : i'.sendCs = i'.cs1 := if_pos (h2.trans hi)
  rw [e1] at ho
  rw [e1, e2] at h1
  exact ⟨c, tag, e, by rw [h1]; exact ho⟩

/-! ## Cases -/

/-- An attacker that remembers all it has seen, and a block.  It has the initiator send one of two texts, and delivers the
message; after the first change of keys it does the same again.  In the end it computes a block with the stolen key. -/
def sampleThief : Thief (List Seen × UInt8) where
  next x :=
    let keep := fun y s => (x.1 ++ [s], y)
    match x.1.length with
    | 0 => .reply (.text (List.replicate 40 1) (List.replicate 40 2), keep x.2)
    | 1 => .block (Arr.replicate 32 2, NX.nonce 0, 1) fun b =>
      .reply (.deliver ((x.1.map Seen.wire).getD 0 []), keep (b.toList.headD 0))
    | 2 => .hash [1] fun _ => .reply (.text (List.replicate 30 3) (List.replicate 30 4), keep x.2)
    | _ => .reply (.deliver ((x.1.map Seen.wire).getD 2 []), keep x.2)
  verdict x i r := .block (i.cs1.k, NX.nonce 0, 1) fun b =>
    .reply (((x.1.map Seen.wire).getD 0 []).getD 0 0 ^^^ x.2 ^^^ b.toList.headD 0 ^^^ r.cs1.k.toList.headD 0 |>.toNat |>.testBit 0)

example (x : List Seen × UInt8) (i r : NoiseSession) :
    ((sampleThief.next x).Within 97 1 ∧ (sampleThief.verdict x i r).Within 97 1) ∧
    (sampleThief.next x).Alone ∧ (sampleThief.verdict x i r).Alone := by
  refine ⟨⟨?_, fun _ => trivial⟩, ?_, fun _ => trivial⟩ <;> unfold sampleThief <;> simp only [] <;> split
  · trivial
  · exact fun _ => trivial
  · exact fun _ => trivial
  · trivial
  · trivial
  · exact fun _ => trivial
  · exact fun _ => trivial
  · trivial

/-- With two times two steps all messages are sent and arrive, both before and after the first change of keys, and the attacker
says yes for the second texts and no for the first, for these functions. -/
example : let k := Arr.replicate 32 6
    let t := fun second => sampleThief.watches toyPrims (fun _ _ _ => 7) toyBlocks second 2 2 (toyI.keyed k, toyR.keyed k) ([], 0)
    toyI.i = true ∧ toyR.i = false ∧ 2 ≤ toyI.getMessageCount ∧ 2 ≤ toyR.getMessageCount ∧
    (t true).2.1.map Seen.outcome = [.ok (), .ok (), .ok (), .ok ()] ∧ (t false).2.1.map Seen.outcome = [.ok (), .ok (), .ok (), .ok ()] ∧
    (t true).1.1.cs1.k ≠ k ∧ (t true).1.1.cs1.k = (t true).1.2.cs1.k ∧
    (t true).2.1.map Seen.wire ≠ (t false).2.1.map Seen.wire ∧
    ((sampleThief.verdict (t true).2 (t true).1.1 (t true).1.2).play toyPrims (fun _ _ _ => 7) toyBlocks).result ≠
    ((sampleThief.verdict (t false).2 (t false).1.1 (t false).1.2).play toyPrims (fun _ _ _ => 7) toyBlocks).result := by
  decide +kernel

/-- The responder sends, both sides change the key several times, in both ways, and the old message can still be opened. -/
example : let Q := toyPrims.withBlocks (fun _ _ _ => 7) toyBlocks
    let r : NoiseSession := { toyR with cs2 := ⟨Arr.replicate 32 9, 5⟩ }
    let w := r.sendMessage Q Keypair.empty (List.replicate 20 3)
    w.1 = .ok () ∧ (w.2.1.rekeys Q [true, false, false]).cs1.k ≠ w.2.1.cs1.k ∧
    Q.aeadOpen (w.2.1.rekeys Q [true, false, false]).cs2.k (NX.nonce 5) [] (w.2.2.take 4) (Arr.ofSlice? 16 (w.2.2.drop 4) |>.getD (Arr.replicate 16 0)) =
      some (List.replicate 4 3) := by
  decide +kernel

end SV2.Noise
