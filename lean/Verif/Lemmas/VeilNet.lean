import Verif.Spec.Outsider
import Verif.Lemmas.Noise.Session
import Verif.Lemmas.Impersonation
/-!
# Other keys, the same blocks

In transport mode a session uses its keys only for the AEAD: with other keys and a cipher that does with them what the first
one did, everything but the keys is the same.
-/

namespace SV2.Noise

/-- The two ciphers do the same with the two keys. -/
structure Twin (Q Q' : Prims) (k k' : Arr 32) : Prop where
  seals : ∀ n p, p.length ≤ 65535 → Q.aeadSeal k n [] p = Q'.aeadSeal k' n [] p
  opens : ∀ n c m, c.length ≤ 65535 → Q.aeadOpen k n [] c m = Q'.aeadOpen k' n [] c m
  key : k ≠ EMPTY
  key' : k' ≠ EMPTY

namespace CipherState
variable {Q Q' : Prims} {k k' : Arr 32}

theorem write_twin (h : Twin Q Q' k k') (n : UInt64) (b : Bytes) (hb : b.length ≤ 65535) :
    (⟨k, n⟩ : CipherState).writeMessageRegular Q b =
      (((⟨k', n⟩ : CipherState).writeMessageRegular Q' b).1,
        ⟨k, ((⟨k', n⟩ : CipherState).writeMessageRegular Q' b).2.1.n⟩,
        ((⟨k', n⟩ : CipherState).writeMessageRegular Q' b).2.2) ∧
    ((⟨k', n⟩ : CipherState).writeMessageRegular Q' b).2.1.k = k' := by
  by_cases hl : 16 ≤ b.length
  · by_cases hn : n = MAX_NONCE
    · rw [write_exhausted _ b hl hn, write_exhausted _ b hl hn]
      exact ⟨rfl, rfl⟩
    · rw [write_ok (P := Q) ⟨k, n⟩ b hl hn h.key, write_ok (P := Q') ⟨k', n⟩ b hl hn h.key']
      refine ⟨?_, rfl⟩
      have : (body b).length ≤ 65535 := by rw [body, List.length_take]; omega
      simp only [sealed, h.seals _ _ this]
  · unfold writeMessageRegular
    rw [if_pos (by simp [MAC_LENGTH]; omega), if_pos (by simp [MAC_LENGTH]; omega)]
    exact ⟨rfl, rfl⟩

theorem read_twin (h : Twin Q Q' k k') (n : UInt64) (b : Bytes) (hb : b.length ≤ 65535) :
    (⟨k, n⟩ : CipherState).readMessageRegular Q b =
      (((⟨k', n⟩ : CipherState).readMessageRegular Q' b).1,
        ⟨k, ((⟨k', n⟩ : CipherState).readMessageRegular Q' b).2.1.n⟩,
        ((⟨k', n⟩ : CipherState).readMessageRegular Q' b).2.2) ∧
    ((⟨k', n⟩ : CipherState).readMessageRegular Q' b).2.1.k = k' := by
  by_cases hl : 16 ≤ b.length
  · have hb' : (body b).length ≤ 65535 := by rw [body, List.length_take]; omega
    rw [read_eq _ b hl, read_eq _ b hl]
    by_cases hn : n = MAX_NONCE
    · rw [decrypt_exhausted _ _ _ _ hn, decrypt_exhausted _ _ _ _ hn]
      exact ⟨rfl, rfl⟩
    · rcases ho : Q'.aeadOpen k' (prepNonce n) [] (body b) (tagArr b hl) with _ | p
      · rw [decrypt_none (P := Q') _ _ _ _ hn h.key' ho,
          decrypt_none (P := Q) _ _ _ _ hn h.key ((h.opens _ _ _ hb').trans ho)]
        exact ⟨rfl, rfl⟩
      · rw [decrypt_some (P := Q') _ _ _ _ _ hn h.key' ho,
          decrypt_some (P := Q) _ _ _ _ _ hn h.key ((h.opens _ _ _ hb').trans ho)]
        exact ⟨rfl, rfl⟩
  · unfold readMessageRegular
    rw [if_pos (by simp [MAC_LENGTH]; omega), if_pos (by simp [MAC_LENGTH]; omega)]
    exact ⟨rfl, rfl⟩

end CipherState

namespace NoiseSession
variable {Q Q' : Prims}

/-- The session with these keys. -/
def dressed (k : Arr 32 × Arr 32) (s : NoiseSession) : NoiseSession :=
  { s with cs1 := { s.cs1 with k := k.1 }, cs2 := { s.cs2 with k := k.2 } }

theorem dressed_dressed (k k' : Arr 32 × Arr 32) (s : NoiseSession) : (s.dressed k').dressed k = s.dressed k := rfl

theorem seen_dressed (k : Arr 32 × Arr 32) (s : NoiseSession) : (s.dressed k).seen = s.seen := rfl

theorem count_dressed (k : Arr 32 × Arr 32) (s : NoiseSession) (b : Bytes) :
    (s.dressed k).count b = ((s.count b).1, (s.count b).2.1.dressed k, (s.count b).2.2) ∧
      (s.count b).2.1.cs1 = s.cs1 ∧ (s.count b).2.1.cs2 = s.cs2 ∧ s.mc ≤ (s.count b).2.1.mc := by
  unfold count
  by_cases h : s.mc + 1 < 2 ^ 128
  · rw [if_pos h, if_pos (show (s.dressed k).mc + 1 < 2 ^ 128 from h)]
    exact ⟨rfl, rfl, rfl, Nat.le_succ _⟩
  · rw [if_neg h, if_neg (show ¬ (s.dressed k).mc + 1 < 2 ^ 128 from h)]
    exact ⟨rfl, rfl, rfl, Nat.le_refl _⟩

/-- The session has these keys, and is in transport mode. -/
structure Wears (k : Arr 32 × Arr 32) (s : NoiseSession) : Prop where
  k1 : s.cs1.k = k.1
  k2 : s.cs2.k = k.2
  mc : 2 ≤ s.mc

theorem send_twin {k k' : Arr 32 × Arr 32} (h1 : Twin Q Q' k.1 k'.1) (h2 : Twin Q Q' k.2 k'.2) {s : NoiseSession}
    (hs : s.Wears k') (rnd rnd' : Keypair) (b : Bytes) :
    (s.dressed k).sendMessage Q rnd b =
      ((s.sendMessage Q' rnd' b).1, (s.sendMessage Q' rnd' b).2.1.dressed k, (s.sendMessage Q' rnd' b).2.2) ∧
    (s.sendMessage Q' rnd' b).2.1.Wears k' := by
  have hm := hs.mc
  have hm' : 2 ≤ (s.dressed k).mc := hm
  by_cases hl : b.length < 16 ∨ 65535 < b.length
  · rw [send_badLength _ _ _ hl, send_badLength _ _ _ hl]
    exact ⟨rfl, hs⟩
  · rw [send_transport _ _ _ hl hm, send_transport _ _ _ hl hm']
    have hb : b.length ≤ 65535 := by omega
    cases hi : s.i with
    | true =>
      have e : s.sendCs = ⟨k'.1, s.cs1.n⟩ := by rw [sendCs, if_pos hi, ← hs.k1]
      have e' : (s.dressed k).sendCs = ⟨k.1, s.cs1.n⟩ := by
        rw [sendCs, if_pos (show (s.dressed k).i = true from hi)]; rfl
      obtain ⟨w1, w2⟩ := CipherState.write_twin h1 s.cs1.n b hb
      rw [e, e', w1]
      generalize (⟨k'.1, s.cs1.n⟩ : CipherState).writeMessageRegular Q' b = x at w2 ⊢
      obtain ⟨r, cs, buf⟩ := x
      have es : s.setSend cs = { s with cs1 := cs } := by rw [setSend, if_pos hi]
      have es' : (s.dressed k).setSend ⟨k.1, cs.n⟩ = ({ s with cs1 := cs } : NoiseSession).dressed k := by
        rw [setSend, if_pos (show (s.dressed k).i = true from hi)]; rfl
      have hw : ({ s with cs1 := cs } : NoiseSession).Wears k' := ⟨w2, hs.k2, hm⟩
      cases r with
      | ok u =>
        cases u
        simp only [es, es']
        obtain ⟨c1, c2, c3, c4⟩ := count_dressed k ({ s with cs1 := cs } : NoiseSession) buf
        exact ⟨c1, by rw [c2]; exact hw.k1, by rw [c3]; exact hw.k2, Nat.le_trans hm c4⟩
      | err e =>
        simp only [es, es']
        exact ⟨trivial, hw⟩
      | panic =>
        simp only [es, es']
        exact ⟨trivial, hw⟩
    | false =>
      have hi' : ¬ s.i = true := by rw [hi]; exact Bool.false_ne_true
      have e : s.sendCs = ⟨k'.2, s.cs2.n⟩ := by rw [sendCs, if_neg hi', ← hs.k2]
      have e' : (s.dressed k).sendCs = ⟨k.2, s.cs2.n⟩ := by
        rw [sendCs, if_neg (show ¬ (s.dressed k).i = true from hi')]; rfl
      obtain ⟨w1, w2⟩ := CipherState.write_twin h2 s.cs2.n b hb
      rw [e, e', w1]
      generalize (⟨k'.2, s.cs2.n⟩ : CipherState).writeMessageRegular Q' b = x at w2 ⊢
      obtain ⟨r, cs, buf⟩ := x
      have es : s.setSend cs = { s with cs2 := cs } := by rw [setSend, if_neg hi']
      have es' : (s.dressed k).setSend ⟨k.2, cs.n⟩ = ({ s with cs2 := cs } : NoiseSession).dressed k := by
        rw [setSend, if_neg (show ¬ (s.dressed k).i = true from hi')]; rfl
      have hw : ({ s with cs2 := cs } : NoiseSession).Wears k' := ⟨hs.k1, w2, hm⟩
      cases r with
      | ok u =>
        cases u
        simp only [es, es']
        obtain ⟨c1, c2, c3, c4⟩ := count_dressed k ({ s with cs2 := cs } : NoiseSession) buf
        exact ⟨c1, by rw [c2]; exact hw.k1, by rw [c3]; exact hw.k2, Nat.le_trans hm c4⟩
      | err e =>
        simp only [es, es']
        exact ⟨trivial, hw⟩
      | panic =>
        simp only [es, es']
        exact ⟨trivial, hw⟩

theorem recv_twin {k k' : Arr 32 × Arr 32} (h1 : Twin Q Q' k.1 k'.1) (h2 : Twin Q Q' k.2 k'.2) {s : NoiseSession}
    (hs : s.Wears k') (b : Bytes) :
    (s.dressed k).recvMessage Q b =
      ((s.recvMessage Q' b).1, (s.recvMessage Q' b).2.1.dressed k, (s.recvMessage Q' b).2.2) ∧
    (s.recvMessage Q' b).2.1.Wears k' := by
  have hm := hs.mc
  have hm' : 2 ≤ (s.dressed k).mc := hm
  by_cases hl : b.length < 16 ∨ 65535 < b.length
  · rw [recv_badLength _ _ hl, recv_badLength _ _ hl]
    exact ⟨rfl, hs⟩
  · rw [recv_transport _ _ hl hm, recv_transport _ _ hl hm']
    have hb : b.length ≤ 65535 := by omega
    cases hi : s.i with
    | false =>
      have hi' : ¬ s.i = true := by rw [hi]; exact Bool.false_ne_true
      have e : s.recvCs = ⟨k'.1, s.cs1.n⟩ := by rw [recvCs, if_neg hi', ← hs.k1]
      have e' : (s.dressed k).recvCs = ⟨k.1, s.cs1.n⟩ := by
        rw [recvCs, if_neg (show ¬ (s.dressed k).i = true from hi')]; rfl
      obtain ⟨w1, w2⟩ := CipherState.read_twin h1 s.cs1.n b hb
      rw [e, e', w1]
      generalize (⟨k'.1, s.cs1.n⟩ : CipherState).readMessageRegular Q' b = x at w2 ⊢
      obtain ⟨r, cs, buf⟩ := x
      have es : s.setRecv cs = { s with cs1 := cs } := by rw [setRecv, if_neg hi']
      have es' : (s.dressed k).setRecv ⟨k.1, cs.n⟩ = ({ s with cs1 := cs } : NoiseSession).dressed k := by
        rw [setRecv, if_neg (show ¬ (s.dressed k).i = true from hi')]; rfl
      have hw : ({ s with cs1 := cs } : NoiseSession).Wears k' := ⟨w2, hs.k2, hm⟩
      cases r with
      | ok u =>
        cases u
        simp only [es, es']
        obtain ⟨c1, c2, c3, c4⟩ := count_dressed k ({ s with cs1 := cs } : NoiseSession) buf
        exact ⟨c1, by rw [c2]; exact hw.k1, by rw [c3]; exact hw.k2, Nat.le_trans hm c4⟩
      | err e =>
        simp only [es, es']
        exact ⟨trivial, hw⟩
      | panic =>
        simp only [es, es']
        exact ⟨trivial, hw⟩
    | true =>
      have e : s.recvCs = ⟨k'.2, s.cs2.n⟩ := by rw [recvCs, if_pos hi, ← hs.k2]
      have e' : (s.dressed k).recvCs = ⟨k.2, s.cs2.n⟩ := by
        rw [recvCs, if_pos (show (s.dressed k).i = true from hi)]; rfl
      obtain ⟨w1, w2⟩ := CipherState.read_twin h2 s.cs2.n b hb
      rw [e, e', w1]
      generalize (⟨k'.2, s.cs2.n⟩ : CipherState).readMessageRegular Q' b = x at w2 ⊢
      obtain ⟨r, cs, buf⟩ := x
      have es : s.setRecv cs = { s with cs2 := cs } := by rw [setRecv, if_pos hi]
      have es' : (s.dressed k).setRecv ⟨k.2, cs.n⟩ = ({ s with cs2 := cs } : NoiseSession).dressed k := by
        rw [setRecv, if_pos (show (s.dressed k).i = true from hi)]; rfl
      have hw : ({ s with cs2 := cs } : NoiseSession).Wears k' := ⟨hs.k1, w2, hm⟩
      cases r with
      | ok u =>
        cases u
        simp only [es, es']
        obtain ⟨c1, c2, c3, c4⟩ := count_dressed k ({ s with cs2 := cs } : NoiseSession) buf
        exact ⟨c1, by rw [c2]; exact hw.k1, by rw [c3]; exact hw.k2, Nat.le_trans hm c4⟩
      | err e =>
        simp only [es, es']
        exact ⟨trivial, hw⟩
      | panic =>
        simp only [es, es']
        exact ⟨trivial, hw⟩

end NoiseSession

end SV2.Noise

namespace SV2.Stack
open Noise

/-- Both sessions with these keys. -/
def SNet.dressed (k : Arr 32 × Arr 32) (n : SNet) : SNet :=
  { n with rnet := { n.rnet with net := { n.rnet.net with i := n.rnet.net.i.dressed k, r := n.rnet.net.r.dressed k } } }

theorem SNet.seen_dressed (k : Arr 32 × Arr 32) (n : SNet) : (n.dressed k).seen = n.seen := rfl

structure SNet.Wears (k : Arr 32 × Arr 32) (n : SNet) : Prop where
  i : n.rnet.net.i.Wears k
  r : n.rnet.net.r.Wears k

theorem SNet.step_twin {Q Q' : Prims} {k k' : Arr 32 × Arr 32} (h1 : Twin Q Q' k.1 k'.1) (h2 : Twin Q Q' k.2 k'.2) {n : SNet}
    (hn : n.Wears k') (act : StackAct) :
    (n.dressed k).step Q (.stack act) = (n.step Q' (.stack act)).dressed k ∧ (n.step Q' (.stack act)).Wears k' := by
  cases act with
  | iSend secret f room =>
    obtain ⟨e, w⟩ := NoiseSession.send_twin h1 h2 hn.i (Keypair.default Q secret) (Keypair.default Q' secret) (packet f room)
    refine ⟨?_, ⟨w, hn.r⟩⟩
    simp only [SNet.step, SAct.act, StackAct.act, RNet.step, Net.step, SNet.dressed, e]
    rfl
  | rSend secret f room =>
    obtain ⟨e, w⟩ := NoiseSession.send_twin h1 h2 hn.r (Keypair.default Q secret) (Keypair.default Q' secret) (packet f room)
    refine ⟨?_, ⟨hn.i, w⟩⟩
    simp only [SNet.step, SAct.act, StackAct.act, RNet.step, Net.step, SNet.dressed, e]
    rfl
  | toR wire =>
    obtain ⟨e, w⟩ := NoiseSession.recv_twin h1 h2 hn.r wire
    refine ⟨?_, ⟨hn.i, w⟩⟩
    simp only [SNet.step, SAct.act, StackAct.act, RNet.step, Net.step, SNet.dressed, e]
    rfl
  | toI wire =>
    obtain ⟨e, w⟩ := NoiseSession.recv_twin h1 h2 hn.i wire
    refine ⟨?_, ⟨w, hn.r⟩⟩
    simp only [SNet.step, SAct.act, StackAct.act, RNet.step, Net.step, SNet.dressed, e]
    rfl

end SV2.Stack
