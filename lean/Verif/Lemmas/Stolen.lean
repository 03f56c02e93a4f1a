import Verif.Spec.Stolen
import Verif.Lemmas.VeilEar
import Mathlib.Logic.Equiv.Prod
import Mathlib.Logic.Function.Basic
/-!
# Sessions that are stolen after a change of keys

The messages could as well be encrypted with blocks of their own, that nobody knows: that makes a difference only if the
attacker, or later the sessions, compute a block with the key itself.  The next key is then one that nobody knows.
-/

namespace SV2.Noise

/-- The two ciphers do the same with the two keys, for the nonces of messages. -/
structure Like (Q Q' : Prims) (k k' : Arr 32) : Prop where
  seals : ∀ (n : UInt64) p, p.length ≤ 65535 → Q.aeadSeal k (prepNonce n) [] p = Q'.aeadSeal k' (prepNonce n) [] p
  opens : ∀ (n : UInt64) c m, c.length ≤ 65535 → Q.aeadOpen k (prepNonce n) [] c m = Q'.aeadOpen k' (prepNonce n) [] c m
  key : k = EMPTY ↔ k' = EMPTY

namespace CipherState
variable {Q Q' : Prims} {k k' : Arr 32}

theorem write_like (h : Like Q Q' k k') (n : UInt64) (b : Bytes) (hb : b.length ≤ 65535) :
    (⟨k, n⟩ : CipherState).writeMessageRegular Q b =
      (((⟨k', n⟩ : CipherState).writeMessageRegular Q' b).1,
        ⟨k, ((⟨k', n⟩ : CipherState).writeMessageRegular Q' b).2.1.n⟩,
        ((⟨k', n⟩ : CipherState).writeMessageRegular Q' b).2.2) ∧
    ((⟨k', n⟩ : CipherState).writeMessageRegular Q' b).2.1.k = k' := by
  by_cases hl : 16 ≤ b.length
  · by_cases hn : n = MAX_NONCE
    · rw [write_exhausted _ b hl hn, write_exhausted _ b hl hn]
      exact ⟨rfl, rfl⟩
    · by_cases hk : k = EMPTY
      · rw [write_noKey (P := Q) ⟨k, n⟩ b hl hn hk, write_noKey (P := Q') ⟨k', n⟩ b hl hn (h.key.mp hk)]
        exact ⟨rfl, rfl⟩
      · rw [write_ok (P := Q) ⟨k, n⟩ b hl hn hk, write_ok (P := Q') ⟨k', n⟩ b hl hn fun e => hk (h.key.mpr e)]
        refine ⟨?_, rfl⟩
        have : (body b).length ≤ 65535 := by rw [body, List.length_take]; omega
        simp only [sealed, h.seals _ _ this]
  · unfold writeMessageRegular
    rw [if_pos (by simp [MAC_LENGTH]; omega), if_pos (by simp [MAC_LENGTH]; omega)]
    exact ⟨rfl, rfl⟩

theorem read_like (h : Like Q Q' k k') (n : UInt64) (b : Bytes) (hb : b.length ≤ 65535) :
    (⟨k, n⟩ : CipherState).readMessageRegular Q b =
      (((⟨k', n⟩ : CipherState).readMessageRegular Q' b).1,
        ⟨k, ((⟨k', n⟩ : CipherState).readMessageRegular Q' b).2.1.n⟩,
        ((⟨k', n⟩ : CipherState).readMessageRegular Q' b).2.2) ∧
    ((⟨k', n⟩ : CipherState).readMessageRegular Q' b).2.1.k = k' := by
  by_cases hl : 16 ≤ b.length
  · have hb' : (body b).length ≤ 65535 := by rw [body, List.length_take]; omega
    rw [read_eq _ b hl, read_eq _ b hl]
    by_cases hn : n = MAX_NONCE
    · rw [decrypt_exhausted _ _ _ _ hn, decrypt_exhausted _ _ _ _ hn]
      exact ⟨rfl, rfl⟩
    · by_cases hk : k = EMPTY
      · rw [decrypt_noKey (P := Q) ⟨k, n⟩ _ _ _ hn hk, decrypt_noKey (P := Q') ⟨k', n⟩ _ _ _ hn (h.key.mp hk)]
        exact ⟨rfl, rfl⟩
      · have hk' : k' ≠ EMPTY := fun e => hk (h.key.mpr e)
        rcases ho : Q'.aeadOpen k' (prepNonce n) [] (body b) (tagArr b hl) with _ | p
        · rw [decrypt_none (P := Q') _ _ _ _ hn hk' ho,
            decrypt_none (P := Q) _ _ _ _ hn hk ((h.opens _ _ _ hb').trans ho)]
          exact ⟨rfl, rfl⟩
        · rw [decrypt_some (P := Q') _ _ _ _ _ hn hk' ho,
            decrypt_some (P := Q) _ _ _ _ _ hn hk ((h.opens _ _ _ hb').trans ho)]
          exact ⟨rfl, rfl⟩
  · unfold readMessageRegular
    rw [if_pos (by simp [MAC_LENGTH]; omega), if_pos (by simp [MAC_LENGTH]; omega)]
    exact ⟨rfl, rfl⟩

end CipherState

theorem like_blocks (P : Prims) (rest : Arr 32 → Arr 12 → Nat → UInt8) {b b' : Blocks} {k k' : Arr 32}
    (h : ∀ (n : UInt64) c, b (k, prepNonce n, c) = b' (k', prepNonce n, c)) (hk : k = EMPTY ↔ k' = EMPTY) :
    Like (P.withBlocks rest b) (P.withBlocks rest b') k k' := by
  have hm : ∀ (n : UInt64) p, p.length ≤ 65535 → mask (b.stream rest k (prepNonce n)) p = mask (b'.stream rest k' (prepNonce n)) p :=
    fun n p hp => mask_congr fun i hi => stream_row _ _ b b' _ _ _ (h n) (by omega)
  have ho : ∀ n : UInt64, b.oneTime (k, prepNonce n) = b'.oneTime (k', prepNonce n) := by
    intro n
    unfold Blocks.oneTime
    simp only [h]
  refine ⟨fun n p hp => ?_, fun n c m hc => ?_, hk⟩
  · simp only [Prims.withBlocks, Prims.withMac, hm n p hp, ho]
  · simp only [Prims.withBlocks, Prims.withMac, hm n c hc, ho]

/-- The key after `k`. -/
def afterKey (b : Blocks) (k : Arr 32) : Arr 32 :=
  ⟨(b (k, CipherState.rekeyNonce, 1)).toList.take 32, by rw [List.length_take, Arr.len]; rfl⟩

theorem rekey_blocks (P : Prims) (rest : Arr 32 → Arr 12 → Nat → UInt8) (b : Blocks) (k : Arr 32) :
    ((P.withBlocks rest b).aeadSeal k CipherState.rekeyNonce [] EMPTY.toList).1 = (afterKey b k).toList := by
  have e1 : ((P.withBlocks rest b).aeadSeal k CipherState.rekeyNonce [] EMPTY.toList).1 =
      mask (b.stream rest k CipherState.rekeyNonce) EMPTY.toList := by simp only [Prims.withBlocks, Prims.withMac]
  have e2 : (afterKey b k).toList = (b (k, CipherState.rekeyNonce, 1)).toList.take 32 := by simp only [afterKey]
  rw [e1, e2]
  have hl : (b (k, CipherState.rekeyNonce, 1)).toList.length = 64 := Arr.len _
  have hE : EMPTY.toList.length = 32 := Arr.len _
  refine List.ext_getElem (by rw [length_mask, List.length_take, hl, hE]; rfl) fun i h1 h2 => ?_
  rw [length_mask, hE] at h1
  have e0 : EMPTY.toList[i]'(by rw [hE]; exact h1) = 0 := by
    simp only [EMPTY, Arr.replicate, List.getElem_replicate]
  have hd : (⟨1 + i / 64, by omega⟩ : Fin 1025) = 1 := Fin.ext (by show 1 + i / 64 = 1; omega)
  have es : b.stream rest k CipherState.rekeyNonce i = (b (k, CipherState.rekeyNonce, 1)).toList.getD i 0 := by
    unfold Blocks.stream
    rw [dif_pos (by omega), hd, Nat.mod_eq_of_lt (by omega : i < 64)]
  rw [List.getElem_take]
  simp only [mask, List.getElem_mapIdx, e0]
  rw [es, List.getD_eq_getElem?_getD, List.getElem?_eq_getElem (by omega), Option.getD_some, UInt8.zero_xor]

namespace NoiseSession
variable {Q Q' : Prims} {k k' : Arr 32}

theorem count_keyed (k : Arr 32) (s : NoiseSession) (b : Bytes) :
    (s.keyed k).count b = ((s.count b).1, (s.count b).2.1.keyed k, (s.count b).2.2) := by
  unfold count
  by_cases h : s.mc + 1 < 2 ^ 128
  · rw [if_pos h, if_pos (show (s.keyed k).mc + 1 < 2 ^ 128 from h)]
    rfl
  · rw [if_neg h, if_neg (show ¬ (s.keyed k).mc + 1 < 2 ^ 128 from h)]

theorem count_same (s : NoiseSession) (b : Bytes) : (s.count b).2.1.i = s.i ∧ (s.count b).2.1.cs1 = s.cs1 ∧
    (s.count b).2.1.cs2 = s.cs2 ∧ s.mc ≤ (s.count b).2.1.mc := by
  unfold count
  split
  · exact ⟨rfl, rfl, rfl, Nat.le_succ _⟩
  · exact ⟨rfl, rfl, rfl, Nat.le_refl _⟩

/-- In transport mode, in this role, with this key for the messages of the initiator, and this other key. -/
structure Holds (a : Bool) (k o : Arr 32) (s : NoiseSession) : Prop where
  i : s.i = a
  k1 : s.cs1.k = k
  k2 : s.cs2.k = o
  mc : 2 ≤ s.mc

theorem send_keyed {o : Arr 32} (h : Like Q Q' k k') {s : NoiseSession} (hs : s.Holds true k' o) (rnd : Keypair) (b : Bytes) :
    (s.keyed k).sendMessage Q rnd b =
      ((s.sendMessage Q' rnd b).1, (s.sendMessage Q' rnd b).2.1.keyed k, (s.sendMessage Q' rnd b).2.2) ∧
    (s.sendMessage Q' rnd b).2.1.Holds true k' o := by
  have hm := hs.mc
  have hm' : 2 ≤ (s.keyed k).mc := hm
  have hi := hs.i
  by_cases hl : b.length < 16 ∨ 65535 < b.length
  · rw [send_badLength _ _ _ hl, send_badLength _ _ _ hl]
    exact ⟨rfl, hs⟩
  · rw [send_transport _ _ _ hl hm, send_transport _ _ _ hl hm']
    have e : s.sendCs = ⟨k', s.cs1.n⟩ := by rw [sendCs, if_pos hi, ← hs.k1]
    have e' : (s.keyed k).sendCs = ⟨k, s.cs1.n⟩ := by
      rw [sendCs, if_pos (show (s.keyed k).i = true from hi)]; rfl
    obtain ⟨w1, w2⟩ := CipherState.write_like h s.cs1.n b (by omega)
    rw [e, e', w1]
    generalize (⟨k', s.cs1.n⟩ : CipherState).writeMessageRegular Q' b = x at w2 ⊢
    obtain ⟨r, cs, buf⟩ := x
    have es : s.setSend cs = { s with cs1 := cs } := by rw [setSend, if_pos hi]
    have es' : (s.keyed k).setSend ⟨k, cs.n⟩ = ({ s with cs1 := cs } : NoiseSession).keyed k := by
      rw [setSend, if_pos (show (s.keyed k).i = true from hi)]; rfl
    have hw : ({ s with cs1 := cs } : NoiseSession).Holds true k' o := ⟨hi, w2, hs.k2, hm⟩
    cases r with
    | ok u =>
      cases u
      simp only [es, es']
      obtain ⟨c1, c2, c3, c4⟩ := count_same ({ s with cs1 := cs } : NoiseSession) buf
      exact ⟨count_keyed k _ buf, c1.trans hi, (congrArg CipherState.k c2).trans hw.k1, (congrArg CipherState.k c3).trans hw.k2,
        Nat.le_trans hm c4⟩
    | err e =>
      simp only [es, es']
      exact ⟨trivial, hw⟩
    | panic =>
      simp only [es, es']
      exact ⟨trivial, hw⟩

theorem recv_keyed {o : Arr 32} (h : Like Q Q' k k') {s : NoiseSession} (hs : s.Holds false k' o) (b : Bytes) :
    (s.keyed k).recvMessage Q b =
      ((s.recvMessage Q' b).1, (s.recvMessage Q' b).2.1.keyed k, (s.recvMessage Q' b).2.2) ∧
    (s.recvMessage Q' b).2.1.Holds false k' o := by
  have hm := hs.mc
  have hm' : 2 ≤ (s.keyed k).mc := hm
  have hi := hs.i
  have hi' : ¬ s.i = true := by rw [hi]; exact Bool.false_ne_true
  by_cases hl : b.length < 16 ∨ 65535 < b.length
  · rw [recv_badLength _ _ hl, recv_badLength _ _ hl]
    exact ⟨rfl, hs⟩
  · rw [recv_transport _ _ hl hm, recv_transport _ _ hl hm']
    have e : s.recvCs = ⟨k', s.cs1.n⟩ := by rw [recvCs, if_neg hi', ← hs.k1]
    have e' : (s.keyed k).recvCs = ⟨k, s.cs1.n⟩ := by
      rw [recvCs, if_neg (show ¬ (s.keyed k).i = true from hi')]; rfl
    obtain ⟨w1, w2⟩ := CipherState.read_like h s.cs1.n b (by omega)
    rw [e, e', w1]
    generalize (⟨k', s.cs1.n⟩ : CipherState).readMessageRegular Q' b = x at w2 ⊢
    obtain ⟨r, cs, buf⟩ := x
    have es : s.setRecv cs = { s with cs1 := cs } := by rw [setRecv, if_neg hi']
    have es' : (s.keyed k).setRecv ⟨k, cs.n⟩ = ({ s with cs1 := cs } : NoiseSession).keyed k := by
      rw [setRecv, if_neg (show ¬ (s.keyed k).i = true from hi')]; rfl
    have hw : ({ s with cs1 := cs } : NoiseSession).Holds false k' o := ⟨hi, w2, hs.k2, hm⟩
    cases r with
    | ok u =>
      cases u
      simp only [es, es']
      obtain ⟨c1, c2, c3, c4⟩ := count_same ({ s with cs1 := cs } : NoiseSession) buf
      exact ⟨count_keyed k _ buf, c1.trans hi, (congrArg CipherState.k c2).trans hw.k1, (congrArg CipherState.k c3).trans hw.k2,
        Nat.le_trans hm c4⟩
    | err e =>
      simp only [es, es']
      exact ⟨trivial, hw⟩
    | panic =>
      simp only [es, es']
      exact ⟨trivial, hw⟩

theorem keyed_self {a : Bool} {k o : Arr 32} {s : NoiseSession} (h : s.Holds a k o) : s.keyed k = s := by
  rw [← h.k1]; rfl

theorem keyed_keyed (k k' : Arr 32) (s : NoiseSession) : (s.keyed k').keyed k = s.keyed k := rfl

theorem rekey_eq (P : Prims) (rest : Arr 32 → Arr 12 → Nat → UInt8) (b : Blocks) {a : Bool} {k o : Arr 32} {s : NoiseSession} (h : s.Holds a k o) :
    s.rekeyLocal (P.withBlocks rest b) = s.keyed (afterKey b k) := by
  have e : (s.cs1.rekey (P.withBlocks rest b)).k = afterKey b k := by
    rw [← h.k1]
    refine arr_ext ?_
    simp only [CipherState.rekey]
    exact rekey_blocks P rest b s.cs1.k
  rw [← e]
  rfl

end NoiseSession

namespace Stealing
open Veiled Function

variable (P : Prims) (rest : Arr 32 → Arr 12 → Nat → UInt8)

/-! ## What the attacker asks -/

/-- With a block function that is different only for a key that it did not use, it does the same. -/
theorem play_same {α : Type} {c : Curious α} (hc : c.Alone) {B B' : Blocks} {k : Arr 32} (hB : ∀ x, x.1 ≠ k → B' x = B x)
    (hk : k ∉ (c.play P rest B).keys) :
    (c.play P rest B').result = (c.play P rest B).result := by
  induction c with
  | reply a => rfl
  | hash x next ih => exact ih _ (hc _) hk
  | block x next ih =>
    have hx : x.1 ≠ k := fun e => hk (List.mem_cons.mpr (.inl e.symm))
    have hk' : k ∉ ((next (B x)).play P rest B).keys := fun h => hk (List.mem_cons.mpr (.inr h))
    show ((next (B' x)).play P rest B').result = ((next (B x)).play P rest B).result
    rw [hB x hx]
    exact ih _ (hc _) hk'
  | serve c next ih => exact hc.elim

theorem keys_length {α : Type} {c : Curious α} {M m : Nat} (hm : c.Within M m) (hc : c.Alone) (B : Blocks) :
    (c.play P rest B).keys.length ≤ m := by
  induction c generalizing m with
  | reply a => exact Nat.zero_le _
  | hash x next ih =>
    cases m with
    | zero => exact hm.elim
    | succ m => exact (ih _ (hm _) (hc _)).trans (Nat.le_succ m)
  | block x next ih =>
    cases m with
    | zero => exact hm.elim
    | succ m => exact Nat.succ_le_succ (ih _ (hm _) (hc _))
  | serve c next ih => exact hc.elim

/-- One after the other. -/
def andThen {α β : Type} : Curious α → (α → Curious β) → Curious β
  | .reply a, f => f a
  | .hash x next, f => .hash x fun y => andThen (next y) f
  | .block x next, f => .block x fun y => andThen (next y) f
  | .serve c next, f => .serve c fun a => andThen (next a) f

theorem play_andThen {α β : Type} (c : Curious α) (f : α → Curious β) (B : Blocks) :
    ((andThen c f).play P rest B).result = ((f (c.play P rest B).result).play P rest B).result := by
  induction c with
  | reply a => rfl
  | hash x next ih => exact ih _
  | block x next ih => exact ih _
  | serve c next ih => exact ih _

theorem andThen_alone {α β : Type} {c : Curious α} {f : α → Curious β} (h : c.Alone) (hf : ∀ x, (f x).Alone) : (andThen c f).Alone := by
  induction c with
  | reply a => exact hf a
  | hash x next ih => exact fun y => ih y (h y)
  | block x next ih => exact fun y => ih y (h y)
  | serve c next ih => exact h.elim

theorem within_more {α : Type} {c : Curious α} {M a b : Nat} (h : c.Within M a) (hab : a ≤ b) : c.Within M b := by
  induction c generalizing a b with
  | reply a => cases b <;> trivial
  | hash x next ih =>
    cases a with
    | zero => exact h.elim
    | succ a => cases b with
      | zero => omega
      | succ b => exact fun y => ih y (h y) (by omega)
  | block x next ih =>
    cases a with
    | zero => exact h.elim
    | succ a => cases b with
      | zero => omega
      | succ b => exact fun y => ih y (h y) (by omega)
  | serve c next ih =>
    cases a with
    | zero => exact h.elim
    | succ a => cases b with
      | zero => omega
      | succ b => exact ⟨h.1, fun y => ih y (h.2 y) (by omega)⟩

theorem andThen_within {α β : Type} {c : Curious α} {f : α → Curious β} {M a b : Nat} (h : c.Within M a) (hf : ∀ x, (f x).Within M b) :
    (andThen c f).Within M (a + b) := by
  induction c generalizing a with
  | reply x => exact within_more (hf x) (by omega)
  | hash x next ih =>
    cases a with
    | zero => exact h.elim
    | succ a => rw [Nat.succ_add]; exact fun y => ih y (h y)
  | block x next ih =>
    cases a with
    | zero => exact h.elim
    | succ a => rw [Nat.succ_add]; exact fun y => ih y (h y)
  | serve c next ih =>
    cases a with
    | zero => exact h.elim
    | succ a => rw [Nat.succ_add]; exact ⟨h.1, fun y => ih y (h.2 y)⟩

/-! ## Blocks of their own -/

/-- Both sessions. -/
structure Both (k o o' : Arr 32) (s : Duo) : Prop where
  i : s.1.Holds true k o
  r : s.2.Holds false k o'

def dress (k : Arr 32) (s : Duo) : Duo := (s.1.keyed k, s.2.keyed k)

theorem act_keyed {Q Q' : Prims} {k k' o o' : Arr 32} (h : Like Q Q' k k') {s : Duo} (hs : Both k' o o' s) (second : Bool) (t : Say) :
    (dress k s).act Q second t.move =
      ((s.act Q' second t.move).1, (s.act Q' second t.move).2.1, dress k (s.act Q' second t.move).2.2) ∧
    Both k' o o' (s.act Q' second t.move).2.2 := by
  cases t with
  | text m0 m1 =>
    simp only [Say.move, Duo.act]
    split
    · obtain ⟨e, w⟩ := NoiseSession.send_keyed h hs.i Keypair.empty (if second then m1 else m0)
      show _ = _ ∧ _
      have hg : (dress k s).get .initiator = s.1.keyed k := rfl
      have hg' : s.get .initiator = s.1 := rfl
      rw [hg, hg', e]
      generalize s.1.sendMessage Q' Keypair.empty (if second then m1 else m0) = x at w ⊢
      obtain ⟨o, x, wire⟩ := x
      cases o with
      | ok u => cases u; exact ⟨rfl, w, hs.r⟩
      | err e => exact ⟨rfl, w, hs.r⟩
      | panic => exact ⟨rfl, w, hs.r⟩
    · exact ⟨rfl, hs⟩
  | deliver bytes =>
    obtain ⟨e, w⟩ := NoiseSession.recv_keyed h hs.r bytes
    simp only [Say.move, Duo.act]
    have hg : (dress k s).get .responder = s.2.keyed k := rfl
    have hg' : s.get .responder = s.2 := rfl
    rw [hg, hg', e]
    exact ⟨rfl, hs.i, w⟩

theorem like_refl (Q : Prims) (k : Arr 32) : Like Q Q k k := ⟨fun _ _ _ => rfl, fun _ _ _ _ => rfl, Iff.rfl⟩

theorem dress_self {k o o' : Arr 32} {s : Duo} (hs : Both k o o' s) : dress k s = s :=
  Prod.ext (NoiseSession.keyed_self hs.i) (NoiseSession.keyed_self hs.r)

theorem Both.dress {k o o' : Arr 32} {s : Duo} (hs : Both k o o' s) (k' : Arr 32) : Both k' o o' (dress k' s) :=
  ⟨⟨hs.i.i, rfl, hs.i.k2, hs.i.mc⟩, ⟨hs.r.i, rfl, hs.r.k2, hs.r.mc⟩⟩

theorem rekeyed_eq {k o o' : Arr 32} {s : Duo} (hs : Both k o o' s) (B : Blocks) :
    s.rekeyed (P.withBlocks rest B) = dress (afterKey B k) s :=
  Prod.ext (NoiseSession.rekey_eq P rest B hs.i) (NoiseSession.rekey_eq P rest B hs.r)

variable {σ : Type}

/-- The steps, where the sessions use `Q` and the attacker `B`; with the keys of the blocks that it computed. -/
def ghost (thief : Thief σ) (Q : Prims) (B : Blocks) (second : Bool) : Nat → Duo → σ → Duo × σ × List (Arr 32)
  | 0, s, x => (s, x, [])
  | n + 1, s, x =>
    let p := (thief.next x).play P rest B
    let r := s.act Q second p.result.1.move
    let g := ghost thief Q B second n r.2.2 (p.result.2 (Seen.blind ⟨r.1, r.2.1, r.2.2.1, r.2.2.2⟩))
    (g.1, g.2.1, p.keys ++ g.2.2)

theorem ghost_watch (thief : Thief σ) (B : Blocks) (second : Bool) (n : Nat) (s : Duo) (x : σ) :
    thief.watch P rest B second n s x = ((ghost P rest thief (P.withBlocks rest B) B second n s x).1,
      (ghost P rest thief (P.withBlocks rest B) B second n s x).2.1) := by
  induction n generalizing s x with
  | zero => rfl
  | succ n ih => exact ih _ _

theorem ghost_length (thief : Thief σ) (Q : Prims) (B : Blocks) (second : Bool) {M m : Nat} (hm : ∀ x, (thief.next x).Within M m)
    (hc : ∀ x, (thief.next x).Alone) (n : Nat) (s : Duo) (x : σ) :
    (ghost P rest thief Q B second n s x).2.2.length ≤ n * m := by
  induction n generalizing s x with
  | zero => exact Nat.zero_le _
  | succ n ih =>
    show (_ ++ _ : List (Arr 32)).length ≤ _
    rw [List.length_append, Nat.add_one_mul, Nat.add_comm (n * m)]
    exact Nat.add_le_add (keys_length P rest (hm x) (hc x) B) (ih _ _)

theorem ghost_both {Q : Prims} {k o o' : Arr 32} (thief : Thief σ) (B : Blocks) (second : Bool) (n : Nat) {s : Duo}
    (hs : Both k o o' s) (x : σ) : Both k o o' (ghost P rest thief Q B second n s x).1 := by
  induction n generalizing s x with
  | zero => exact hs
  | succ n ih => exact ih (act_keyed (like_refl Q k) hs second _).2 _

/-- If the attacker does not compute a block with the key `a`, the row of that key does not matter for it. -/
theorem ghost_same {B B' : Blocks} {Q Q' : Prims} {a k k' o o' : Arr 32} (hB : ∀ x, x.1 ≠ a → B' x = B x)
    (h : Like Q Q' k k') {thief : Thief σ} (hc : ∀ x, (thief.next x).Alone) (second : Bool) (n : Nat) {s : Duo}
    (hs : Both k' o o' s) (x : σ) (ha : a ∉ (ghost P rest thief Q' B second n s x).2.2) :
    (ghost P rest thief Q B' second n (dress k s) x).1 = dress k (ghost P rest thief Q' B second n s x).1 ∧
    (ghost P rest thief Q B' second n (dress k s) x).2.1 = (ghost P rest thief Q' B second n s x).2.1 := by
  induction n generalizing s x with
  | zero => exact ⟨rfl, rfl⟩
  | succ n ih =>
    obtain ⟨h1, h2⟩ := not_or.mp fun h => ha (List.mem_append.mpr h)
    have e := play_same P rest (hc x) hB h1
    obtain ⟨a1, a2⟩ := act_keyed h hs second ((thief.next x).play P rest B).result.1
    have hi := ih a2 _ h2
    unfold ghost
    simp only [e, a1]
    exact hi

/-- What the attacker says in the end, and the keys of all blocks that it or a session computed. -/
def run (thief : Thief σ) (B : Blocks) (second : Bool) (n : Nat) : Nat → Duo → σ → Bool × List (Arr 32)
  | 0, s, x => let v := (thief.verdict x s.1 s.2).play P rest B; (v.result, v.keys)
  | j + 1, s, x =>
    let g := ghost P rest thief (P.withBlocks rest B) B second n s x
    let l := run thief B second n j (g.1.rekeyed (P.withBlocks rest B)) g.2.1
    (l.1, s.1.cs1.k :: (g.2.2 ++ l.2))

/-- The same, where the first messages have blocks of their own. -/
def part (thief : Thief σ) (B T : Blocks) (second later : Bool) (n j : Nat) (s : Duo) (x : σ) : Bool × List (Arr 32) :=
  let g := ghost P rest thief (P.withBlocks rest T) B second n s x
  let l := run P rest thief B later n j (g.1.rekeyed (P.withBlocks rest T)) g.2.1
  (l.1, g.2.2 ++ l.2)

theorem run_watches (thief : Thief σ) (B : Blocks) (second : Bool) (n j : Nat) (s : Duo) (x : σ) :
    (run P rest thief B second n j s x).1 =
      ((thief.verdict (thief.watches P rest B second n j s x).2 (thief.watches P rest B second n j s x).1.1
        (thief.watches P rest B second n j s x).1.2).play P rest B).result := by
  induction j generalizing s x with
  | zero => rfl
  | succ j ih =>
    unfold Thief.watches run
    simp only [ghost_watch]
    exact ih _ _

theorem run_length (thief : Thief σ) (B : Blocks) (second : Bool) {M m : Nat} (hm : ∀ x, (thief.next x).Within M m)
    (hc : ∀ x, (thief.next x).Alone) (hv : ∀ x i r, (thief.verdict x i r).Within M m) (hc' : ∀ x i r, (thief.verdict x i r).Alone)
    (n j : Nat) (s : Duo) (x : σ) : (run P rest thief B second n j s x).2.length ≤ j * (n * m) + m + j := by
  induction j generalizing s x with
  | zero => exact (keys_length P rest (hv _ _ _) (hc' _ _ _) B).trans (by omega)
  | succ j ih =>
    show (_ :: (_ ++ _) : List (Arr 32)).length ≤ _
    have g := ghost_length P rest thief (P.withBlocks rest B) B second hm hc n s x
    have l := ih ((ghost P rest thief (P.withBlocks rest B) B second n s x).1.rekeyed (P.withBlocks rest B))
      (ghost P rest thief (P.withBlocks rest B) B second n s x).2.1
    rw [List.length_cons, List.length_append, Nat.add_one_mul]
    omega

theorem run_same {B B' : Blocks} {a : Arr 32} (hB : ∀ x, x.1 ≠ a → B' x = B x) {thief : Thief σ} (hc : ∀ x, (thief.next x).Alone)
    (hv : ∀ x i r, (thief.verdict x i r).Alone) (second : Bool) (n j : Nat) {k o o' : Arr 32} {s : Duo} (hs : Both k o o' s) (x : σ)
    (ha : a ∉ (run P rest thief B second n j s x).2) :
    (run P rest thief B' second n j s x).1 = (run P rest thief B second n j s x).1 := by
  induction j generalizing k s x with
  | zero => exact play_same P rest (hv _ _ _) hB ha
  | succ j ih =>
    obtain ⟨h1, h2⟩ := not_or.mp fun h => ha (List.mem_cons.mpr h)
    obtain ⟨h2, h3⟩ := not_or.mp fun h => h2 (List.mem_append.mpr h)
    have hk : k ≠ a := fun e => h1 (e.symm.trans hs.i.k1.symm)
    have hl : Like (P.withBlocks rest B') (P.withBlocks rest B) k k := like_blocks P rest (fun _ _ => hB _ hk) Iff.rfl
    obtain ⟨g1, g2⟩ := ghost_same P rest hB hl hc second n hs x h2
    have hb : Both k o o' (ghost P rest thief (P.withBlocks rest B) B second n s x).1 := ghost_both P rest thief B second n hs x
    rw [dress_self hs, dress_self hb] at g1
    rw [dress_self hs] at g2
    have ek : afterKey B' k = afterKey B k := by
      unfold afterKey
      simp only [hB (k, CipherState.rekeyNonce, 1) hk]
    unfold run
    simp only [g1, g2, rekeyed_eq P rest hb, ek]
    rw [rekeyed_eq P rest hb] at h3
    exact ih (hb.dress _) _ h3

theorem run_part {B B' T : Blocks} {k k' o o' : Arr 32} (hB : ∀ x, x.1 ≠ k → B' x = B x) (hT : ∀ y, B' (k, y) = T (k', y))
    (hk : k ≠ EMPTY) (hk' : k' ≠ EMPTY) {thief : Thief σ} (hc : ∀ x, (thief.next x).Alone)
    (hv : ∀ x i r, (thief.verdict x i r).Alone) (second : Bool) (n j : Nat) {s : Duo} (hs : Both k' o o' s) (x : σ)
    (ha : k ∉ (part P rest thief B T second second n j s x).2) :
    (run P rest thief B' second n (j + 1) (dress k s) x).1 = (part P rest thief B T second second n j s x).1 := by
  obtain ⟨h2, h3⟩ := not_or.mp fun h => ha (List.mem_append.mpr h)
  have hl : Like (P.withBlocks rest B') (P.withBlocks rest T) k k' :=
    like_blocks P rest (fun _ _ => hT _) ⟨fun h => (hk h).elim, fun h => (hk' h).elim⟩
  obtain ⟨g1, g2⟩ := ghost_same P rest hB hl hc second n hs x h2
  have hb : Both k' o o' (ghost P rest thief (P.withBlocks rest T) B second n s x).1 := ghost_both P rest thief B second n hs x
  have ek : afterKey B' k = afterKey T k' := by
    unfold afterKey
    simp only [hT]
  unfold run part
  simp only [g1, g2, rekeyed_eq P rest (hb.dress k), rekeyed_eq P rest hb, ek]
  rw [rekeyed_eq P rest hb] at h3
  exact run_same P rest hB hc hv second n j (hb.dress _) _ h3

/-! ## With blocks of their own nobody can tell -/

/-- What the attacker remembers when it has seen all this. -/
def recall (thief : Thief σ) (B : Blocks) : σ → List Seen → σ
  | x, [] => x
  | x, y :: l => recall thief B (((thief.next x).play P rest B).result.2 y) l

theorem recall_append (thief : Thief σ) (B : Blocks) (x : σ) (l : List Seen) (y : Seen) :
    recall P rest thief B x (l ++ [y]) = ((thief.next (recall P rest thief B x l)).play P rest B).result.2 y := by
  induction l generalizing x with
  | nil => rfl
  | cons z l ih => exact ih _

/-- What the attacker does when it sees more, and in the end has the initiator change keys. -/
def bold (thief : Thief σ) (B : Blocks) (n : Nat) (x : σ) : Attacker := fun seen =>
  if seen.length < n then ((thief.next (recall P rest thief B x (seen.map Seen.blind))).play P rest B).result.1.move
  else .rekeyLocal .initiator

theorem play_ghost {Q : Prims} {k o o' : Arr 32} (hko : k ≠ o') (thief : Thief σ) (B : Blocks) (second : Bool) (n j : Nat) (x : σ) {s : Duo}
    (hs : Both k o o' s) (seen : List Seen) (hj : seen.length + j = n) :
    let g := ghost P rest thief Q B second j s (recall P rest thief B x (seen.map Seen.blind))
    ∃ l, Duo.play Q second (bold P rest thief B n x) (j + 1) s seen = l ++ [⟨.ok (), [], g.1.1.rekeyLocal Q, g.1.2⟩] ∧
      recall P rest thief B x (l.map Seen.blind) = g.2.1 := by
  have hne : ∀ {s : Duo}, Both k o o' s → ¬ s.1.cs1.k = s.2.cs2.k := fun hs => by rw [hs.i.k1, hs.r.k2]; exact hko
  induction j generalizing s seen with
  | zero =>
    refine ⟨seen, ?_, rfl⟩
    unfold Duo.play
    rw [if_neg (hne hs)]
    have e : bold P rest thief B n x seen = .rekeyLocal .initiator := if_neg (by omega)
    rw [e]
    rfl
  | succ j ih =>
    have e : bold P rest thief B n x seen =
        ((thief.next (recall P rest thief B x (seen.map Seen.blind))).play P rest B).result.1.move := if_pos (by omega)
    obtain ⟨-, a2⟩ := act_keyed (like_refl Q k) hs second ((thief.next (recall P rest thief B x (seen.map Seen.blind))).play P rest B).result.1
    intro g
    let r := s.act Q second ((thief.next (recall P rest thief B x (seen.map Seen.blind))).play P rest B).result.1.move
    have hi := ih a2 (seen ++ [⟨r.1, r.2.1, r.2.2.1, r.2.2.2⟩]) (by rw [List.length_append, List.length_singleton]; omega)
    rw [List.map_append, List.map_singleton, recall_append] at hi
    unfold Duo.play
    rw [if_neg (hne hs), e]
    exact hi

/-- What follows, from all that the bold one has seen. -/
def judge (thief : Thief σ) (B : Blocks) (x : σ) (F : Duo → σ → Prop) (seen : List Seen) : Prop :=
  ∃ l y, seen = l ++ [y] ∧ F (y.initiator, y.responder.keyed y.initiator.cs1.k) (recall P rest thief B x (l.map Seen.blind))

theorem judge_ghost {Q : Prims} {k o o' : Arr 32} (hko : k ≠ o') (thief : Thief σ) (B : Blocks) (second : Bool) (n : Nat) (x : σ) {s : Duo}
    (hs : Both k o o' s) (F : Duo → σ → Prop) :
    judge P rest thief B x F (Duo.play Q second (bold P rest thief B n x) (n + 1) s []) ↔
      F ((ghost P rest thief Q B second n s x).1.rekeyed Q) (ghost P rest thief Q B second n s x).2.1 := by
  obtain ⟨l, e, hl⟩ := play_ghost P rest hko thief B second n n x hs [] (by simp)
  have b : Both k o o' (ghost P rest thief Q B second n s x).1 := ghost_both P rest thief B second n hs x
  rw [e]
  have er : ∀ g : Duo, Both k o o' g → (g.1.rekeyLocal Q, g.2.keyed (g.1.rekeyLocal Q).cs1.k) = g.rekeyed Q := by
    intro g hg
    have e : g.1.cs1.k = g.2.cs1.k := hg.i.k1.trans hg.r.k1.symm
    unfold Duo.rekeyed NoiseSession.keyed NoiseSession.rekeyLocal CipherState.rekey
    simp only [e]
  have e0 : recall P rest thief B x (List.map Seen.blind []) = x := rfl
  rw [e0] at hl
  rw [e0, ← er _ b, ← hl]
  constructor
  · rintro ⟨l', y, e', hv⟩
    obtain ⟨rfl, e2⟩ := List.append_inj' e' rfl
    obtain rfl := (List.cons.inj e2).1
    exact hv
  · intro hv
    exact ⟨l, _, rfl, hv⟩

theorem ghost_alike {k o o' : Arr 32} (hko : k ≠ o') (thief : Thief σ) (B : Blocks) (n : Nat) (x : σ) {s : Duo} (hs : Both k o o' s)
    (F : Duo → σ → Prop) (second second' : Bool) :
    Nat.card {T : Blocks // F ((ghost P rest thief (P.withBlocks rest T) B second n s x).1.rekeyed (P.withBlocks rest T))
      (ghost P rest thief (P.withBlocks rest T) B second n s x).2.1} =
    Nat.card {T : Blocks // F ((ghost P rest thief (P.withBlocks rest T) B second' n s x).1.rekeyed (P.withBlocks rest T))
      (ghost P rest thief (P.withBlocks rest T) B second' n s x).2.1} := by
  have h := C94_secret P rest s.1 s.2 hs.i.i hs.r.i hs.i.mc hs.r.mc (bold P rest thief B n x) (n + 1) (judge P rest thief B x F)
  have e : ∀ second, Nat.card {T : Blocks // F ((ghost P rest thief (P.withBlocks rest T) B second n s x).1.rekeyed (P.withBlocks rest T))
      (ghost P rest thief (P.withBlocks rest T) B second n s x).2.1} =
      Nat.card {T : Blocks // judge P rest thief B x F (Duo.play (P.withBlocks rest T) second (bold P rest thief B n x) (n + 1) (s.1, s.2) [])} :=
    fun second => Nat.card_congr (Equiv.subtypeEquivRight fun T => (judge_ghost P rest hko thief B second n x hs F).symm)
  rw [e, e]
  cases second <;> cases second'
  · rfl
  · exact h
  · exact h.symm
  · rfl

theorem part_alike {k o o' : Arr 32} (hko : k ≠ o') (thief : Thief σ) (B : Blocks) (n j : Nat) (x : σ) {s : Duo} (hs : Both k o o' s)
    (second second' later : Bool) :
    Nat.card {T : Blocks // (part P rest thief B T second later n j s x).1 = true} =
      Nat.card {T : Blocks // (part P rest thief B T second' later n j s x).1 = true} := by
  unfold part
  exact ghost_alike P rest hko thief B n x hs (fun d x => (run P rest thief B later n j d x).1 = true) second second'

/-! ## The attacker can do the first steps by itself -/

def alone (thief : Thief σ) (Q : Prims) (second : Bool) : Nat → Duo → σ → Curious (Duo × σ)
  | 0, s, x => .reply (s, x)
  | n + 1, s, x => andThen (thief.next x) fun p =>
    let r := s.act Q second p.1.move
    alone thief Q second n r.2.2 (p.2 (Seen.blind ⟨r.1, r.2.1, r.2.2.1, r.2.2.2⟩))

theorem alone_play (thief : Thief σ) (Q : Prims) (second : Bool) (B : Blocks) (n : Nat) (s : Duo) (x : σ) :
    ((alone thief Q second n s x).play P rest B).result =
      ((ghost P rest thief Q B second n s x).1, (ghost P rest thief Q B second n s x).2.1) := by
  induction n generalizing s x with
  | zero => rfl
  | succ n ih =>
    unfold alone
    rw [play_andThen, ih]
    rfl

theorem alone_alone (thief : Thief σ) (Q : Prims) (second : Bool) (hc : ∀ x, (thief.next x).Alone) (n : Nat) (s : Duo) (x : σ) :
    (alone thief Q second n s x).Alone := by
  induction n generalizing s x with
  | zero => trivial
  | succ n ih => exact andThen_alone (hc x) fun _ => ih _ _

theorem alone_within (thief : Thief σ) (Q : Prims) (second : Bool) {M m : Nat} (hm : ∀ x, (thief.next x).Within M m) (n : Nat) (s : Duo) (x : σ) :
    (alone thief Q second n s x).Within M (n * m) := by
  induction n generalizing s x with
  | zero => cases h : 0 * m <;> trivial
  | succ n ih => rw [Nat.add_one_mul, Nat.add_comm]; exact andThen_within (hm x) fun _ => ih _ _

/-! ## The count -/

/-- A table where the row of a key is replaced by one of another table. -/
def graft (B : Blocks) (k : Arr 32) (T : Blocks) (j : Arr 32) : Blocks := fun x => if x.1 = k then T (j, x.2) else B x

/-- The rows are exchanged. -/
def swapRows (j : Arr 32) : Arr 32 × Blocks × Blocks ≃ Arr 32 × Blocks × Blocks where
  toFun x := (x.1, graft x.2.1 x.1 x.2.2 j, graft x.2.2 j x.2.1 x.1)
  invFun x := (x.1, graft x.2.1 x.1 x.2.2 j, graft x.2.2 j x.2.1 x.1)
  left_inv := by
    rintro ⟨k, B, T⟩
    refine Prod.ext rfl (Prod.ext (funext fun x => ?_) (funext fun x => ?_))
    · simp only [graft]
      split
      · rename_i h; simp only [if_true]; rw [← h]
      · rfl
    · simp only [graft]
      split
      · rename_i h; simp only [if_true]; rw [← h]
      · rfl
  right_inv := by
    rintro ⟨k, B, T⟩
    refine Prod.ext rfl (Prod.ext (funext fun x => ?_) (funext fun x => ?_))
    · simp only [graft]
      split
      · rename_i h; simp only [if_true]; rw [← h]
      · rfl
    · simp only [graft]
      split
      · rename_i h; simp only [if_true]; rw [← h]
      · rfl

theorem card_mem (l : List (Arr 32)) : Nat.card {k : Arr 32 // k ∈ l} ≤ l.length := by
  have h := Nat.card_le_card_of_surjective (fun i : Fin l.length => (⟨l.get i, List.get_mem l i⟩ : {k : Arr 32 // k ∈ l}))
    (fun k => by
      obtain ⟨i, hi⟩ := List.mem_iff_get.mp k.2
      exact ⟨i, Subtype.ext hi⟩)
  rwa [Nat.card_fin] at h

theorem card_asked (f : Blocks × Blocks → List (Arr 32)) (q : Nat) (hf : ∀ y, (f y).length ≤ q) :
    Nat.card {x : Arr 32 × Blocks × Blocks // x.1 ∈ f x.2} ≤ q * (Nat.card Blocks * Nat.card Blocks) := by
  have := Fintype.ofFinite (Blocks × Blocks)
  rw [Nat.card_congr (((Equiv.prodComm (Arr 32) (Blocks × Blocks)).subtypeEquiv (p := fun x => x.1 ∈ f x.2) (q := fun x => x.2 ∈ f x.1)
      fun x => Iff.rfl).trans (Equiv.subtypeProdEquivSigmaSubtype fun y k => k ∈ f y)), Nat.card_sigma, ← Nat.card_prod,
    Nat.card_eq_fintype_card, Nat.mul_comm]
  exact (Finset.sum_le_card_nsmul _ _ q fun y _ => (card_mem _).trans (hf y)).trans (by rw [Finset.card_univ]; exact Nat.le_refl _)

theorem card_or {α : Type} [Finite α] (p q b : α → Prop) (h : ∀ x, ¬ b x → (p x ↔ q x)) :
    Nat.card {x // p x} ≤ Nat.card {x // q x} + Nat.card {x // b x} := by
  classical
  rw [← Nat.card_sum]
  refine Nat.card_le_card_of_injective
    (fun x => if hb : b x.1 then .inr ⟨x.1, hb⟩ else .inl ⟨x.1, (h x.1 hb).mp x.2⟩) ?_
  intro x y hxy
  simp only at hxy
  by_cases hx : b x.1 <;> by_cases hy : b y.1 <;> simp only [hx, hy, dif_pos, dif_neg, not_false_iff] at hxy
  · exact Subtype.ext (congrArg (fun z => z.1) (Sum.inr.inj hxy))
  · cases hxy
  · cases hxy
  · exact Subtype.ext (congrArg (fun z => z.1) (Sum.inl.inj hxy))

theorem card_spare {A B C : Type} (p : A × B → Prop) :
    Nat.card {x // p x} * Nat.card C = Nat.card {x : A × B × C // p (x.1, x.2.1)} := by
  rw [← Nat.card_prod]
  exact Nat.card_congr
    { toFun := fun z => ⟨(z.1.1.1, z.1.1.2, z.2), z.1.2⟩
      invFun := fun z => (⟨(z.1.1, z.1.2.1), z.2⟩, z.1.2.2)
      left_inv := fun _ => rfl
      right_inv := fun _ => rfl }

theorem card_swap (j : Arr 32) (p : Arr 32 → Blocks → Prop) :
    Nat.card {x : Arr 32 × Blocks × Blocks // p x.1 x.2.1} =
      Nat.card {x : Arr 32 × Blocks × Blocks // p x.1 (graft x.2.1 x.1 x.2.2 j)} :=
  Nat.card_congr ((swapRows j).subtypeEquiv fun x => by
    show _ ↔ p x.1 ((swapRows j).symm (swapRows j x)).2.1
    rw [Equiv.symm_apply_apply])

theorem card_fibres {A B C : Type} [Finite A] [Finite B] [Finite C] (p q : A × B × C → Prop)
    (h : ∀ a b, Nat.card {c // p (a, b, c)} = Nat.card {c // q (a, b, c)}) : Nat.card {x // p x} = Nat.card {x // q x} := by
  have := Fintype.ofFinite (A × B)
  have e : ∀ p : A × B × C → Prop, Nat.card {x // p x} = ∑ y : A × B, Nat.card {c // p (y.1, y.2, c)} := by
    intro p
    rw [Nat.card_congr (((Equiv.prodAssoc A B C).symm.subtypeEquiv (p := p)
      (q := fun z => p (z.1.1, z.1.2, z.2)) fun x => Iff.rfl).trans
      (Equiv.subtypeProdEquivSigmaSubtype fun (y : A × B) c => p (y.1, y.2, c))), Nat.card_sigma]
  rw [e, e]
  exact Finset.sum_congr rfl fun y _ => h y.1 y.2

theorem card_slices {A B : Type} [Fintype A] [Finite B] (p : A × B → Prop) :
    Nat.card {x // p x} = ∑ a : A, Nat.card {b // p (a, b)} := by
  rw [Nat.card_congr (Equiv.subtypeProdEquivSigmaSubtype fun a b => p (a, b)), Nat.card_sigma]

theorem card_spot {I R : Type} (i : I) {φ : (I → R) → R → Prop} (hφ : ∀ f f', (∀ k, k ≠ i → f k = f' k) → φ f = φ f') :
    Nat.card {f : I → R // φ f (f i)} * Nat.card R = Nat.card {x : (I → R) × R // φ x.1 x.2} := by
  classical
  have hu : ∀ f a, φ (update f i a) = φ f := fun f a => hφ _ _ fun k h => update_of_ne h _ _
  rw [← Nat.card_prod]
  refine Nat.card_congr
    { toFun := fun z => ⟨(update z.1.1 i z.2, z.1.1 i), ?_⟩
      invFun := fun z => (⟨update z.1.1 i z.1.2, ?_⟩, z.1.1 i)
      left_inv := ?_
      right_inv := ?_ }
  · simp only [hu]
    exact z.1.2
  · rw [hu, update_self]
    exact z.2
  · rintro ⟨⟨f, hf⟩, a⟩
    simp
  · rintro ⟨⟨f, a⟩, hy⟩
    simp

/-- The first half. -/
def half (v : Arr 64) : Arr 32 := ⟨v.toList.take 32, by rw [List.length_take, Arr.len]; rfl⟩

def halves : Arr 64 ≃ Arr 32 × Arr 32 where
  toFun v := (half v, ⟨v.toList.drop 32, by rw [List.length_drop, Arr.len]⟩)
  invFun x := ⟨x.1.toList ++ x.2.toList, by rw [List.length_append, Arr.len, Arr.len]⟩
  left_inv v := arr_ext (List.take_append_drop 32 v.toList)
  right_inv x := Prod.ext
    (arr_ext (show (x.1.toList ++ x.2.toList).take 32 = x.1.toList from List.take_left' x.1.len))
    (arr_ext (show (x.1.toList ++ x.2.toList).drop 32 = x.2.toList from List.drop_left' x.1.len))

theorem card_half {A : Type} (p : Arr 32 → A → Prop) :
    Nat.card {x : A × Arr 64 // p (half x.2) x.1} = Nat.card {x : Arr 32 × A // p x.1 x.2} * Nat.card (Arr 32) := by
  rw [← Nat.card_prod]
  exact Nat.card_congr
    { toFun := fun z => (⟨((halves z.1.2).1, z.1.1), z.2⟩, (halves z.1.2).2)
      invFun := fun z => ⟨(z.1.1.2, halves.symm (z.1.1.1, z.2)), by
        have e : half (halves.symm (z.1.1.1, z.2)) = z.1.1.1 := congrArg Prod.fst (halves.apply_symm_apply (z.1.1.1, z.2))
        simp only [e]
        exact z.1.2⟩
      left_inv := fun z => Subtype.ext (Prod.ext rfl (halves.symm_apply_apply z.1.2))
      right_inv := fun z => by
        have e := halves.apply_symm_apply (z.1.1.1, z.2)
        refine Prod.ext (Subtype.ext (Prod.ext ?_ rfl)) ?_
        · have h := congrArg Prod.fst e
          exact h
        · have h := congrArg Prod.snd e
          exact h }

/-- The block that becomes the next key. -/
def spot (j : Arr 32) : Arr 32 × Arr 12 × Fin 1025 := (j, CipherState.rekeyNonce, 1)

theorem card_later (j : Arr 32) {φ φ' : Blocks → Blocks → Arr 32 → Prop} {e : Nat}
    (hφ : ∀ B T T', (∀ y, y ≠ spot j → T y = T' y) → φ B T = φ B T') (hφ' : ∀ B T T', (∀ y, y ≠ spot j → T y = T' y) → φ' B T = φ' B T')
    (h : ∀ T, Nat.card {x : Arr 32 × Blocks // φ x.2 T x.1} ≤ Nat.card {x : Arr 32 × Blocks // φ' x.2 T x.1} + e * Nat.card Blocks) :
    Nat.card {x : Blocks × Blocks // φ x.1 x.2 (half (x.2 (spot j)))} * Nat.card (Arr 32) ≤
      Nat.card {x : Blocks × Blocks // φ' x.1 x.2 (half (x.2 (spot j)))} * Nat.card (Arr 32) + e * (Nat.card Blocks * Nat.card Blocks) := by
  have := Fintype.ofFinite Blocks
  have key : ∀ φ : Blocks → Blocks → Arr 32 → Prop, (∀ B T T', (∀ y, y ≠ spot j → T y = T' y) → φ B T = φ B T') →
      Nat.card {x : Blocks × Blocks // φ x.1 x.2 (half (x.2 (spot j)))} * Nat.card (Arr 64) =
        (∑ T : Blocks, Nat.card {x : Arr 32 × Blocks // φ x.2 T x.1}) * Nat.card (Arr 32) := by
    intro φ hφ
    rw [card_slices, Finset.sum_mul, Finset.sum_mul]
    have h1 : ∀ B : Blocks, Nat.card {T : Blocks // φ B T (half (T (spot j)))} * Nat.card (Arr 64) =
        Nat.card {x : Blocks × Arr 64 // φ B x.1 (half x.2)} := fun B =>
      card_spot (spot j) (φ := fun T v => φ B T (half v)) fun T T' h => funext fun v => by rw [hφ B T T' h]
    have h2 : ∀ T : Blocks, Nat.card {x : Arr 32 × Blocks // φ x.2 T x.1} * Nat.card (Arr 32) =
        Nat.card {x : Blocks × Arr 64 // φ x.1 T (half x.2)} := fun T => (card_half fun k B => φ B T k).symm
    rw [Finset.sum_congr rfl fun B _ => h1 B, Finset.sum_congr rfl fun T _ => h2 T]
    rw [← card_slices (fun x : Blocks × Blocks × Arr 64 => φ x.1 x.2.1 (half x.2.2)),
      ← card_slices (fun x : Blocks × Blocks × Arr 64 => φ x.2.1 x.1 (half x.2.2))]
    exact Nat.card_congr
      { toFun := fun z => ⟨(z.1.2.1, z.1.1, z.1.2.2), z.2⟩
        invFun := fun z => ⟨(z.1.2.1, z.1.1, z.1.2.2), z.2⟩
        left_inv := fun _ => rfl
        right_inv := fun _ => rfl }
  have hs : (∑ T : Blocks, Nat.card {x : Arr 32 × Blocks // φ x.2 T x.1}) ≤
      (∑ T : Blocks, Nat.card {x : Arr 32 × Blocks // φ' x.2 T x.1}) + e * (Nat.card Blocks * Nat.card Blocks) := by
    refine (Finset.sum_le_sum fun T _ => h T).trans ?_
    rw [Finset.sum_add_distrib, Finset.sum_const, Finset.card_univ, ← Nat.card_eq_fintype_card, smul_eq_mul, Nat.mul_left_comm]
  have k1 := key φ hφ
  have k2 := key φ' hφ'
  have hV : Nat.card (Arr 64) = Nat.card (Arr 32) * Nat.card (Arr 32) := by rw [Nat.card_congr halves, Nat.card_prod]
  rw [hV, ← Nat.mul_assoc] at k1 k2
  have hpos : 0 < Nat.card (Arr 32) := Nat.card_pos_iff.mpr ⟨⟨EMPTY⟩, inferInstance⟩
  have c1 := Nat.eq_of_mul_eq_mul_right hpos k1
  have c2 := Nat.eq_of_mul_eq_mul_right hpos k2
  rw [c1, c2]
  exact hs

theorem prep_ne (n : UInt64) : prepNonce n ≠ CipherState.rekeyNonce := by
  intro e
  have h := congrArg (fun a : Arr 12 => a.toList.head?) e
  simp [prepNonce, CipherState.rekeyNonce, Arr.replicate, List.replicate] at h

theorem ghost_like {Q Q' : Prims} {k o o' : Arr 32} (h : Like Q Q' k k) (thief : Thief σ) (B : Blocks) (second : Bool) (n : Nat) {s : Duo}
    (hs : Both k o o' s) (x : σ) : ghost P rest thief Q B second n s x = ghost P rest thief Q' B second n s x := by
  induction n generalizing s x with
  | zero => rfl
  | succ n ih =>
    obtain ⟨a1, a2⟩ := act_keyed h hs second ((thief.next x).play P rest B).result.1
    rw [dress_self hs, dress_self a2] at a1
    unfold ghost
    simp only [a1, ih a2]

/-- After it has asked, the attacker chooses the sessions and what it remembers, and after all says yes. -/
def Full (thief : Thief σ) (c : Curious (Duo × σ)) (n j : Nat) (second : Bool) (k : Arr 32) (B : Blocks) : Prop :=
  (run P rest thief B second n j (dress k (c.play P rest B).result.1) (c.play P rest B).result.2).1 = true

theorem few_full (thief : Thief σ) {M m : Nat} (hm : ∀ x, (thief.next x).Within M m) (hv : ∀ x i r, (thief.verdict x i r).Within M m)
    (hc : ∀ x, (thief.next x).Alone) (hc' : ∀ x i r, (thief.verdict x i r).Alone) (n : Nat) (o o' : Arr 32) (second second' : Bool) (j : Nat) :
    ∀ (a : Nat) (c : Curious (Duo × σ)), c.Alone → c.Within M a → (∀ B, ∃ k, Both k o o' (c.play P rest B).result.1) →
    Nat.card {x : Arr 32 × Blocks // Full P rest thief c n j second x.1 x.2} ≤
      Nat.card {x : Arr 32 × Blocks // Full P rest thief c n j second' x.1 x.2} +
        2 * j * (a + j * (n * m) + m + j) * Nat.card Blocks := by
  induction j with
  | zero =>
    intro a c _ _ _
    rw [Nat.mul_zero, Nat.zero_mul, Nat.zero_mul, Nat.add_zero]
    exact Nat.le_refl _
  | succ j ih =>
    intro a c hA hW hB
    obtain ⟨k', hk', hk''⟩ : ∃ k' : Arr 32, k' ≠ EMPTY ∧ k' ≠ o' := by
      by_cases h : o' = Arr.replicate 32 1
      · exact ⟨Arr.replicate 32 2, by decide, by rw [h]; decide⟩
      · exact ⟨Arr.replicate 32 1, by decide, fun e => h e.symm⟩
    have hS : ∀ B, Both k' o o' (dress k' (c.play P rest B).result.1) := fun B => (hB B).elim fun _ h => h.dress k'
    let c' : Blocks → Curious (Duo × σ) := fun T => andThen c fun d => alone thief (P.withBlocks rest T) second n (dress k' d.1) d.2
    have hplay : ∀ T B, ((c' T).play P rest B).result =
        ((ghost P rest thief (P.withBlocks rest T) B second n (dress k' (c.play P rest B).result.1) (c.play P rest B).result.2).1,
         (ghost P rest thief (P.withBlocks rest T) B second n (dress k' (c.play P rest B).result.1) (c.play P rest B).result.2).2.1) :=
      fun T B => by rw [play_andThen, alone_play]
    have hb : ∀ second T B, Both k' o o'
        (ghost P rest thief (P.withBlocks rest T) B second n (dress k' (c.play P rest B).result.1) (c.play P rest B).result.2).1 :=
      fun second T B => ghost_both P rest thief B second n (hS B) _
    let yes : Bool → Bool → Blocks × Blocks → Prop := fun s l y =>
      (part P rest thief y.1 y.2 s l n j (dress k' (c.play P rest y.1).result.1) (c.play P rest y.1).result.2).1 = true
    let asked : Bool → Blocks × Blocks → List (Arr 32) := fun s y => EMPTY :: ((c.play P rest y.1).keys ++
      (part P rest thief y.1 y.2 s s n j (dress k' (c.play P rest y.1).result.1) (c.play P rest y.1).result.2).2)
    let got : Bool → Arr 32 × Blocks × Blocks → Prop := fun s x => Full P rest thief c n (j + 1) s x.1 (graft x.2.1 x.1 x.2.2 k')
    have hgot : ∀ s x, ¬ x.1 ∈ asked s x.2 → (got s x ↔ yes s s x.2) := by
      rintro s ⟨k, B, T⟩ hx
      obtain ⟨h1, h2⟩ := not_or.mp fun h => hx (List.mem_cons.mpr h)
      obtain ⟨h2, h3⟩ := not_or.mp fun h => h2 (List.mem_append.mpr h)
      have hG : ∀ x, x.1 ≠ k → graft B k T k' x = B x := fun x hx => if_neg hx
      have e := play_same P rest hA hG h2
      have r := run_part P rest hG (T := T) (k' := k') (fun y => if_pos rfl) h1 hk' hc hc' s n j (hS B) (c.play P rest B).result.2 h3
      show (run P rest thief (graft B k T k') s n (j + 1) (dress k (c.play P rest (graft B k T k')).result.1)
        (c.play P rest (graft B k T k')).result.2).1 = true ↔ _
      rw [e]
      exact Eq.congr_left r
    have hlen : ∀ s y, (asked s y).length ≤ a + (j + 1) * (n * m) + m + (j + 1) := by
      intro s y
      show (_ :: (_ ++ (_ ++ _)) : List (Arr 32)).length ≤ _
      rw [List.length_cons, List.length_append, List.length_append]
      have l1 := keys_length P rest hW hA y.1
      have l2 := ghost_length P rest thief (P.withBlocks rest y.2) y.1 s hm hc n (dress k' (c.play P rest y.1).result.1)
        (c.play P rest y.1).result.2
      have l3 := run_length P rest thief y.1 s hm hc hv hc' n j
        ((ghost P rest thief (P.withBlocks rest y.2) y.1 s n (dress k' (c.play P rest y.1).result.1) (c.play P rest y.1).result.2).1.rekeyed
          (P.withBlocks rest y.2))
        (ghost P rest thief (P.withBlocks rest y.2) y.1 s n (dress k' (c.play P rest y.1).result.1) (c.play P rest y.1).result.2).2.1
      rw [Nat.add_one_mul]
      omega
    have hbad := fun s => card_asked (asked s) _ (hlen s)
    have hreal : ∀ s, Nat.card {x : Arr 32 × Blocks // Full P rest thief c n (j + 1) s x.1 x.2} * Nat.card Blocks =
        Nat.card {x // got s x} := fun s =>
      (card_spare (C := Blocks) fun x => Full P rest thief c n (j + 1) s x.1 x.2).trans
        (card_swap k' fun k B => Full P rest thief c n (j + 1) s k B)
    have hfirst : Nat.card {y // yes second second' y} = Nat.card {y // yes second' second' y} := by
      have := Fintype.ofFinite Blocks
      rw [card_slices, card_slices]
      exact Finset.sum_congr rfl fun B _ => part_alike P rest hk'' thief B n j (c.play P rest B).result.2 (hS B) second second' second'
    have hyes : ∀ l B T, yes second l (B, T) ↔ Full P rest thief (c' T) n j l (half (T (spot k'))) B := by
      intro l B T
      show (run P rest thief B l n j _ _).1 = true ↔ (run P rest thief B l n j _ _).1 = true
      rw [hplay, rekeyed_eq P rest (hb second T B)]
      exact Iff.rfl
    have hind : ∀ l B T T', (∀ y, y ≠ spot k' → T y = T' y) → (fun k => Full P rest thief (c' T) n j l k B) = fun k => Full P rest thief (c' T') n j l k B := by
      intro l B T T' h
      have hl : Like (P.withBlocks rest T) (P.withBlocks rest T') k' k' :=
        like_blocks P rest (fun n c => h _ fun e => prep_ne n (congrArg (fun y => y.2.1) e)) Iff.rfl
      have e : ((c' T).play P rest B).result = ((c' T').play P rest B).result := by
        rw [hplay, hplay, ghost_like P rest hl thief B second n (hS B)]
      unfold Full
      rw [e]
    have hlater := card_later k' (φ := fun B T k => Full P rest thief (c' T) n j second k B)
      (φ' := fun B T k => Full P rest thief (c' T) n j second' k B) (hind second) (hind second') fun T =>
        ih (a + n * m) (c' T) (andThen_alone hA fun d => alone_alone thief _ second hc n _ _)
          (andThen_within hW fun d => alone_within thief _ second hm n _ _) fun B => ⟨k', by rw [hplay]; exact hb second T B⟩
    have hy : ∀ l, Nat.card {x : Blocks × Blocks // Full P rest thief (c' x.2) n j l (half (x.2 (spot k'))) x.1} = Nat.card {y // yes second l y} :=
      fun l => Nat.card_congr (Equiv.subtypeEquivRight fun y => (hyes l y.1 y.2).symm)
    rw [hy, hy] at hlater
    have hK : ∀ p : Blocks × Blocks → Prop, Nat.card {x : Arr 32 × Blocks × Blocks // p x.2} = Nat.card {y // p y} * Nat.card (Arr 32) := by
      intro p
      rw [← Nat.card_prod]
      exact Nat.card_congr
        { toFun := fun z => (⟨z.1.2, z.2⟩, z.1.1)
          invFun := fun z => ⟨(z.2, z.1.1), z.1.2⟩
          left_inv := fun _ => rfl
          right_inv := fun _ => rfl }
    clear_value yes asked got
    have b1 := card_or (got second) (fun x => yes second second x.2) (fun x => x.1 ∈ asked second x.2) (hgot second)
    have b2 := card_or (fun x => yes second' second' x.2) (got second') (fun x => x.1 ∈ asked second' x.2) fun x hx => (hgot second' x hx).symm
    have c1 := hbad second
    have c2 := hbad second'
    rw [← hreal, hK] at b1
    rw [← hreal, hK] at b2
    rw [hfirst] at hlater
    have hpos : 0 < Nat.card Blocks := Nat.card_pos_iff.mpr ⟨⟨fun _ => Arr.replicate 64 0⟩, inferInstance⟩
    refine Nat.le_of_mul_le_mul_right ?_ hpos
    have he : a + n * m + j * (n * m) + m + j ≤ a + (j + 1) * (n * m) + m + (j + 1) := by rw [Nat.add_one_mul]; omega
    have he' := Nat.mul_le_mul_right (Nat.card Blocks * Nat.card Blocks) (Nat.mul_le_mul_left (2 * j) he)
    have e3 : 2 * (j + 1) * (a + (j + 1) * (n * m) + m + (j + 1)) * (Nat.card Blocks * Nat.card Blocks) =
        2 * j * (a + (j + 1) * (n * m) + m + (j + 1)) * (Nat.card Blocks * Nat.card Blocks) +
        2 * ((a + (j + 1) * (n * m) + m + (j + 1)) * (Nat.card Blocks * Nat.card Blocks)) := by ring
    rw [Nat.add_mul, Nat.mul_assoc _ (Nat.card Blocks), e3]
    omega

theorem few_tell (i r : NoiseSession) (hi : i.i = true) (hr : r.i = false) (hi' : 2 ≤ i.getMessageCount) (hr' : 2 ≤ r.getMessageCount)
    (thief : Thief σ) (x : σ) {M m : Nat} (hm : ∀ x, (thief.next x).Within M m) (hv : ∀ x i r, (thief.verdict x i r).Within M m)
    (hc : ∀ x, (thief.next x).Alone) (hc' : ∀ x i r, (thief.verdict x i r).Alone) (n j : Nat) (second second' : Bool) :
    Nat.card {y : Arr 32 × Blocks // Stolen P rest y.2 i r thief x n j second y.1} ≤
      Nat.card {y : Arr 32 × Blocks // Stolen P rest y.2 i r thief x n j second' y.1} +
        2 * j * (j * (n * m) + m + j) * Nat.card Blocks := by
  have h := few_full P rest thief hm hv hc hc' n i.cs2.k r.cs2.k second second' j 0 (.reply ((i.keyed EMPTY, r.keyed EMPTY), x)) trivial trivial
    fun B => ⟨EMPTY, ⟨hi, rfl, rfl, hi'⟩, ⟨hr, rfl, rfl, hr'⟩⟩
  rw [Nat.zero_add] at h
  have e : ∀ s, Nat.card {y : Arr 32 × Blocks // Stolen P rest y.2 i r thief x n j s y.1} =
      Nat.card {y : Arr 32 × Blocks // Full P rest thief (.reply ((i.keyed EMPTY, r.keyed EMPTY), x)) n j s y.1 y.2} := fun s =>
    Nat.card_congr (Equiv.subtypeEquivRight fun y => by
      unfold Full
      rw [run_watches]
      exact Iff.rfl)
  rw [e, e]
  exact h

end Stealing

end SV2.Noise
