import Verif.Spec.Crowd
import Verif.Lemmas.Secrecy
import Verif.Lemmas.Ideal
import Verif.Lemmas.Impersonation
/-!
# Many sessions: how a call depends on the pads
-/

namespace SV2.Noise

/-! ## Games on pads -/

/-- The pads with one row changed. -/
def Pad.change (pad : Pad) (x : Row) (d : Nat → UInt8) : Pad := pad.flip x.1 x.2 d

theorem Pad.change_change (pad : Pad) (x : Row) (d : Nat → UInt8) : (pad.change x d).change x d = pad := Pad.flip_flip ..

theorem Pad.change_other {pad : Pad} {x y : Row} {d : Nat → UInt8} (h : y ≠ x) : pad.change x d y.1 y.2 = pad y.1 y.2 :=
  Pad.flip_other fun e => h (Prod.ext e.1 e.2)

/-- The state after a number of steps. -/
def iter {S : Type} (step : S → S) : Nat → S → S
  | 0, w => w
  | N + 1, w => iter step N (step w)

/-- What a game on pads does in a state `w`: it reads the rows `R`, and its two versions become the same when one row is
changed in a certain way. -/
def Turns {S : Type} (step : Bool → Pad → S → S) (Kept Done : S → Row → Prop) (w : S) : Prop :=
  ∃ (R : Row → Prop) (x : Row) (d : Nat → UInt8),
    (∀ β pad pad', (∀ y, R y → pad y.1 y.2 = pad' y.1 y.2) → step β pad w = step β pad' w) ∧
    (∀ pad, step false pad w = step true (pad.change x d) w) ∧
    (∀ β pad y, (Kept w y → Kept (step β pad w) y) ∧ (R y → Kept (step β pad w) y) ∧ (Done w y → Done (step β pad w) y)) ∧
    (∀ y, R y → ¬ Done w y) ∧
    ((∀ pad : Pad, pad.change x d = pad) ∨ ¬ Kept w x ∧ ∀ β pad, Done (step β pad w) x)

/-- A game that is played on pads, in two versions.  A row that has been changed is not read later (`Done`), and one that
has been read is not changed later (`Kept`). -/
structure Game (S : Type) where
  step : Bool → Pad → S → S
  Kept : S → Row → Prop
  Done : S → Row → Prop
  spec : ∀ w, Turns step Kept Done w

namespace Game
variable {S : Type} (G : Game S)

theorem congr (β : Bool) (N : Nat) : ∀ (w : S) (pad pad' : Pad),
    (∀ y, ¬ G.Done w y → pad y.1 y.2 = pad' y.1 y.2) → iter (G.step β pad) N w = iter (G.step β pad') N w := by
  induction N with
  | zero => intros; rfl
  | succ N ih =>
    intro w pad pad' h
    obtain ⟨R, x, d, h1, -, h3, h4, -⟩ := G.spec w
    have e := h1 β pad pad' fun y hy => h y (h4 y hy)
    unfold iter
    rw [← e]
    exact ih _ _ _ fun y hy => h y fun hd => hy ((h3 β pad y).2.2 hd)

theorem swap (N : Nat) : ∀ w : S, ∃ e : Pad ≃ Pad,
    (∀ pad, iter (G.step false pad) N w = iter (G.step true (e pad)) N w) ∧
    (∀ pad y, G.Kept w y → e pad y.1 y.2 = pad y.1 y.2) := by
  induction N with
  | zero => intro w; exact ⟨Equiv.refl _, fun _ => rfl, fun _ _ _ => rfl⟩
  | succ N ih =>
    intro w
    obtain ⟨R, x, d, h1, h2, h3, h4, h5⟩ := G.spec w
    choose E hE using ih
    let o : Pad → S := fun pad => G.step false pad w
    have ho : ∀ pad, o (E (o pad) pad) = o pad := fun pad =>
      h1 false _ _ fun y hy => (hE (o pad)).2 pad y ((h3 false pad y).2.1 hy)
    have ho' : ∀ pad, o ((E (o pad)).symm pad) = o pad := by
      intro pad
      refine h1 false _ _ fun y hy => ?_
      have := (hE (o pad)).2 ((E (o pad)).symm pad) y ((h3 false pad y).2.1 hy)
      rw [Equiv.apply_symm_apply] at this
      exact this.symm
    refine ⟨⟨fun pad => (E (o pad) pad).change x d, fun pad => (E (o (pad.change x d))).symm (pad.change x d), ?_, ?_⟩,
      ?_, ?_⟩
    · intro pad
      simp only [Pad.change_change, ho, Equiv.symm_apply_apply]
    · intro pad
      simp only [ho', Equiv.apply_symm_apply, Pad.change_change]
    · intro pad
      have e1 : G.step true ((E (o pad) pad).change x d) w = o pad := (h2 _).symm.trans (ho pad)
      show iter _ N (o pad) = iter (G.step true ((E (o pad) pad).change x d)) N (G.step true ((E (o pad) pad).change x d) w)
      rw [e1, (hE (o pad)).1 pad]
      apply G.congr
      intro y hy
      rcases h5 with h5 | ⟨-, h5⟩
      · rw [h5]
      · exact (Pad.change_other fun h : y = x => hy (by rw [h]; exact h5 false pad)).symm
    · intro pad y hy
      have e2 : E (o pad) pad y.1 y.2 = pad y.1 y.2 := (hE (o pad)).2 pad y ((h3 false pad y).1 hy)
      show (E (o pad) pad).change x d y.1 y.2 = _
      rw [← e2]
      rcases h5 with h5 | ⟨h5, -⟩
      · rw [h5]
      · exact Pad.change_other fun h : y = x => h5 (by rw [← h]; exact hy)

end Game

/-! ## Calls -/

section
variable (P : Prims) (tg : Arr 32 → Arr 12 → Bytes → Bytes → Arr 16) (rest : Arr 32 → Arr 12 → Nat → UInt8)

/-- What is seen of a call. -/
def Op.sight (Q : Prims) (s : NoiseSession) (op : Op) : NResult Unit × NoiseSession × Bytes :=
  let r := op.exec Q s
  (r.1, r.2.1, if op.isSend && r.1.isOk then r.2.2 else [])

theorem sealed_congr {pad pad' : Pad} {k : Arr 32} {n : UInt64} (h : pad k (prepNonce n) = pad' k (prepNonce n)) (ad m : Bytes) :
    CipherState.sealed (P.withPad tg rest pad) k n ad m = CipherState.sealed (P.withPad tg rest pad') k n ad m := by
  unfold CipherState.sealed
  rw [seal_congr P tg rest h]

theorem sealed_change (pad : Pad) (k : Arr 32) (n : UInt64) (ad m m' : Bytes) (hl : m.length = m'.length)
    (hb : m.length ≤ 65519) :
    CipherState.sealed (P.withPad tg rest pad) k n ad m =
      CipherState.sealed (P.withPad tg rest (pad.change (k, prepNonce n) fun i => m.getD i 0 ^^^ m'.getD i 0)) k n ad m' := by
  unfold CipherState.sealed
  rw [seal_flip P tg rest pad k _ ad m m' hl hb]
  rfl

theorem Pad.change_zero (pad : Pad) (x : Row) : pad.change x (fun _ => 0) = pad := Pad.flip_zero ..

/-- What is seen of a send. -/
def shown (r : NResult Unit × NoiseSession × Bytes) : NResult Unit × NoiseSession × Bytes :=
  (r.1, r.2.1, if r.1.isOk then r.2.2 else [])

theorem sight_send (pad : Pad) (s : NoiseSession) (secret : Arr 32) (b : Bytes) :
    Op.sight (P.withPad tg rest pad) s (.send secret b) =
      shown (s.sendMessage (P.withPad tg rest pad) (Keypair.default P secret) b) := rfl

/-- How writing the second handshake message fails. -/
def failsB (Q : Prims) (rnd : Keypair) (hs : HandshakeState) (n : Nat) (k1 k2 : Arr 32) : Option (NoiseError × HandshakeState) :=
  if n < 32 then some (.missingneError, hs)
  else if n < 80 then some (.missingneError, (hs.useE rnd).wrA Q)
  else if k1 = EMPTY then some (.emptyKeyError, (hs.useE rnd).wrA Q)
  else if n < 96 then some (.missingneError, (hs.useE rnd).wrB Q)
  else if k2 = EMPTY then some (.emptyKeyError, (hs.useE rnd).wrB Q)
  else none

theorem writeB_result (Q : Prims) (rnd : Keypair) (hs : HandshakeState) (b : Bytes) (k1 k2 : Arr 32)
    (h1 : ((hs.useE rnd).wrA Q).ss.cs.k = k1) (h2 : ((hs.useE rnd).wrB Q).ss.cs.k = k2) :
    match failsB Q rnd hs b.length k1 k2 with
    | some (e, st) => ∃ b', hs.writeMessageB Q rnd b = (.err e, st, b')
    | none => hs.writeMessageB Q rnd b = (.ok (((hs.useE rnd).wrSS Q (body (b.drop 80))).h,
          ((hs.useE rnd).wrSS Q (body (b.drop 80))).split Q),
        { hs.useE rnd with ss := ((hs.useE rnd).wrSS Q (body (b.drop 80))).clear },
        (hs.useE rnd).e.public_key.toList ++ (hs.useE rnd).wrS Q ++ (hs.useE rnd).wrP Q (body (b.drop 80))) := by
  subst h1 h2
  unfold failsB
  rcases HandshakeState.writeB_cases (P := Q) rnd hs b with ⟨a, h⟩ | ⟨a, a', b', -, h⟩ | ⟨a, a', b', -, h⟩ |
    ⟨a, a', a'', b', -, h⟩ | ⟨a, a', a'', b', -, h⟩ | ⟨a, a', a'', h⟩
  · rw [if_pos a]; exact ⟨_, h⟩
  · rw [if_neg (by omega), if_pos a']; exact ⟨_, h⟩
  · rw [if_neg (by omega), if_neg (by omega), if_pos a']; exact ⟨_, h⟩
  · rw [if_neg (by omega), if_neg (by omega), if_neg a'', if_pos a']; exact ⟨_, h⟩
  · rw [if_neg (by omega), if_neg (by omega), if_neg a', if_neg (by omega), if_pos a'']; exact ⟨_, h⟩
  · rw [if_neg (by omega), if_neg (by omega), if_neg a', if_neg (by omega), if_neg a'']; exact h

theorem useE_private (s : NoiseSession) (secret : Arr 32) :
    (s.hs.useE (Keypair.default P secret)).e.private_key =
      if s.hs.e.private_key = NX.zeros then secret else s.hs.e.private_key := by
  unfold HandshakeState.useE Keypair.isEmpty
  by_cases h : s.hs.e.private_key = NX.zeros
  · rw [if_pos h, if_pos ((isEmptyKey_iff _).mpr h)]; rfl
  · rw [if_neg h, if_neg (fun e => h ((isEmptyKey_iff _).mp e))]

theorem wr_keys (pad : Pad) (s : NoiseSession) (secret : Arr 32) :
    ((s.hs.useE (Keypair.default P secret)).wrA (P.withPad tg rest pad)).ss.cs.k =
      (s.handshakeKeys P (s.exchanges P secret).1 (s.exchanges P secret).2).1 ∧
    ((s.hs.useE (Keypair.default P secret)).wrB (P.withPad tg rest pad)).ss.cs.k =
      (s.handshakeKeys P (s.exchanges P secret).1 (s.exchanges P secret).2).2 := by
  have h1 : ((s.hs.useE (Keypair.default P secret)).wrA (P.withPad tg rest pad)).ss.cs.k =
    (hkdf2 P (s.hs.useE (Keypair.default P secret)).ss.ck (P.dh (s.hs.useE (Keypair.default P secret)).e.private_key
      (s.hs.useE (Keypair.default P secret)).re).toList).2 := rfl
  have h2 : ((s.hs.useE (Keypair.default P secret)).wrB (P.withPad tg rest pad)).ss.cs.k =
    (hkdf2 P (hkdf2 P (s.hs.useE (Keypair.default P secret)).ss.ck (P.dh (s.hs.useE (Keypair.default P secret)).e.private_key
      (s.hs.useE (Keypair.default P secret)).re).toList).1 (P.dh (s.hs.useE (Keypair.default P secret)).s.private_key
      (s.hs.useE (Keypair.default P secret)).re).toList).2 := rfl
  rw [h1, h2, useE_private, HandshakeState.useE_ss, HandshakeState.useE_re, HandshakeState.useE_s, hkdf_eq, hkdf_eq]
  exact ⟨rfl, rfl⟩

theorem mixKey_pad (pad : Pad) (ss : SymmetricState) (b : Bytes) :
    ss.mixKey (P.withPad tg rest pad) b = ss.mixKey P b := rfl

theorem mixHash_pad (pad : Pad) (ss : SymmetricState) (b : Bytes) :
    ss.mixHash (P.withPad tg rest pad) b = ss.mixHash P b := rfl

theorem split_pad (pad : Pad) (ss : SymmetricState) : ss.split (P.withPad tg rest pad) = ss.split P := rfl

theorem hash_pad (pad : Pad) : (P.withPad tg rest pad).hash = P.hash := rfl

theorem dh_pad (pad : Pad) : (P.withPad tg rest pad).dh = P.dh := rfl

theorem wrA_pad (pad : Pad) (hs : HandshakeState) : hs.wrA (P.withPad tg rest pad) = hs.wrA P := by
  unfold HandshakeState.wrA
  rw [mixKey_pad, mixHash_pad, dh_pad]

theorem wrB_congr {pad pad' : Pad} (hs : HandshakeState) (k : Arr 32) (hk : (hs.wrA (P.withPad tg rest pad)).ss.cs.k = k)
    (h : pad k (prepNonce 0) = pad' k (prepNonce 0)) :
    hs.wrS (P.withPad tg rest pad) = hs.wrS (P.withPad tg rest pad') ∧
    hs.wrB (P.withPad tg rest pad) = hs.wrB (P.withPad tg rest pad') := by
  have e : hs.wrS (P.withPad tg rest pad) = hs.wrS (P.withPad tg rest pad') := by
    rw [wrA_pad] at hk
    unfold HandshakeState.wrS
    rw [wrA_pad, wrA_pad, hk]
    exact sealed_congr P tg rest h _ _
  refine ⟨e, ?_⟩
  unfold HandshakeState.wrB
  rw [e, mixKey_pad, mixKey_pad, wrA_pad, wrA_pad, dh_pad, dh_pad, hash_pad, hash_pad]

theorem sendB (Q : Prims) (rnd : Keypair) (s : NoiseSession) (b : Bytes) (hl : ¬ (b.length < 16 ∨ 65535 < b.length))
    (h1 : s.mc = 1) : s.sendMessage Q rnd b = match s.hs.writeMessageB Q rnd b with
        | (.ok temp, hs, buf) => ({ s with hs := hs }.enterTransport temp).count buf
        | (.err e, hs, buf) => (.err e, { s with hs := hs }, buf)
        | (.panic, hs, buf) => (.panic, { s with hs := hs }, buf) := by
  unfold NoiseSession.sendMessage
  rw [if_neg (show ¬ (b.length < MAC_LENGTH ∨ b.length > MAX_MESSAGE) from hl), if_neg (by omega), if_pos h1]
  rfl

/-- The end of a handshake. -/
def endB (s : NoiseSession) (hs : HandshakeState) (Q : Prims) (ss : SymmetricState) (buf : Bytes) :
    NResult Unit × NoiseSession × Bytes :=
  (.ok (), { ({ s with hs := { hs with ss := ss.clear } } : NoiseSession).enterTransport (ss.h, ss.split Q) with mc := s.mc + 1 },
    buf)

theorem sendB_ok (Q : Prims) (rnd : Keypair) (s : NoiseSession) (b : Bytes) (hl : ¬ (b.length < 16 ∨ 65535 < b.length))
    (h1 : s.mc = 1) (k1 k2 : Arr 32) (e1 : ((s.hs.useE rnd).wrA Q).ss.cs.k = k1) (e2 : ((s.hs.useE rnd).wrB Q).ss.cs.k = k2)
    (hf : failsB Q rnd s.hs b.length k1 k2 = none) :
    s.sendMessage Q rnd b = endB s (s.hs.useE rnd) Q ((s.hs.useE rnd).wrSS Q (body (b.drop 80)))
      ((s.hs.useE rnd).e.public_key.toList ++ (s.hs.useE rnd).wrS Q ++ (s.hs.useE rnd).wrP Q (body (b.drop 80))) := by
  have := writeB_result Q rnd s.hs b k1 k2 e1 e2
  rw [hf] at this
  rw [sendB Q rnd s b hl h1, this]
  exact NoiseSession.count_ok _ _ (by show s.mc + 1 < _; omega)

theorem sendB_err (Q : Prims) (rnd : Keypair) (s : NoiseSession) (b : Bytes) (hl : ¬ (b.length < 16 ∨ 65535 < b.length))
    (h1 : s.mc = 1) (k1 k2 : Arr 32) (e1 : ((s.hs.useE rnd).wrA Q).ss.cs.k = k1) (e2 : ((s.hs.useE rnd).wrB Q).ss.cs.k = k2)
    (e : NoiseError) (st : HandshakeState) (hf : failsB Q rnd s.hs b.length k1 k2 = some (e, st)) :
    ∃ b', s.sendMessage Q rnd b = (.err e, { s with hs := st }, b') := by
  have := writeB_result Q rnd s.hs b k1 k2 e1 e2
  rw [hf] at this
  obtain ⟨b', hb'⟩ := this
  exact ⟨b', by rw [sendB Q rnd s b hl h1, hb']⟩

theorem failsB_congr {pad pad' : Pad} (rnd : Keypair) (hs : HandshakeState) (n : Nat) (k1 k2 : Arr 32)
    (hk : ((hs.useE rnd).wrA (P.withPad tg rest pad)).ss.cs.k = k1) (h : pad k1 (prepNonce 0) = pad' k1 (prepNonce 0)) :
    failsB (P.withPad tg rest pad) rnd hs n k1 k2 = failsB (P.withPad tg rest pad') rnd hs n k1 k2 := by
  unfold failsB
  rw [(wrB_congr P tg rest _ k1 hk h).2, wrA_pad, wrA_pad]

theorem failsB_isNone (Q Q' : Prims) (rnd : Keypair) (hs : HandshakeState) (n : Nat) (k1 k2 : Arr 32) :
    (failsB Q rnd hs n k1 k2).isNone = (failsB Q' rnd hs n k1 k2).isNone := by
  unfold failsB
  repeat' split
  all_goals rfl

/-- The end of the second message, when the pads agree on the first row and the second part comes out the same. -/
theorem endB_congr {pad pad' : Pad} (s : NoiseSession) (hs : HandshakeState) (k1 : Arr 32) (p p' : Bytes)
    (hk : (hs.wrA (P.withPad tg rest pad)).ss.cs.k = k1) (h : pad k1 (prepNonce 0) = pad' k1 (prepNonce 0))
    (hp : CipherState.sealed (P.withPad tg rest pad) (hs.wrB (P.withPad tg rest pad)).ss.cs.k 0
        (hs.wrB (P.withPad tg rest pad)).ss.h.toList p =
      CipherState.sealed (P.withPad tg rest pad') (hs.wrB (P.withPad tg rest pad)).ss.cs.k 0
        (hs.wrB (P.withPad tg rest pad)).ss.h.toList p') :
    endB s hs (P.withPad tg rest pad) (hs.wrSS (P.withPad tg rest pad) p)
        (hs.e.public_key.toList ++ hs.wrS (P.withPad tg rest pad) ++ hs.wrP (P.withPad tg rest pad) p) =
      endB s hs (P.withPad tg rest pad') (hs.wrSS (P.withPad tg rest pad') p')
        (hs.e.public_key.toList ++ hs.wrS (P.withPad tg rest pad') ++ hs.wrP (P.withPad tg rest pad') p') := by
  obtain ⟨eS, eB⟩ := wrB_congr P tg rest hs k1 hk h
  unfold HandshakeState.wrSS HandshakeState.wrP endB
  rw [hp, eS, eB, split_pad, split_pad, hash_pad, hash_pad]

/-- A send: it fails whatever the text, or it succeeds whatever the text. -/
theorem send_rows (s : NoiseSession) (secret : Arr 32) (n : Nat) (h0 : s.mc ≠ 0) :
    (∀ (pad : Pad) (b : Bytes), b.length = n → (s.sendMessage (P.withPad tg rest pad) (Keypair.default P secret) b).1.isOk = false) ∧
    (∀ (pad pad' : Pad) (b b' : Bytes), b.length = n → b'.length = n →
      (∀ y ∈ Op.opened P s (.send secret b), pad y.1 y.2 = pad' y.1 y.2) →
      Op.sight (P.withPad tg rest pad) s (.send secret b) = Op.sight (P.withPad tg rest pad') s (.send secret b')) ∨
    (∀ (pad : Pad) (b : Bytes), b.length = n → (s.sendMessage (P.withPad tg rest pad) (Keypair.default P secret) b).1.isOk = true) ∧
    ∃ x, (∀ b, Op.secret P s (.send secret b) = [x]) ∧
    (∀ (pad pad' : Pad) (b : Bytes), b.length = n →
      (∀ y ∈ Op.opened P s (.send secret b) ++ [x], pad y.1 y.2 = pad' y.1 y.2) →
      Op.sight (P.withPad tg rest pad) s (.send secret b) = Op.sight (P.withPad tg rest pad') s (.send secret b)) ∧
    (∀ (b b' : Bytes), b.length = n → b'.length = n → x ∉ Op.opened P s (.send secret b) → ∃ d, ∀ pad,
      Op.sight (P.withPad tg rest pad) s (.send secret b) =
        Op.sight (P.withPad tg rest (pad.change x d)) s (.send secret b')) := by
  by_cases h1 : s.mc = 1
  · set rnd := Keypair.default P secret with hrnd
    set k1 := (s.handshakeKeys P (s.exchanges P secret).1 (s.exchanges P secret).2).1 with hk1
    set k2 := (s.handshakeKeys P (s.exchanges P secret).1 (s.exchanges P secret).2).2 with hk2
    have hop : ∀ b, Op.opened P s (.send secret b) = [(k1, prepNonce 0)] := fun b => by
      rw [prepNonce_eq]; exact if_pos h1
    have hsec : ∀ b, Op.secret P s (.send secret b) = [(k2, prepNonce 0)] := by
      intro b
      show (if s.mc = 0 then _ else _) = _
      rw [if_neg h0, if_pos h1, prepNonce_eq]
      rfl
    by_cases hl : n < 16 ∨ 65535 < n
    · have h4 : ∀ (Q : Prims) b, b.length = n → s.sendMessage Q rnd b = (.err .unsupportedMessageLengthError, s, b) :=
        fun Q b hb => NoiseSession.send_badLength rnd s b (by rw [hb]; exact hl)
      left
      refine ⟨?_, ?_⟩
      · intro pad b hb
        rw [h4 _ _ hb]
        rfl
      · intro pad pad' b b' hb hb' _
        rw [sight_send, sight_send, h4 _ _ hb, h4 _ _ hb']
        rfl
    have hk := fun pad => wr_keys P tg rest pad s secret
    have hnone := failsB_isNone (rnd := rnd) (hs := s.hs) (n := n) (k1 := k1) (k2 := k2)
    by_cases hf : (failsB P rnd s.hs n k1 k2).isNone
    · right
      have hres : ∀ (pad : Pad) (b : Bytes), b.length = n → s.sendMessage (P.withPad tg rest pad) rnd b = _ := fun pad b hb =>
        sendB_ok (P.withPad tg rest pad) rnd s b (by rw [hb]; exact hl) h1 k1 k2 (hk pad).1 (hk pad).2
          (by rw [hb]; exact Option.isNone_iff_eq_none.mp ((hnone _ _).trans hf))
      refine ⟨?_, _, hsec, ?_, ?_⟩
      · intro pad b hb
        rw [hres pad b hb]
        rfl
      · intro pad pad' b hb h
        rw [hop] at h
        rw [sight_send, sight_send, ← hrnd, hres pad b hb, hres pad' b hb,
          endB_congr P tg rest s _ k1 _ _ (hk pad).1 (h (k1, prepNonce 0) (by simp))]
        apply sealed_congr
        rw [(hk pad).2]
        exact h (k2, prepNonce 0) (by simp)
      · intro b b' hb hb' hx
        rw [hop] at hx
        have hne : ((k1, prepNonce 0) : Row) ≠ (k2, prepNonce 0) := fun e => hx (by rw [e]; exact List.mem_singleton.mpr rfl)
        refine ⟨fun i => (body (b.drop 80)).getD i 0 ^^^ (body (b'.drop 80)).getD i 0, fun pad => ?_⟩
        rw [sight_send, sight_send, ← hrnd, hres pad b hb, hres _ b' hb',
          endB_congr P tg rest s _ k1 _ _ (hk pad).1 (Pad.change_other hne).symm]
        rw [(hk pad).2]
        exact sealed_change P tg rest pad k2 0 _ _ _ (by simp [body, hb, hb']) (by simp [body]; omega)
    · left
      have hS : ∀ pad, ∃ e st, failsB (P.withPad tg rest pad) rnd s.hs n k1 k2 = some (e, st) := by
        intro pad
        have : ¬ (failsB (P.withPad tg rest pad) rnd s.hs n k1 k2).isNone := by rw [hnone _ P]; exact hf
        rcases h : failsB (P.withPad tg rest pad) rnd s.hs n k1 k2 with _ | ⟨e, st⟩
        · rw [h] at this; exact absurd rfl this
        · exact ⟨e, st, rfl⟩
      have hres : ∀ (pad : Pad) (b : Bytes) e st, b.length = n → failsB (P.withPad tg rest pad) rnd s.hs n k1 k2 = some (e, st) →
          ∃ b', s.sendMessage (P.withPad tg rest pad) rnd b = (.err e, { s with hs := st }, b') := fun pad b e st hb hs =>
        sendB_err (P.withPad tg rest pad) rnd s b (by rw [hb]; exact hl) h1 k1 k2 (hk pad).1 (hk pad).2 e st
          (by rw [hb]; exact hs)
      refine ⟨?_, ?_⟩
      · intro pad b hb
        obtain ⟨e, st, h⟩ := hS pad
        obtain ⟨b', h'⟩ := hres pad b e st hb h
        rw [h']
        rfl
      · intro pad pad' b b' hb hb' hag
        rw [hop] at hag
        have hag := hag _ (List.mem_singleton.mpr rfl)
        obtain ⟨e, st, h⟩ := hS pad
        obtain ⟨c, hc⟩ := hres pad b e st hb h
        obtain ⟨c', hc'⟩ := hres pad' b' e st hb' ((failsB_congr P tg rest rnd s.hs n k1 k2 (hk pad).1 hag).symm.trans h)
        rw [sight_send, sight_send, ← hrnd, hc, hc']
        rfl
  · have hm : 2 ≤ s.mc := by omega
    have hop : ∀ b, Op.opened P s (.send secret b) = [] := fun b => if_neg h1
    have hsec : ∀ b, Op.secret P s (.send secret b) = [(s.sendCs.k, prepNonce s.sendCs.n)] := by
      intro b
      show (if s.mc = 0 then _ else _) = _
      rw [if_neg h0, if_neg h1, prepNonce_eq]
      unfold NoiseSession.sendCs
      split <;> rfl
    rcases NoiseSession.send_uniform (Keypair.default P secret) s n hm with ⟨h1, h2, h3, h4⟩ | ⟨e, h4⟩
    · by_cases hc : s.mc + 1 < 2 ^ 128
      · right
        refine ⟨?_, _, hsec, ?_, ?_⟩
        · intro pad b hb
          rw [h4 _ _ hb, NoiseSession.count_ok _ _ (by rwa [NoiseSession.setSend_mc])]
          rfl
        · intro pad pad' b hb h
          have hrow := h _ (List.mem_append_right _ (List.mem_singleton.mpr rfl))
          rw [sight_send, sight_send, h4 _ _ hb, h4 _ _ hb]
          rw [sealed_congr P tg rest hrow]
        · intro b b' hb hb' _
          refine ⟨fun i => (body b).getD i 0 ^^^ (body b').getD i 0, fun pad => ?_⟩
          rw [sight_send, sight_send, h4 _ _ hb, h4 _ _ hb']
          rw [sealed_change P tg rest pad _ _ _ (body b) (body b') (by simp [body, hb, hb']) (by simp [body]; omega)]
      · left
        have hp : ∀ c, ((s.setSend ⟨s.sendCs.k, s.sendCs.n + 1⟩).count c) =
            (.panic, s.setSend ⟨s.sendCs.k, s.sendCs.n + 1⟩, c) := by
          intro c
          unfold NoiseSession.count
          rw [if_neg (by rwa [NoiseSession.setSend_mc])]
        refine ⟨?_, ?_⟩
        · intro pad b hb
          rw [h4 _ _ hb, hp]
          rfl
        · intro pad pad' b b' hb hb' _
          rw [sight_send, sight_send, h4 _ _ hb, h4 _ _ hb', hp, hp]
          rfl
    · left
      refine ⟨?_, ?_⟩
      · intro pad b hb
        rw [h4 _ _ hb]
        rfl
      · intro pad pad' b b' hb hb' _
        rw [sight_send, sight_send, h4 _ _ hb, h4 _ _ hb']
        rfl

/-! ### Receiving -/

theorem decrypt_congr {pad pad' : Pad} (ss : SymmetricState) (b : Bytes) (hn : ss.cs.n = 0) :
    (ss.decryptAndHash (P.withPad tg rest pad) b).1 = (ss.decryptAndHash (P.withPad tg rest pad') b).1 ∧
    (ss.decryptAndHash (P.withPad tg rest pad) b).2.1 = (ss.decryptAndHash (P.withPad tg rest pad') b).2.1 ∧
    (pad ss.cs.k (prepNonce 0) = pad' ss.cs.k (prepNonce 0) →
      ss.decryptAndHash (P.withPad tg rest pad) b = ss.decryptAndHash (P.withPad tg rest pad') b) := by
  by_cases hl : b.length < 16 ∨ 2048 < b.length
  · rw [SymmetricState.decrypt_panic _ _ hl, SymmetricState.decrypt_panic _ _ hl]
    exact ⟨rfl, rfl, fun _ => rfl⟩
  by_cases hk : ss.cs.k = EMPTY
  · rw [SymmetricState.decrypt_noKey _ _ (by omega) (by omega) hn hk,
      SymmetricState.decrypt_noKey _ _ (by omega) (by omega) hn hk]
    exact ⟨rfl, rfl, fun _ => rfl⟩
  have hu := open_uniform P tg rest pad pad' ss.cs.k (prepNonce 0) ss.h.toList (body b) (CipherState.tagArr b (by omega))
  rcases hp : (P.withPad tg rest pad).aeadOpen ss.cs.k (prepNonce 0) ss.h.toList (body b) (CipherState.tagArr b (by omega))
    with _ | p
  · rcases hq : (P.withPad tg rest pad').aeadOpen ss.cs.k (prepNonce 0) ss.h.toList (body b)
      (CipherState.tagArr b (by omega)) with _ | q
    · rw [SymmetricState.decrypt_none _ _ (by omega) (by omega) hn hk hp,
        SymmetricState.decrypt_none _ _ (by omega) (by omega) hn hk hq]
      exact ⟨rfl, rfl, fun _ => rfl⟩
    · rw [hp, hq] at hu; cases hu
  · rcases hq : (P.withPad tg rest pad').aeadOpen ss.cs.k (prepNonce 0) ss.h.toList (body b)
      (CipherState.tagArr b (by omega)) with _ | q
    · rw [hp, hq] at hu; cases hu
    · rw [SymmetricState.decrypt_some _ _ _ (by omega) (by omega) hn hk hp,
        SymmetricState.decrypt_some _ _ _ (by omega) (by omega) hn hk hq]
      refine ⟨rfl, by rw [hash_pad, hash_pad], fun h => ?_⟩
      have hm : mask (pad.byte rest ss.cs.k (prepNonce 0)) (body b) = mask (pad'.byte rest ss.cs.k (prepNonce 0)) (body b) := by
        apply mask_congr
        intro i _
        unfold Pad.byte
        rw [h]
      have e : p = q := by
        simp only [Prims.withPad] at hp hq
        split at hp
        · rename_i ht
          rw [if_pos ht] at hq
          exact (Option.some.inj hp).symm.trans (hm.trans (Option.some.inj hq))
        · cases hp
      rw [e, hash_pad, hash_pad]

/-- Reading the second message from the encrypted payload on. -/
def restP (Q : Prims) (hs : HandshakeState) (front : Bytes) :
    NResult Unit × SymmetricState × Bytes → NResult HandshakeOutput × HandshakeState × Bytes
  | (.err e, ss, payload) => (.err e, { hs with ss := ss }, front ++ payload)
  | (.panic, ss, payload) => (.panic, { hs with ss := ss }, front ++ payload)
  | (.ok (), ss, payload) => (.ok (ss.h, ss.split Q), { hs with ss := ss.clear }, front ++ payload)

/-- The state for the payload. -/
def stateP (Q : Prims) (hs : HandshakeState) (rs : Arr 32) : HandshakeState :=
  { hs with rs := rs, ss := hs.ss.mixKey Q (Q.dh hs.e.private_key rs).toList }

/-- Reading the second message from the encrypted static key on. -/
def restS (Q : Prims) (hs : HandshakeState) (front payload : Bytes) :
    NResult Unit × SymmetricState × Bytes → NResult HandshakeOutput × HandshakeState × Bytes
  | (.err e, ss, rsBytes) => (.err e, { hs with ss := ss }, front ++ rsBytes ++ payload)
  | (.panic, ss, rsBytes) => (.panic, { hs with ss := ss }, front ++ rsBytes ++ payload)
  | (.ok (), ss, rsBytes) =>
    match fromSliceHashlen rsBytes >>= publicKeyFromBytes with
    | .err e => (.err e, { hs with ss := ss }, front ++ rsBytes ++ payload)
    | .panic => (.panic, { hs with ss := ss }, front ++ rsBytes ++ payload)
    | .ok rs => restP Q (stateP Q { hs with ss := ss } rs) (front ++ rsBytes)
        ((stateP Q { hs with ss := ss } rs).ss.decryptAndHash Q payload)

theorem readB_eq (Q : Prims) (hs : HandshakeState) (b : Bytes) (h : 80 ≤ b.length) (hf : b.take 32 ∉ forbiddenCurveValues) :
    hs.readMessageB Q b = restS Q (hs.rdA Q (keyIn b)) (b.take 32) (b.drop 80)
      ((hs.rdA Q (keyIn b)).ss.decryptAndHash Q (HandshakeState.partS b)) := by
  have hkey : first32 b (by omega) = keyIn b := eq_keyIn (by omega) rfl
  unfold HandshakeState.readMessageB
  simp only [show DHLEN = 32 from rfl, show MAC_LENGTH = 16 from rfl]
  rw [if_neg (by omega), key_ok (b.take 32) (by simp; omega) (by rw [take32_take32]; exact hf), HandshakeState.first32_take b (by omega), hkey]
  have hre : List.take 32 (keyIn b).toList = (keyIn b).toList := by rw [List.take_of_length_le (by rw [(keyIn b).len])]
  simp only [hre]
  rw [if_neg (by simp; omega)]
  have hpS : List.take (16 + 32) (List.drop 32 b) = HandshakeState.partS b := rfl
  have hdrop : List.drop (16 + 32) (List.drop 32 b) = b.drop 80 := by simp [List.drop_drop]
  simp only [hpS, hdrop]
  have hA : SymmetricState.mixKey Q (SymmetricState.mixHash Q hs.ss (keyIn b).toList)
      (Keypair.dh Q hs.e (keyIn b)).toList = (hs.rdA Q (keyIn b)).ss := rfl
  simp only [hA]
  rcases (hs.rdA Q (keyIn b)).ss.decryptAndHash Q (HandshakeState.partS b) with ⟨r | e | _, ss, x⟩
  · simp only [restS]
    rcases fromSliceHashlen x >>= publicKeyFromBytes with rs | e | _
    · simp only
      have hB : SymmetricState.mixKey Q ss (Keypair.dh Q hs.e rs).toList =
        (stateP Q { hs.rdA Q (keyIn b) with ss := ss } rs).ss := rfl
      rw [hB]
      rcases (stateP Q { hs.rdA Q (keyIn b) with ss := ss } rs).ss.decryptAndHash Q (b.drop 80) with ⟨r | e | _, ss', y⟩ <;> rfl
    · rfl
    · rfl
  · rfl
  · rfl

theorem restP_congr (pad pad' : Pad) (hs : HandshakeState) (front : Bytes) (r r' : NResult Unit × SymmetricState × Bytes)
    (h1 : r.1 = r'.1) (h2 : r.2.1 = r'.2.1) :
    (restP (P.withPad tg rest pad) hs front r).1 = (restP (P.withPad tg rest pad') hs front r').1 ∧
    (restP (P.withPad tg rest pad) hs front r).2.1 = (restP (P.withPad tg rest pad') hs front r').2.1 := by
  obtain ⟨o, ss, x⟩ := r
  obtain ⟨o', ss', x'⟩ := r'
  obtain rfl : o = o' := h1
  obtain rfl : ss = ss' := h2
  rcases o with _ | _ | _
  · simp only [restP, split_pad, and_self]
  · simp only [restP, and_self]
  · simp only [restP, and_self]

theorem stateP_pad (pad : Pad) (hs : HandshakeState) (rs : Arr 32) : stateP (P.withPad tg rest pad) hs rs = stateP P hs rs := by
  unfold stateP
  rw [mixKey_pad, dh_pad]

theorem restS_congr (pad pad' : Pad) (hs : HandshakeState) (front payload : Bytes) (r : NResult Unit × SymmetricState × Bytes) :
    (restS (P.withPad tg rest pad) hs front payload r).1 = (restS (P.withPad tg rest pad') hs front payload r).1 ∧
    (restS (P.withPad tg rest pad) hs front payload r).2.1 = (restS (P.withPad tg rest pad') hs front payload r).2.1 := by
  obtain ⟨o, ss, x⟩ := r
  rcases o with _ | _ | _
  · simp only [restS]
    rcases fromSliceHashlen x >>= publicKeyFromBytes with rs | e | _
    · simp only [stateP_pad]
      obtain ⟨d1, d2, -⟩ := decrypt_congr P tg rest (pad := pad) (pad' := pad') (stateP P { hs with ss := ss } rs).ss payload rfl
      exact restP_congr P tg rest pad pad' _ _ _ _ d1 d2
    · simp only [and_self]
    · simp only [and_self]
  · simp only [restS, and_self]
  · simp only [restS, and_self]

theorem rdA_pad (pad : Pad) (hs : HandshakeState) (re : Arr 32) : hs.rdA (P.withPad tg rest pad) re = hs.rdA P re := by
  unfold HandshakeState.rdA
  rw [mixKey_pad, mixHash_pad, dh_pad]

theorem readB_congr {pad pad' : Pad} (hs : HandshakeState) (b : Bytes)
    (h : pad (NX.hkdf P hs.ss.ck (P.dh hs.e.private_key (keyIn b)).toList).2 (prepNonce 0) =
      pad' (NX.hkdf P hs.ss.ck (P.dh hs.e.private_key (keyIn b)).toList).2 (prepNonce 0)) :
    (hs.readMessageB (P.withPad tg rest pad) b).1 = (hs.readMessageB (P.withPad tg rest pad') b).1 ∧
    (hs.readMessageB (P.withPad tg rest pad) b).2.1 = (hs.readMessageB (P.withPad tg rest pad') b).2.1 := by
  by_cases h1 : 80 ≤ b.length ∧ b.take 32 ∉ forbiddenCurveValues
  · rw [readB_eq _ hs b h1.1 h1.2, readB_eq _ hs b h1.1 h1.2, rdA_pad, rdA_pad]
    have hk : (hs.rdA P (keyIn b)).ss.cs.k = (NX.hkdf P hs.ss.ck (P.dh hs.e.private_key (keyIn b)).toList).2 := by
      rw [← hkdf_eq]; rfl
    rw [(decrypt_congr P tg rest (pad := pad) (pad' := pad') (hs.rdA P (keyIn b)).ss (HandshakeState.partS b) rfl).2.2 (by rw [hk]; exact h)]
    exact restS_congr P tg rest pad pad' _ _ _ _
  · have hc : ∀ Q : Prims, (b.length < 48 ∧ hs.readMessageB Q b = (.err .missingreError, hs, b)) ∨
        (48 ≤ b.length ∧ b.take 32 ∈ forbiddenCurveValues ∧ hs.readMessageB Q b = (.err .invalidPublicKeyError, hs, b)) ∨
        (∃ h : 48 ≤ b.length, b.take 32 ∉ forbiddenCurveValues ∧ b.length < 80 ∧
          hs.readMessageB Q b = (.err .missingrsError, hs.rdA Q (first32 b (by omega)), b)) := by
      intro Q
      rcases HandshakeState.readB_cases (P := Q) hs b with h | h | h | h | h | h | h | h
      · exact .inl h
      · exact .inr (.inl h)
      · exact .inr (.inr h)
      all_goals exfalso
      · obtain ⟨a, e, a', -⟩ := h; exact h1 ⟨a, a'⟩
      · obtain ⟨a, e, a', -⟩ := h; exact h1 ⟨a, a'⟩
      · obtain ⟨a, e, -, a', -⟩ := h; exact h1 ⟨a, a'⟩
      · obtain ⟨a, e, -, -, a', -⟩ := h; exact h1 ⟨by omega, a'⟩
      · obtain ⟨a, e, -, -, a', -⟩ := h; exact h1 ⟨by omega, a'⟩
    rcases hc (P.withPad tg rest pad) with ⟨a, e⟩ | ⟨a, a', e⟩ | ⟨a, a', a'', e⟩ <;>
      rcases hc (P.withPad tg rest pad') with ⟨c, f⟩ | ⟨c, c', f⟩ | ⟨c, c', c'', f⟩ <;> first
        | omega
        | exact absurd a' c'
        | exact absurd c' a'
        | (rw [e, f, rdA_pad, rdA_pad]; exact ⟨rfl, rfl⟩)
        | (rw [e, f]; exact ⟨rfl, rfl⟩)

theorem readA_pad (pad : Pad) (hs : HandshakeState) (b : Bytes) :
    hs.readMessageA (P.withPad tg rest pad) b = hs.readMessageA P b := by
  unfold HandshakeState.readMessageA
  simp only [mixHash_pad]

/-- Receiving. -/
theorem recv_rows {pad pad' : Pad} (s : NoiseSession) (b : Bytes)
    (h : ∀ y ∈ Op.opened P s (.recv b), pad y.1 y.2 = pad' y.1 y.2) :
    Op.sight (P.withPad tg rest pad) s (.recv b) = Op.sight (P.withPad tg rest pad') s (.recv b) := by
  have key : (s.recvMessage (P.withPad tg rest pad) b).1 = (s.recvMessage (P.withPad tg rest pad') b).1 ∧
      (s.recvMessage (P.withPad tg rest pad) b).2.1 = (s.recvMessage (P.withPad tg rest pad') b).2.1 := by
    by_cases hm : 2 ≤ s.mc
    · exact NoiseSession.recv_uniform s b hm _ _ (open_uniform P tg rest pad pad')
    by_cases hl : b.length < 16 ∨ 65535 < b.length
    · rw [NoiseSession.recv_badLength s b hl, NoiseSession.recv_badLength s b hl]; exact ⟨rfl, rfl⟩
    have hl : ¬ (b.length < MAC_LENGTH ∨ b.length > MAX_MESSAGE) := hl
    unfold NoiseSession.recvMessage
    rw [if_neg hl, if_neg hl]
    by_cases h0 : s.mc = 0
    · rw [if_pos h0, if_pos h0, readA_pad, readA_pad]
      exact ⟨rfl, rfl⟩
    have h1 : s.mc = 1 := by omega
    rw [if_neg h0, if_neg h0, if_pos h1, if_pos h1]
    have ho : Op.opened P s (.recv b) =
        [((NX.hkdf P s.hs.ss.ck (P.dh s.hs.e.private_key (keyIn b)).toList).2, prepNonce 0)] := by
      rw [prepNonce_eq]; exact if_pos h1
    rw [ho] at h
    obtain ⟨c1, c2⟩ := readB_congr P tg rest s.hs b (h _ (List.mem_singleton.mpr rfl))
    rcases hr : s.hs.readMessageB (P.withPad tg rest pad) b with ⟨o, hs, x⟩
    rcases hr' : s.hs.readMessageB (P.withPad tg rest pad') b with ⟨o', hs', x'⟩
    rw [hr, hr'] at c1 c2
    obtain rfl : o = o' := c1
    obtain rfl : hs = hs' := c2
    rcases o with t | e | _
    · simp only [NoiseSession.count]
      split <;> exact ⟨rfl, rfl⟩
    · exact ⟨rfl, rfl⟩
    · exact ⟨rfl, rfl⟩
  unfold Op.sight
  simp only [Op.exec, Op.isSend, Bool.false_and, Bool.false_eq_true, if_false, key.1, key.2]

/-! ### The other calls -/

theorem writeA_pad (pad : Pad) (rnd : Keypair) (hs : HandshakeState) (b : Bytes) :
    hs.writeMessageA (P.withPad tg rest pad) rnd b = hs.writeMessageA P rnd b := by
  unfold HandshakeState.writeMessageA
  simp only [mixHash_pad]

/-- The first handshake message is not encrypted. -/
theorem first_rows (pad pad' : Pad) (s : NoiseSession) (secret : Arr 32) (b : Bytes) (h0 : s.mc = 0) :
    Op.sight (P.withPad tg rest pad) s (.send secret b) = Op.sight (P.withPad tg rest pad') s (.send secret b) := by
  rw [sight_send, sight_send]
  unfold NoiseSession.sendMessage
  rw [if_pos h0, if_pos h0, writeA_pad, writeA_pad]

theorem rekey_rows {pad pad' : Pad} (s : NoiseSession)
    (h : pad s.cs1.k CipherState.rekeyNonce = pad' s.cs1.k CipherState.rekeyNonce) :
    s.rekeyLocal (P.withPad tg rest pad) = s.rekeyLocal (P.withPad tg rest pad') := by
  unfold NoiseSession.rekeyLocal
  rw [rekey_congr P tg rest _ h]

/-! ## One step of the game -/

/-- The crowd after a call that looks like this. -/
def Crowd.put (P : Prims) (c : Crowd) (who : Nat) (op : Op) (r : NResult Unit × NoiseSession × Bytes) : Crowd :=
  { sessions := fun j => if j = who then r.2.1 else c.sessions j
    opened := c.opened ++ op.opened P (c.sessions who)
    sent := c.sent ++ if r.1.isOk then (op.secret P (c.sessions who)).map fun x => (who, x) else []
    seen := c.seen ++ [.call r.1 r.2.2 r.2.1] }

theorem Crowd.call_put (Q : Prims) (c : Crowd) (who : Nat) (op : Op) :
    c.call P Q who op = c.put P who op (op.sight Q (c.sessions who)) := rfl

theorem Crowd.put_send (c : Crowd) (who : Nat) (secret : Arr 32) (b b' : Bytes) (r : NResult Unit × NoiseSession × Bytes) :
    c.put P who (.send secret b) r = c.put P who (.send secret b') r := rfl

/-- The rows used for texts. -/
def Crowd.rows (c : Crowd) : List Row := c.sent.map (·.2)

theorem Crowd.clean_iff (c : Crowd) : c.Clean ↔ c.rows.Nodup ∧ ∀ x ∈ c.rows, x ∉ c.opened := by
  unfold Crowd.Clean Crowd.rows
  simp only [List.mem_map, forall_exists_index, and_imp, forall_apply_eq_imp_iff₂]

theorem Crowd.rows_call (Q : Prims) (c : Crowd) (who : Nat) (op : Op) :
    (c.call P Q who op).rows = c.rows ++ if (op.exec Q (c.sessions who)).1.isOk then op.secret P (c.sessions who) else [] := by
  show (c.sent ++ if (op.exec Q (c.sessions who)).1.isOk then (op.secret P (c.sessions who)).map fun x => (who, x) else []).map
    (·.2) = _
  rw [List.map_append]
  congr 1
  split
  · simp
  · rfl

/-- The rows that a step uses, and what they do. -/
structure Rows (P : Prims) (c : Crowd) (f : Bool → Pad → Crowd) where
  o : List Row
  t : List Row
  opened : ∀ β pad, (f β pad).opened = c.opened ++ o
  sent : ∀ β pad, (f β pad).rows = c.rows ++ t
  congr : ∀ β pad pad', (∀ y ∈ o ++ t, pad y.1 y.2 = pad' y.1 y.2) → f β pad = f β pad'
  flip : (t = [] ∧ ∀ pad, f false pad = f true pad) ∨
    ∃ x, t = [x] ∧ (x ∉ o → ∃ d, ∀ pad, f false pad = f true (pad.change x d))

theorem Crowd.call_rows (c : Crowd) (who : Nat) (op : Op) (hop : op.isSend = false) :
    Nonempty (Rows P c fun _ pad => c.call P (P.withPad tg rest pad) who op) := by
  have hs : op.secret P (c.sessions who) = [] := by
    cases op <;> first | rfl | cases hop
  have hsent : ∀ pad, (c.call P (P.withPad tg rest pad) who op).rows = c.rows ++ [] := by
    intro pad
    rw [Crowd.rows_call, hs]
    simp
  refine ⟨⟨op.opened P (c.sessions who), [], fun _ _ => rfl, fun _ => hsent, ?_, .inl ⟨rfl, fun _ => rfl⟩⟩⟩
  intro _ pad pad' h
  rw [List.append_nil] at h
  show c.call _ _ _ _ = c.call _ _ _ _
  rw [Crowd.call_put, Crowd.call_put]
  refine congrArg (c.put P who op) ?_
  cases op with
  | send secret b => cases hop
  | recv b => exact recv_rows P tg rest _ b h
  | rekeyLocal =>
    have hr := h ((c.sessions who).cs1.k, CipherState.rekeyNonce) (by unfold Op.opened; exact List.mem_cons_self)
    have := rekey_rows P tg rest (c.sessions who) hr
    unfold Op.sight
    simp only [Op.exec, this, Op.isSend, Bool.false_and]
  | rekeyRemote =>
    have hr := h ((c.sessions who).cs1.k, CipherState.rekeyNonce) (by unfold Op.opened; exact List.mem_cons_self)
    have := rekey_congr P tg rest (c.sessions who).cs1 hr
    unfold Op.sight
    simp only [Op.exec, NoiseSession.rekeyRemote, this, Op.isSend, Bool.false_and]
  | setEphemeral kp => unfold Op.sight; simp only [Op.exec, Op.isSend, Bool.false_and]
  | clearLocal => unfold Op.sight; simp only [Op.exec, Op.isSend, Bool.false_and]
  | clearRemote => unfold Op.sight; simp only [Op.exec, Op.isSend, Bool.false_and]

theorem Crowd.send_rows (c : Crowd) (who : Nat) (secret : Arr 32) (b : Bool → Bytes)
    (hb : (c.sessions who).mc = 0 ∧ b true = b false ∨ (c.sessions who).mc ≠ 0 ∧ (b true).length = (b false).length) :
    Nonempty (Rows P c fun β pad => c.call P (P.withPad tg rest pad) who (.send secret (b β))) := by
  rcases hb with ⟨h0, hb⟩ | ⟨h0, hb⟩
  · have hb : ∀ β, b β = b false := by
      intro β; cases β
      · rfl
      · exact hb
    have hsec : ∀ b, Op.secret P (c.sessions who) (.send secret b) = [] := fun b => if_pos h0
    have hsent : ∀ β pad, (c.call P (P.withPad tg rest pad) who (.send secret (b β))).rows = c.rows ++ [] := by
      intro β pad
      rw [Crowd.rows_call, hsec]
      simp
    refine ⟨⟨Op.opened P (c.sessions who) (.send secret (b false)), [], fun _ _ => rfl, hsent, ?_, .inl ⟨rfl, fun pad => ?_⟩⟩⟩
    · intro β pad pad' _
      show c.call _ _ _ _ = c.call _ _ _ _
      rw [Crowd.call_put, Crowd.call_put, first_rows P tg rest pad pad' _ _ _ h0]
    · rw [hb true]
  · have hl : ∀ β, (b β).length = (b false).length := by
      intro β; cases β
      · rfl
      · exact hb
    rcases Noise.send_rows P tg rest (c.sessions who) secret (b false).length h0 with ⟨hn, hc⟩ | ⟨hn, x, hx, hc, hf⟩
    · have hsent : ∀ β pad, (c.call P (P.withPad tg rest pad) who (.send secret (b β))).rows = c.rows ++ [] := by
        intro β pad
        rw [Crowd.rows_call]
        have : (Op.exec (P.withPad tg rest pad) (c.sessions who) (.send secret (b β))).1.isOk = false := hn pad (b β) (hl β)
        rw [this]
        rfl
      refine ⟨⟨Op.opened P (c.sessions who) (.send secret (b false)), [], fun _ _ => rfl, hsent, ?_,
        .inl ⟨rfl, fun pad => ?_⟩⟩⟩
      · intro β pad pad' h
        rw [List.append_nil] at h
        show c.call _ _ _ _ = c.call _ _ _ _
        rw [Crowd.call_put, Crowd.call_put, hc pad pad' (b β) (b β) (hl β) (hl β) h]
      · show c.call _ _ _ _ = c.call _ _ _ _
        rw [Crowd.call_put, Crowd.call_put, hc pad pad (b false) (b true) (hl _) (hl _) fun _ _ => rfl]
        rfl
    · have hsent : ∀ β pad, (c.call P (P.withPad tg rest pad) who (.send secret (b β))).rows = c.rows ++ [x] := by
        intro β pad
        rw [Crowd.rows_call]
        have : (Op.exec (P.withPad tg rest pad) (c.sessions who) (.send secret (b β))).1.isOk = true := hn pad (b β) (hl β)
        rw [this, hx]
        rfl
      refine ⟨⟨Op.opened P (c.sessions who) (.send secret (b false)), [x], fun _ _ => rfl, hsent, ?_,
        .inr ⟨x, rfl, fun hxo => ?_⟩⟩⟩
      · intro β pad pad' h
        show c.call _ _ _ _ = c.call _ _ _ _
        rw [Crowd.call_put, Crowd.call_put, hc pad pad' (b β) (hl β) h]
      · obtain ⟨d, hd⟩ := hf (b false) (b true) (hl _) (hl _) hxo
        refine ⟨d, fun pad => ?_⟩
        show c.call _ _ _ _ = c.call _ _ _ _
        rw [Crowd.call_put, Crowd.call_put, hd pad]
        rfl

end

section
variable (P : Prims) (rest : Arr 32 → Arr 12 → Nat → UInt8)

theorem Unused.join_zero (u : Unused) (pad : Pad) (k : Arr 32) (n : Arr 12) : u.join pad (k, n, 0) = u.1 (k, n) := by
  unfold Unused.join
  simp only [Fin.cases_zero]

theorem Unused.join_row (u : Unused) {pad pad' : Pad} (x : Arr 32 × Arr 12 × Fin 1025)
    (h : x.2.2 ≠ 0 → pad x.1 x.2.1 = pad' x.1 x.2.1) : u.join pad x = u.join pad' x := by
  obtain ⟨k, n, c⟩ := x
  revert h
  refine Fin.cases (fun _ => by rw [Unused.join_zero, Unused.join_zero]) (fun c h => ?_) c
  apply arr_ext
  rw [Unused.join_succ, Unused.join_succ]
  have h := h (Fin.succ_ne_zero c)
  unfold Unused.byte
  simp only at h
  rw [h]

theorem Crowd.step_rows (u : Unused) (c : Crowd) (q : Query) :
    Nonempty (Rows P c fun β pad => c.step P rest (u.join pad) β q) := by
  cases q with
  | start who s =>
    simp only [Crowd.step]
    exact ⟨⟨[], [], fun _ _ => by simp, fun _ _ => (List.append_nil _).symm, fun _ _ _ _ => rfl, .inl ⟨rfl, fun _ => rfl⟩⟩⟩
  | call who op =>
    by_cases hop : op.isSend = false
    · have := Crowd.call_rows P u.tag (u.more rest) c who op hop
      simpa only [Crowd.step, Unused.withBlocks] using this
    · cases op <;> try exact absurd rfl hop
      rename_i secret b
      have := Crowd.send_rows P u.tag (u.more rest) c who secret (fun _ => b)
        (by by_cases h : (c.sessions who).mc = 0
            · exact .inl ⟨h, rfl⟩
            · exact .inr ⟨h, rfl⟩)
      simpa only [Crowd.step, Unused.withBlocks] using this
  | send who secret b0 b1 =>
    have := Crowd.send_rows P u.tag (u.more rest) c who secret
      (fun β => if β ∧ b0.length = b1.length ∧ (c.sessions who).getMessageCount ≠ 0 then b1 else b0)
      (by
        by_cases h : (c.sessions who).mc = 0
        · exact .inl ⟨h, by simp [NoiseSession.getMessageCount, h]⟩
        · refine .inr ⟨h, ?_⟩
          by_cases hl : b0.length = b1.length
          · simp [NoiseSession.getMessageCount, h, hl]
          · simp [hl])
    simpa only [Crowd.step, Unused.withBlocks] using this
  | block x =>
    simp only [Crowd.step]
    refine ⟨⟨if x.2.2 = 0 then [] else [(x.1, x.2.1)], [], fun _ _ => rfl, fun _ _ => (List.append_nil _).symm, ?_,
      .inl ⟨rfl, fun _ => rfl⟩⟩⟩
    intro _ pad pad' h
    have : u.join pad x = u.join pad' x := Unused.join_row u x fun hx => by
      apply h (x.1, x.2.1)
      rw [if_neg hx]
      exact List.mem_append_left _ (List.mem_singleton.mpr rfl)
    simp only [this]

/-! ## The game -/

instance (c : Crowd) : Decidable c.Clean := by unfold Crowd.Clean; infer_instance

/-- The game, which stops before a row is used twice. -/
def Crowd.careful (u : Unused) (onlooker : Onlooker) (β : Bool) (pad : Pad) (w : Crowd × Bool) : Crowd × Bool :=
  if w.2 then w
  else if (w.1.step P rest (u.join pad) β (onlooker w.1.seen)).Clean then
    (w.1.step P rest (u.join pad) β (onlooker w.1.seen), false)
  else (w.1, true)

/-- It is a game on pads. -/
def Crowd.game (u : Unused) (onlooker : Onlooker) : Game (Crowd × Bool) where
  step := Crowd.careful P rest u onlooker
  Kept w y := y ∈ w.1.opened ∨ y ∈ w.1.rows
  Done w y := y ∈ w.1.rows
  spec := by
    rintro ⟨c, f⟩
    have still : (∀ β pad, Crowd.careful P rest u onlooker β pad (c, f) = (c, true)) →
        Turns (Crowd.careful P rest u onlooker) (fun w y => y ∈ w.1.opened ∨ y ∈ w.1.rows) (fun w y => y ∈ w.1.rows) (c, f) :=
      fun h =>
      ⟨fun _ => False, (EMPTY, CipherState.rekeyNonce), fun _ => 0, fun β pad pad' _ => by rw [h, h],
        fun pad => by rw [h, h], fun β pad y => by rw [h]; exact ⟨id, False.elim, id⟩, fun _ h => h.elim,
        .inl fun pad => Pad.change_zero _ _⟩
    by_cases hf : f = true
    · subst hf
      exact still fun β pad => by simp [Crowd.careful]
    obtain rfl : f = false := by simpa using hf
    obtain ⟨r⟩ := Crowd.step_rows P rest u c (onlooker c.seen)
    by_cases hc : (c.rows ++ r.t).Nodup ∧ ∀ x ∈ c.rows ++ r.t, x ∉ c.opened ++ r.o
    · have hcl : ∀ β pad, Crowd.careful P rest u onlooker β pad (c, false) =
          (c.step P rest (u.join pad) β (onlooker c.seen), false) := by
        intro β pad
        have : (c.step P rest (u.join pad) β (onlooker c.seen)).Clean := by
          rw [Crowd.clean_iff, r.opened, r.sent]
          exact hc
        unfold Crowd.careful
        rw [if_neg (by simp), if_pos this]
      have hR : ∀ y ∈ r.o ++ r.t, y ∉ c.rows := by
        intro y hy hs
        rcases List.mem_append.mp hy with hy | hy
        · exact hc.2 y (List.mem_append_left _ hs) (List.mem_append_right _ hy)
        · exact (List.nodup_append.mp hc.1).2.2 _ hs _ hy rfl
      have hK : ∀ β pad y, (y ∈ c.opened ∨ y ∈ c.rows → y ∈ (Crowd.careful P rest u onlooker β pad (c, false)).1.opened ∨
            y ∈ (Crowd.careful P rest u onlooker β pad (c, false)).1.rows) ∧
          (y ∈ r.o ++ r.t → y ∈ (Crowd.careful P rest u onlooker β pad (c, false)).1.opened ∨
            y ∈ (Crowd.careful P rest u onlooker β pad (c, false)).1.rows) ∧
          (y ∈ c.rows → y ∈ (Crowd.careful P rest u onlooker β pad (c, false)).1.rows) := by
        intro β pad y
        rw [hcl]
        simp only [r.opened, r.sent, List.mem_append]
        tauto
      rcases r.flip with ⟨ht, hfl⟩ | ⟨x, ht, hfl⟩
      · exact ⟨fun y => y ∈ r.o ++ r.t, (EMPTY, CipherState.rekeyNonce), fun _ => 0,
          fun β pad pad' h => by rw [hcl, hcl, r.congr β pad pad' h],
          fun pad => by rw [hcl, hcl, Pad.change_zero, hfl], hK, hR, .inl fun pad => Pad.change_zero _ _⟩
      · have hx : x ∈ c.rows ++ r.t := List.mem_append_right _ (by rw [ht]; exact List.mem_singleton.mpr rfl)
        obtain ⟨d, hd⟩ := hfl fun h => hc.2 x hx (List.mem_append_right _ h)
        refine ⟨fun y => y ∈ r.o ++ r.t, x, d, fun β pad pad' h => by rw [hcl, hcl, r.congr β pad pad' h],
          fun pad => by rw [hcl, hcl, hd], hK, hR, .inr ⟨?_, ?_⟩⟩
        · rintro (h | h)
          · exact hc.2 x hx (List.mem_append_left _ h)
          · exact hR x (List.mem_append_right _ (by rw [ht]; exact List.mem_singleton.mpr rfl)) h
        · intro β pad
          rw [hcl]
          show x ∈ (c.step P rest (u.join pad) β (onlooker c.seen)).rows
          rw [r.sent]
          exact hx
    · refine still fun β pad => ?_
      have : ¬ (c.step P rest (u.join pad) β (onlooker c.seen)).Clean := by
        rw [Crowd.clean_iff, r.opened, r.sent]
        exact hc
      unfold Crowd.careful
      rw [if_neg (by simp), if_neg this]

/-- Rows that were used stay used. -/
theorem Crowd.play_clean (u : Unused) (onlooker : Onlooker) (β : Bool) (pad : Pad) (N : Nat) : ∀ c : Crowd,
    (c.play P rest (u.join pad) β onlooker N).Clean → c.Clean := by
  induction N with
  | zero => intro c h; exact h
  | succ N ih =>
    intro c h
    have := ih _ h
    obtain ⟨r⟩ := Crowd.step_rows P rest u c (onlooker c.seen)
    rw [Crowd.clean_iff, r.opened, r.sent] at this
    rw [Crowd.clean_iff]
    exact ⟨(List.nodup_append.mp this.1).1, fun x hx ho => this.2 x (List.mem_append_left _ hx) (List.mem_append_left _ ho)⟩

theorem iter_still (u : Unused) (onlooker : Onlooker) (β : Bool) (pad : Pad) (N : Nat) (c : Crowd) :
    iter (Crowd.careful P rest u onlooker β pad) N (c, true) = (c, true) := by
  induction N with
  | zero => rfl
  | succ N ih =>
    have : Crowd.careful P rest u onlooker β pad (c, true) = (c, true) := by simp [Crowd.careful]
    unfold iter
    rw [this, ih]

/-- The two games are the same as long as no row is used twice. -/
theorem Crowd.play_iter (u : Unused) (onlooker : Onlooker) (β : Bool) (pad : Pad) (N : Nat) : ∀ c : Crowd, c.Clean →
    ((c.play P rest (u.join pad) β onlooker N).Clean →
      iter (Crowd.careful P rest u onlooker β pad) N (c, false) = (c.play P rest (u.join pad) β onlooker N, false)) ∧
    (¬ (c.play P rest (u.join pad) β onlooker N).Clean →
      (iter (Crowd.careful P rest u onlooker β pad) N (c, false)).2 = true) := by
  induction N with
  | zero => intro c hc; exact ⟨fun _ => rfl, fun h => absurd hc h⟩
  | succ N ih =>
    intro c _
    unfold iter Crowd.play
    by_cases hc : (c.step P rest (u.join pad) β (onlooker c.seen)).Clean
    · have : Crowd.careful P rest u onlooker β pad (c, false) = (c.step P rest (u.join pad) β (onlooker c.seen), false) := by
        unfold Crowd.careful
        rw [if_neg (by simp), if_pos hc]
      rw [this]
      exact ih _ hc
    · have : Crowd.careful P rest u onlooker β pad (c, false) = (c, true) := by
        unfold Crowd.careful
        rw [if_neg (by simp), if_neg hc]
      rw [this, iter_still]
      exact ⟨fun h => absurd (Crowd.play_clean P rest u onlooker β pad N _ h) hc, fun _ => rfl⟩

theorem Crowd.pads (u : Unused) (onlooker : Onlooker) (N : Nat) (c : Crowd) (hc : c.Clean) :
    ∃ e : Pad ≃ Pad, ∀ pad,
      ((c.play P rest (u.join pad) false onlooker N).Clean ↔ (c.play P rest (u.join (e pad)) true onlooker N).Clean) ∧
      ((c.play P rest (u.join pad) false onlooker N).Clean →
        c.play P rest (u.join pad) false onlooker N = c.play P rest (u.join (e pad)) true onlooker N) := by
  obtain ⟨e, he, -⟩ := (Crowd.game P rest u onlooker).swap N (c, false)
  refine ⟨e, fun pad => ?_⟩
  have he : iter (Crowd.careful P rest u onlooker false pad) N (c, false) =
    iter (Crowd.careful P rest u onlooker true (e pad)) N (c, false) := he pad
  obtain ⟨a1, a2⟩ := Crowd.play_iter P rest u onlooker false pad N c hc
  obtain ⟨b1, b2⟩ := Crowd.play_iter P rest u onlooker true (e pad) N c hc
  have key : (c.play P rest (u.join pad) false onlooker N).Clean ↔ (c.play P rest (u.join (e pad)) true onlooker N).Clean := by
    constructor
    · intro h
      by_contra h'
      have := b2 h'
      rw [← he, a1 h] at this
      cases this
    · intro h
      by_contra h'
      have := a2 h'
      rw [he, b1 h] at this
      cases this
  refine ⟨key, fun h => ?_⟩
  have := (a1 h).symm.trans (he.trans (b1 (key.mp h)))
  exact congrArg Prod.fst this

end
end SV2.Noise
