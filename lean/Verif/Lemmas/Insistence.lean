import Verif.Spec.Insistence
import Verif.Lemmas.Impersonation
import Verif.Props.Reread
/-!
# Forged answers, again and again

What a client makes of a reply depends on the one-time keys of Poly1305 through the checks of the two tags in it.  Here a
second client checks tags under a key that the attacker does not know without the one-time key: it looks whether a
responder made them.  A one-time key that gives the same tags as the responders did leads to the same run with it, and
the two clients go apart only where a tag was guessed.
-/

namespace SV2.Noise

variable {P : Prims}

/-! ## Two clients that differ in the tags they take -/

section
open Classical

/-- `P` with this key stream and this way to check tags. -/
noncomputable def Prims.withCheck (P : Prims) (stream : Arr 32 → Arr 12 → Nat → UInt8)
    (check : Arr 32 → Arr 12 → Bytes → Bytes → Arr 16 → Prop) : Prims :=
  { P with
    aeadOpen := fun k n ad c mac => if check k n ad c mac then some (mask (stream k n) c) else none
    open_length := fun k n ad c mac p h => by
      split at h
      · cases h; exact length_mask _ _
      · cases h }

end

/-- What is checked in a reply: first the static key, then the payload. -/
def askedStatic (P : Prims) (p : NX.Progress) (e : Arr 32) (w : Bytes) : Tagged :=
  ⟨p.key P e (keyIn w), (p.one P e (keyIn w)).h, NX.staticPart w⟩

/-- The static key in a reply, without looking at the tag. -/
def staticOf (P : Prims) (stream : Arr 32 → Arr 12 → Nat → UInt8) (p : NX.Progress) (e : Arr 32) (w : Bytes) : Arr 32 :=
  keyIn (mask (stream (p.key P e (keyIn w)) (NX.nonce 0)) (body (NX.staticPart w)))

def askedPayload (P : Prims) (stream : Arr 32 → Arr 12 → Nat → UInt8) (p : NX.Progress) (e : Arr 32) (w : Bytes) : Tagged :=
  let rs := staticOf P stream p e w
  ⟨(p.one P e (keyIn w)).key P e rs, (p.two P e (keyIn w) rs w).h, w.drop 80⟩

variable {stream : Arr 32 → Arr 12 → Nat → UInt8}

theorem decrypt_agree {Q1 Q2 : Prims} (hh : Q1.hash = Q2.hash) (k ck h : Arr 32) (b : Bytes)
    (ho : ∀ hl : 16 ≤ b.length, b.length ≤ 2048 →
      Q1.aeadOpen k (prepNonce 0) h.toList (body b) (CipherState.tagArr b hl) =
      Q2.aeadOpen k (prepNonce 0) h.toList (body b) (CipherState.tagArr b hl)) :
    SymmetricState.decryptAndHash Q1 ⟨⟨k, 0⟩, ck, h⟩ b = SymmetricState.decryptAndHash Q2 ⟨⟨k, 0⟩, ck, h⟩ b := by
  by_cases hb : b.length < 16 ∨ 2048 < b.length
  · rw [SymmetricState.decrypt_panic _ _ hb, SymmetricState.decrypt_panic _ _ hb]
  have hl : 16 ≤ b.length := by omega
  have ho := ho hl (by omega)
  by_cases hk : k = EMPTY
  · rw [SymmetricState.decrypt_noKey _ _ hl (by omega) rfl hk, SymmetricState.decrypt_noKey _ _ hl (by omega) rfl hk]
  rcases h2 : Q2.aeadOpen k (prepNonce 0) h.toList (body b) (CipherState.tagArr b hl) with _ | text
  · rw [h2] at ho
    rw [SymmetricState.decrypt_none _ _ hl (by omega) rfl hk ho, SymmetricState.decrypt_none _ _ hl (by omega) rfl hk h2]
  · rw [h2] at ho
    rw [SymmetricState.decrypt_some _ _ text hl (by omega) rfl hk ho,
      SymmetricState.decrypt_some _ _ text hl (by omega) rfl hk h2, hh]

/-- The two ways to check agree on this. -/
def Agree (mk : OneTime) (check : Arr 32 → Arr 12 → Bytes → Bytes → Arr 16 → Prop) (t : Tagged) : Prop :=
  ∀ hl : 16 ≤ t.wire.length, polyTag (mk (t.key, NX.nonce 0)) t.ad.toList (body t.wire) = CipherState.tagArr t.wire hl ↔
    check t.key (NX.nonce 0) t.ad.toList (body t.wire) (CipherState.tagArr t.wire hl)

theorem agree_open {mk : OneTime} {check : Arr 32 → Arr 12 → Bytes → Bytes → Arr 16 → Prop} {t : Tagged}
    (h : Agree mk check t) (hl : 16 ≤ t.wire.length) :
    (P.withMac stream mk).aeadOpen t.key (prepNonce 0) t.ad.toList (body t.wire) (CipherState.tagArr t.wire hl) =
    (P.withCheck stream check).aeadOpen t.key (prepNonce 0) t.ad.toList (body t.wire) (CipherState.tagArr t.wire hl) := by
  classical
  rw [prepNonce_zero]
  show (if _ then _ else _) = if _ then _ else _
  have h := h hl
  by_cases hc : check t.key (NX.nonce 0) t.ad.toList (body t.wire) (CipherState.tagArr t.wire hl)
  · rw [if_pos hc, if_pos (h.mpr hc)]
  · rw [if_neg hc, if_neg fun e => hc (h.mp e)]

theorem readB_agree {mk : OneTime} {check : Arr 32 → Arr 12 → Bytes → Bytes → Arr 16 → Prop} (hs : HandshakeState) (w : Bytes)
    (h1 : 80 ≤ w.length → Agree mk check (askedStatic P ⟨hs.ss.h, hs.ss.ck⟩ hs.e.private_key w))
    (h2 : 96 ≤ w.length → w.length ≤ 2128 →
      Agree mk check (askedPayload P stream ⟨hs.ss.h, hs.ss.ck⟩ hs.e.private_key w)) :
    hs.readMessageB (P.withMac stream mk) w = hs.readMessageB (P.withCheck stream check) w := by
  unfold HandshakeState.readMessageB
  simp only [show DHLEN = 32 from rfl, show MAC_LENGTH = 16 from rfl]
  by_cases h48 : w.length < 48
  · rw [if_pos (by omega), if_pos (by omega)]
  rw [if_neg (by omega), if_neg (by omega)]
  by_cases hf : w.take 32 ∈ forbiddenCurveValues
  · rw [key_forbidden (w.take 32) (by simp; omega) (by rw [take32_take32]; exact hf)]
  rw [key_ok (w.take 32) (by simp; omega) (by rw [take32_take32]; exact hf), HandshakeState.first32_take w (by omega)]
  have hre : first32 w (by omega) = keyIn w := eq_keyIn (by omega) rfl
  have hre32 : List.take 32 (keyIn w).toList = (keyIn w).toList := by rw [keyIn_eq (by omega), take32_take32]
  simp only [hre, hre32]
  generalize hp : (⟨hs.ss.h, hs.ss.ck⟩ : NX.Progress) = p at h1 h2
  have hA : ∀ (Q : Prims) (ss : SymmetricState) (pub : Arr 32) (sent : Bytes),
      SymmetricState.mixKey Q (SymmetricState.mixHash Q ss sent) (Keypair.dh Q hs.e pub).toList =
      let p : NX.Progress := ⟨ss.h, ss.ck⟩
      ⟨⟨p.key Q hs.e.private_key pub, 0⟩, (p.mix Q hs.e.private_key pub sent).ck,
        (p.mix Q hs.e.private_key pub sent).h⟩ := by
    intro Q ss pub sent
    unfold SymmetricState.mixKey
    rw [hkdf_eq]
    rfl
  have hA1 : SymmetricState.mixKey (P.withMac stream mk) (SymmetricState.mixHash (P.withMac stream mk) hs.ss (keyIn w).toList)
      (Keypair.dh (P.withMac stream mk) hs.e (keyIn w)).toList =
      ⟨⟨p.key P hs.e.private_key (keyIn w), 0⟩, (p.one P hs.e.private_key (keyIn w)).ck,
        (p.one P hs.e.private_key (keyIn w)).h⟩ := by
    rw [hA, hp]
    rfl
  have hA2 : SymmetricState.mixKey (P.withCheck stream check)
      (SymmetricState.mixHash (P.withCheck stream check) hs.ss (keyIn w).toList)
      (Keypair.dh (P.withCheck stream check) hs.e (keyIn w)).toList =
      ⟨⟨p.key P hs.e.private_key (keyIn w), 0⟩, (p.one P hs.e.private_key (keyIn w)).ck,
        (p.one P hs.e.private_key (keyIn w)).h⟩ := by
    rw [hA, hp]
    rfl
  simp only [hA1, hA2]
  by_cases h80 : w.length < 80
  · rw [if_pos (by simp; omega), if_pos (by simp; omega)]
  rw [if_neg (by simp; omega), if_neg (by simp; omega)]
  have h1 := h1 (by omega)
  have hpS : List.take (16 + 32) (List.drop 32 w) = NX.staticPart w := rfl
  have hdrop : List.drop (16 + 32) (List.drop 32 w) = w.drop 80 := by simp [List.drop_drop]
  simp only [hpS, hdrop]
  have hlS : (NX.staticPart w).length = 48 := HandshakeState.partS_length (by omega)
  have hd := decrypt_agree (Q1 := P.withMac stream mk) (Q2 := P.withCheck stream check) rfl
    (p.key P hs.e.private_key (keyIn w)) (p.one P hs.e.private_key (keyIn w)).ck
    (p.one P hs.e.private_key (keyIn w)).h (NX.staticPart w) (fun hl _ => agree_open h1 hl)
  rw [hd]
  rcases (decrypt_opens (P.withCheck stream check) (p.key P hs.e.private_key (keyIn w))
      (p.one P hs.e.private_key (keyIn w)).ck (p.one P hs.e.private_key (keyIn w)).h
      (NX.staticPart w) (by omega) (by omega)).symm with ⟨ho, e, he, hd⟩ | ⟨t, ho, hd⟩
  · rw [hd]
  rw [hd]
  simp only
  have htl : t.length = 32 := by have := opens_length _ ho; omega
  obtain ⟨rs, rfl⟩ : ∃ rs : Arr 32, rs.toList = t := ⟨⟨t, htl⟩, rfl⟩
  have hrs : rs = staticOf P stream p hs.e.private_key w := by
    have ho := ((opens_iff _ _ _ _ _ (by omega)).mp ho).2
    simp only [Prims.withCheck] at ho
    split at ho
    · have e := Option.some.inj ho
      rw [prepNonce_zero] at e
      unfold staticOf
      apply eq_keyIn
      · rw [e, rs.len]
      · rw [e]
        exact (List.take_of_length_le (Nat.le_of_eq rs.len)).symm
    · cases ho
  have hp32 : (rs.toList ++ tag (NX.staticPart w)).take 32 = rs.toList := by simp [htl]
  by_cases h4 : rs.toList ∈ forbiddenCurveValues
  · rw [key_forbidden _ (by simp; omega) (by rw [hp32]; exact h4)]
  rw [key_ok _ (by simp; omega) (by rw [hp32]; exact h4)]
  have hrs' : first32 (rs.toList ++ tag (NX.staticPart w)) (by simp; omega) = rs := by
    apply arr_ext
    exact hp32
  simp only [hrs']
  have hB : ∀ Q : Prims, SymmetricState.mixKey Q ⟨⟨p.key P hs.e.private_key (keyIn w), 1⟩,
        (p.one P hs.e.private_key (keyIn w)).ck,
        P.hash ((p.one P hs.e.private_key (keyIn w)).h.toList ++ NX.staticPart w)⟩ (Keypair.dh Q hs.e rs).toList =
      ⟨⟨(p.one P hs.e.private_key (keyIn w)).key Q hs.e.private_key rs, 0⟩,
        (NX.hkdf Q (p.one P hs.e.private_key (keyIn w)).ck (Q.dh hs.e.private_key rs).toList).1,
        P.hash ((p.one P hs.e.private_key (keyIn w)).h.toList ++ NX.staticPart w)⟩ := by
    intro Q
    unfold SymmetricState.mixKey NX.Progress.key
    rw [hkdf_eq]
    rfl
  have hh : (P.withCheck stream check).hash = P.hash := rfl
  rw [hh, hB, hB]
  have hd2 := decrypt_agree (Q1 := P.withMac stream mk) (Q2 := P.withCheck stream check) rfl
    ((p.one P hs.e.private_key (keyIn w)).key P hs.e.private_key rs)
    (NX.hkdf P (p.one P hs.e.private_key (keyIn w)).ck (P.dh hs.e.private_key rs).toList).1
    (P.hash ((p.one P hs.e.private_key (keyIn w)).h.toList ++ NX.staticPart w)) (w.drop 80)
    (fun hl hl2 => by
      rw [List.length_drop] at hl hl2
      have h2 := h2 (by omega) (by omega)
      have := agree_open (P := P) (stream := stream) h2 (by show 16 ≤ (w.drop 80).length; rw [List.length_drop]; exact hl)
      rw [hrs]
      exact this)
  have hd2' : SymmetricState.decryptAndHash (P.withMac stream mk)
      ⟨⟨(p.one P hs.e.private_key (keyIn w)).key (P.withMac stream mk) hs.e.private_key rs, 0⟩,
        (NX.hkdf (P.withMac stream mk) (p.one P hs.e.private_key (keyIn w)).ck
          ((P.withMac stream mk).dh hs.e.private_key rs).toList).1,
        P.hash ((p.one P hs.e.private_key (keyIn w)).h.toList ++ NX.staticPart w)⟩ (w.drop 80) =
      SymmetricState.decryptAndHash (P.withCheck stream check)
      ⟨⟨(p.one P hs.e.private_key (keyIn w)).key (P.withCheck stream check) hs.e.private_key rs, 0⟩,
        (NX.hkdf (P.withCheck stream check) (p.one P hs.e.private_key (keyIn w)).ck
          ((P.withCheck stream check).dh hs.e.private_key rs).toList).1,
        P.hash ((p.one P hs.e.private_key (keyIn w)).h.toList ++ NX.staticPart w)⟩ (w.drop 80) := hd2
  rw [hd2']
  rfl

theorem recv_agree {mk : OneTime} {check : Arr 32 → Arr 12 → Bytes → Bytes → Arr 16 → Prop} (i : NoiseSession) (hi : i.mc = 1)
    (w : Bytes) (h1 : 80 ≤ w.length → Agree mk check (askedStatic P i.progress i.hs.e.private_key w))
    (h2 : 96 ≤ w.length → w.length ≤ 2128 → Agree mk check (askedPayload P stream i.progress i.hs.e.private_key w)) :
    i.recvMessage (P.withMac stream mk) w = i.recvMessage (P.withCheck stream check) w := by
  by_cases hl : w.length < 16 ∨ 65535 < w.length
  · rw [NoiseSession.recv_badLength i w hl, NoiseSession.recv_badLength i w hl]
  rw [NoiseSession.recv_one i w hl hi, NoiseSession.recv_one i w hl hi, readB_agree i.hs w h1 h2]

/-! ## The other client -/

/-- All that the responders encrypted. -/
def Siege.tagged (P : Prims) (s : Siege) : List Tagged := s.served.flatMap fun a => a.2.tagged P a.1

open Classical in
/-- Under this key. -/
noncomputable def Siege.under (P : Prims) (s : Siege) (k : Arr 32) : List Tagged := (s.tagged P).filter (·.key = k)

theorem Siege.mem_under {s : Siege} {k : Arr 32} {t : Tagged} : t ∈ s.under P k ↔ t ∈ s.tagged P ∧ t.key = k := by
  classical
  unfold Siege.under
  rw [List.mem_filter]
  simp

/-- It takes a tag under a key that the attacker did not compute blocks with, and that responders used at most once, if a
responder made it. -/
def Siege.check (P : Prims) (mk : OneTime) (s : Siege) (k : Arr 32) (n : Arr 12) (ad c : Bytes) (mac : Arr 16) : Prop :=
  (polyTag (mk (k, n)) ad c = mac ∧ (n ≠ NX.nonce 0 ∨ k ∈ s.keys ∨ 2 ≤ (s.under P k).length)) ∨
  ((∃ t ∈ s.under P k, t.ad.toList = ad ∧ t.wire = c ++ mac.toList) ∧
    ¬ (n ≠ NX.nonce 0 ∨ k ∈ s.keys ∨ 2 ≤ (s.under P k).length))

variable (P) (rest : Arr 32 → Arr 12 → Nat → UInt8) (o : Others)

/-- The reply that comes after `q` refused ones, to this client. -/
noncomputable def Insistent.reach (mk : OneTime) : Insistent → Nat → Siege → Option (Siege × Bytes)
  | .stop, _, _ => none
  | .block x next, q, s => (next (Blocks.join o mk x)).reach mk q { s with keys := x.1 :: s.keys }
  | .serve c next, q, s =>
    let a := c.answer (P.withBlocks rest (Blocks.join o mk))
    (next a).reach mk q { s with served := s.served ++ (a.map fun a => (c.sR, a)).toList }
  | .deliver w _, 0, s => some (s, w)
  | .deliver w next, q + 1, s =>
    match s.client.recvMessage (P.withCheck (streamOf rest o) (s.check P mk)) w with
    | (.err e, i, out) => (next (.err e, i, out)).reach mk q { s with client := i, refused := s.refused ++ [w] }
    | _ => none

theorem reach_grows (mk : OneTime) (T : Insistent) : ∀ (q : Nat) (s s' : Siege) (w : Bytes),
    T.reach P rest o mk q s = some (s', w) → (∀ k ∈ s.keys, k ∈ s'.keys) ∧ s.served <+: s'.served := by
  induction T with
  | stop => intro q s s' w h; cases h
  | block x next ih =>
    intro q s s' w h
    obtain ⟨h1, h2⟩ := ih _ _ _ _ _ h
    exact ⟨fun k hk => h1 k (List.mem_cons_of_mem _ hk), h2⟩
  | serve c next ih =>
    intro q s s' w h
    obtain ⟨h1, h2⟩ := ih _ _ _ _ _ h
    exact ⟨h1, (List.prefix_append _ _).trans h2⟩
  | deliver m next ih =>
    intro q s s' w h
    cases q with
    | zero =>
      simp only [Insistent.reach, Option.some.injEq, Prod.mk.injEq] at h
      obtain ⟨rfl, -⟩ := h
      exact ⟨fun _ h => h, List.prefix_rfl⟩
    | succ q =>
      simp only [Insistent.reach] at h
      split at h
      · obtain ⟨h1, h2⟩ := ih _ _ _ _ _ h
        exact ⟨h1, h2⟩
      · cases h

theorem under_grows {s s' : Siege} (h : s.served <+: s'.served) (k : Arr 32) : s.under P k <+: s'.under P k := by
  classical
  obtain ⟨r, hr⟩ := h
  unfold Siege.under Siege.tagged
  rw [← hr, List.flatMap_append, List.filter_append]
  exact List.prefix_append _ _

theorem check_update (mk : OneTime) (s : Siege) (k y : Arr 32) (hk : k ∉ s.keys) (hu : (s.under P k).length ≤ 1) :
    s.check P (Function.update mk (k, NX.nonce 0) y) = s.check P mk := by
  funext k' n ad c mac
  unfold Siege.check
  by_cases e : (k', n) = (k, NX.nonce 0)
  · obtain ⟨rfl, rfl⟩ := Prod.mk.inj e
    have : ¬ (NX.nonce 0 ≠ NX.nonce 0 ∨ k' ∈ s.keys ∨ 2 ≤ (s.under P k').length) := by
      rintro (h | h | h)
      · exact h rfl
      · exact hk h
      · omega
    simp only [this, and_false, not_false_eq_true, and_true, false_or]
  · rw [Function.update_of_ne e]

/-- A one-time key that the attacker did not compute, and that gives the same tags. -/
theorem reach_congr (mk : OneTime) (k y : Arr 32) (T : Insistent) : ∀ (q : Nat) (s s' : Siege) (w : Bytes),
    T.reach P rest o mk q s = some (s', w) → k ∉ s'.keys → (s'.under P k).length ≤ 1 →
    (∀ t ∈ s'.under P k, polyTag y t.ad.toList (body t.wire) = polyTag (mk (k, NX.nonce 0)) t.ad.toList (body t.wire)) →
    T.reach P rest o (Function.update mk (k, NX.nonce 0) y) q s = some (s', w) := by
  induction T with
  | stop => intro q s s' w h; cases h
  | block x next ih =>
    intro q s s' w h hk hu ht
    simp only [Insistent.reach] at h ⊢
    have hx : x.1 ≠ k := fun e => hk ((reach_grows P rest o mk _ _ _ _ _ h).1 _ (e ▸ List.mem_cons_self))
    rw [join_update o mk (k, NX.nonce 0) y x hx]
    exact ih _ _ _ _ _ h hk hu ht
  | serve c next ih =>
    intro q s s' w h hk hu ht
    simp only [Insistent.reach] at h ⊢
    have hg := (reach_grows P rest o mk _ _ _ _ _ h).2
    have ha : c.answer (P.withBlocks rest (Blocks.join o (Function.update mk (k, NX.nonce 0) y))) =
        c.answer (P.withBlocks rest (Blocks.join o mk)) := by
      rw [withBlocks_join o _ mk, withBlocks_join o mk mk]
      refine c.answer_congr fun a ha t hta => ?_
      by_cases hkey : t.key = k
      · rw [hkey, Function.update_self]
        refine (ht t (Siege.mem_under.mpr ⟨?_, hkey⟩)).symm
        rw [← withBlocks_join o mk mk] at ha
        refine List.mem_flatMap.mpr ⟨(c.sR, a), hg.subset ?_, hta⟩
        simp [ha]
      · rw [Function.update_of_ne fun e => hkey (congrArg Prod.fst e)]
    rw [ha]
    exact ih _ _ _ _ _ h hk hu ht
  | deliver m next ih =>
    intro q s s' w h hk hu ht
    cases q with
    | zero => exact h
    | succ q =>
      simp only [Insistent.reach] at h ⊢
      split at h
      · next e i out hr =>
        have hg := reach_grows P rest o mk _ _ _ _ _ h
        rw [check_update P mk s k y (fun h => hk (hg.1 _ h)) ((under_grows P hg.2 k).length_le.trans hu), hr]
        exact ih _ _ _ _ _ h hk hu ht
      · cases h

/-! ## What responders encrypt -/

/-- The answers are those of responders. -/
def Siege.Served (b : Blocks) (s : Siege) : Prop :=
  ∀ a ∈ s.served, ∃ c : Serving, c.sR = a.1 ∧ c.answer (P.withBlocks rest b) = some a.2

variable {P rest}

theorem served_add {b : Blocks} {s : Siege} (h : s.Served P rest b) (c : Serving) :
    Siege.Served P rest b
      { s with served := s.served ++ ((c.answer (P.withBlocks rest b)).map fun a => (c.sR, a)).toList } := by
  intro a ha
  rcases List.mem_append.mp ha with ha | ha
  · exact h a ha
  · simp only [Option.mem_toList, Option.map_eq_some_iff] at ha
    obtain ⟨x, hx, rfl⟩ := ha
    exact ⟨c, rfl, hx⟩

theorem served_tagged {b : Blocks} {s : Siege} (h : s.Served P rest b) : ∀ t ∈ s.tagged P,
    t.wire.length ≤ 65455 ∧ 16 ≤ t.wire.length ∧
    t.wire = body t.wire ++ (polyTag (b.oneTime (t.key, NX.nonce 0)) t.ad.toList (body t.wire)).toList := by
  intro t ht
  obtain ⟨a, ha, hta⟩ := List.mem_flatMap.mp ht
  obtain ⟨c, hc, hans⟩ := h a ha
  refine tagged_length (P := P) (rest := rest) b (.serve c fun _ => .reply ()) t ?_
  simp only [Asking.play, Played.tagged, hans, List.append_nil, Option.map_some, Option.toList_some, List.flatMap_cons,
    List.flatMap_nil]
  rw [hc]
  exact hta

theorem reach_served (mk : OneTime) (T : Insistent) : ∀ (q : Nat) (s s' : Siege) (w : Bytes),
    T.reach P rest o mk q s = some (s', w) → s.Served P rest (Blocks.join o mk) → s'.Served P rest (Blocks.join o mk) := by
  induction T with
  | stop => intro q s s' w h; cases h
  | block x next ih => exact fun q s s' w h hs => ih _ _ _ _ _ h hs
  | serve c next ih => exact fun q s s' w h hs => ih _ _ _ _ _ h (served_add hs c)
  | deliver m next ih =>
    intro q s s' w h hs
    cases q with
    | zero =>
      simp only [Insistent.reach, Option.some.injEq, Prod.mk.injEq] at h
      obtain ⟨rfl, -⟩ := h
      exact hs
    | succ q =>
      simp only [Insistent.reach] at h
      split at h
      · exact ih _ _ _ _ _ h hs
      · cases h


/-! ## Counting -/

/-- Runs that do not change with a one-time key that gives the same tags, and a tag under this key that is new. -/
theorem few_forged {β : Type} (pl : OneTime → β) (aim : β → Tagged) (under : β → List Tagged) (Fair : β → Prop)
    (hcong : ∀ mk, Fair (pl mk) → ∀ y : Arr 32, (∀ t ∈ under (pl mk), polyTag y t.ad.toList (body t.wire) =
      polyTag (mk ((aim (pl mk)).key, NX.nonce 0)) t.ad.toList (body t.wire)) →
      pl (Function.update mk ((aim (pl mk)).key, NX.nonce 0) y) = pl mk)
    (hone : ∀ mk, Fair (pl mk) → (under (pl mk)).length ≤ 1 ∧ 16 ≤ (aim (pl mk)).wire.length ∧
      (aim (pl mk)).wire.length ≤ 65455)
    (hmade : ∀ mk, Fair (pl mk) → ∀ t ∈ under (pl mk), t.wire.length ≤ 65455 ∧ t.wire = body t.wire ++
      (polyTag (mk ((aim (pl mk)).key, NX.nonce 0)) t.ad.toList (body t.wire)).toList) :
    2 ^ 91 * Nat.card {mk : OneTime // Fair (pl mk) ∧
      (∃ hl : 16 ≤ (aim (pl mk)).wire.length, polyTag (mk ((aim (pl mk)).key, NX.nonce 0)) (aim (pl mk)).ad.toList
        (body (aim (pl mk)).wire) = CipherState.tagArr (aim (pl mk)).wire hl) ∧
      ∀ t ∈ under (pl mk), ¬ (t.ad = (aim (pl mk)).ad ∧ t.wire = (aim (pl mk)).wire)} ≤ Nat.card OneTime := by
  classical
  let row : OneTime → Arr 32 × Arr 12 := fun mk => ((aim (pl mk)).key, NX.nonce 0)
  let like : β → Arr 32 → Set (Arr 32) := fun p key =>
    {y | ∀ t ∈ under p, polyTag y t.ad.toList (body t.wire) = polyTag key t.ad.toList (body t.wire)}
  let bad : β → Set (Arr 32) := fun p => {y | (∃ hl : 16 ≤ (aim p).wire.length, polyTag y (aim p).ad.toList
        (body (aim p).wire) = CipherState.tagArr (aim p).wire hl) ∧
      ∀ t ∈ under p, ¬ (t.ad = (aim p).ad ∧ t.wire = (aim p).wire)}
  let S : OneTime → Set (Arr 32) := fun mk => if Fair (pl mk) then like (pl mk) (mk (row mk)) else {mk (row mk)}
  let Bad : OneTime → Set (Arr 32) := fun mk => if Fair (pl mk) then bad (pl mk) else ∅
  have keep : ∀ mk, ∀ y ∈ S mk, pl (Function.update mk (row mk) y) = pl mk := by
    intro mk y hy
    by_cases hf : Fair (pl mk)
    · have hy : y ∈ like (pl mk) (mk (row mk)) := by
        have := hy
        simp only [S, if_pos hf] at this
        exact this
      exact hcong mk hf y hy
    · have hy : y = mk (row mk) := by
        have := hy
        simp only [S, if_neg hf] at this
        exact this
      rw [hy, Function.update_eq_self]
  have hrow : ∀ mk, ∀ y ∈ S mk, row (Function.update mk (row mk) y) = row mk := by
    intro mk y hy
    show ((aim (pl _)).key, _) = _
    rw [keep mk y hy]
  have := Rows.few (2 ^ 91) row S Bad
    (by
      intro mk
      by_cases hf : Fair (pl mk)
      · simp only [S, if_pos hf]
        exact fun t _ => rfl
      · simp only [S, if_neg hf]
        exact rfl)
    hrow
    (by
      intro mk y hy
      have e1 := hrow mk y hy
      have e2 := keep mk y hy
      by_cases hf : Fair (pl mk)
      · have hy' : y ∈ like (pl mk) (mk (row mk)) := by
          have := hy
          simp only [S, if_pos hf] at this
          exact this
        simp only [S, e1, e2, if_pos hf, Function.update_self]
        ext z
        refine forall_congr' fun t => forall_congr' fun ht => ?_
        rw [hy' t ht]
      · have hy' : y = mk (row mk) := by
          have := hy
          simp only [S, if_neg hf] at this
          exact this
        rw [hy', Function.update_eq_self])
    (by
      intro mk y hy
      show (if Fair (pl _) then bad (pl _) else ∅) = _
      rw [keep mk y hy])
    (fun _ => True) (fun _ _ _ => Iff.rfl) (fun _ _ _ => trivial)
    (by
      intro mk
      by_cases hf : Fair (pl mk)
      · simp only [S, Bad, if_pos hf]
        obtain ⟨h1, h2, h3⟩ := hone mk hf
        refine le_trans (Nat.mul_le_mul_left _ ?_) (card_accept (mk (row mk)) (under (pl mk)) h1
          (fun t ht => (hmade mk hf t ht).1) (fun t ht => (hmade mk hf t ht).2) (aim (pl mk)).ad (aim (pl mk)).wire h2 h3)
        exact Nat.card_le_card_of_injective (fun y => ⟨y.1, y.2.1, y.2.2.1.2, y.2.2.2⟩)
          fun a b h => Subtype.ext (congrArg (fun x => x.1) h)
      · simp only [S, Bad, if_neg hf, Set.mem_empty_iff_false, and_false]
        rw [Nat.card_of_isEmpty]
        simp)
  rw [show Nat.card {mk : OneTime // True} = Nat.card OneTime from
    Nat.card_congr (Equiv.subtypeUnivEquiv fun _ => trivial)] at this
  refine le_trans (Nat.mul_le_mul_left _ ?_) this
  refine Nat.card_le_card_of_injective (fun mk => ⟨mk.1, ?_⟩) fun a b h => Subtype.ext (congrArg (fun x => x.1) h)
  have h := mk.2
  show mk.1 (row mk.1) ∈ if Fair (pl mk.1) then _ else _
  rw [if_pos h.1]
  exact h.2

variable (P rest)

/-- What is checked in a reply to this client, the static key or the payload. -/
def Siege.asked (s : Siege) (w : Bytes) (payload : Bool) : Tagged :=
  let p := s.client.progress
  let e := s.client.hs.e.private_key
  if payload then askedPayload P (streamOf rest o) p e w else askedStatic P p e w

/-- A tag that no responder made, under a key that the attacker did not compute blocks with and responders used at most
once, and it is right. -/
structure Siege.Guessed (mk : OneTime) (s : Siege) (w : Bytes) (payload : Bool) : Prop where
  keys : (s.asked P rest o w payload).key ∉ s.keys
  once : (s.under P (s.asked P rest o w payload).key).length ≤ 1
  long : 16 ≤ (s.asked P rest o w payload).wire.length
  short : (s.asked P rest o w payload).wire.length ≤ 65455
  right : ∃ hl : 16 ≤ (s.asked P rest o w payload).wire.length,
    polyTag (mk ((s.asked P rest o w payload).key, NX.nonce 0)) (s.asked P rest o w payload).ad.toList
      (body (s.asked P rest o w payload).wire) = CipherState.tagArr (s.asked P rest o w payload).wire hl
  new : ∀ t ∈ s.under P (s.asked P rest o w payload).key,
    ¬ (t.ad = (s.asked P rest o w payload).ad ∧ t.wire = (s.asked P rest o w payload).wire)

theorem few_guessed (T : Insistent) (q : Nat) (s0 : Siege) (h0 : s0.served = []) (payload : Bool) :
    2 ^ 91 * Nat.card {mk : OneTime // ∃ s w, T.reach P rest o mk q s0 = some (s, w) ∧ s.Guessed P rest o mk w payload} ≤
      Nat.card OneTime := by
  classical
  let aim : Option (Siege × Bytes) → Tagged := fun p =>
    match p with
    | some (s, w) => s.asked P rest o w payload
    | none => ⟨EMPTY, EMPTY, []⟩
  let under : Option (Siege × Bytes) → List Tagged := fun p =>
    match p with
    | some (s, w) => s.under P (s.asked P rest o w payload).key
    | none => []
  let Fair : Option (Siege × Bytes) → Prop := fun p =>
    ∃ s w, p = some (s, w) ∧ (aim p).key ∉ s.keys ∧ (under p).length ≤ 1 ∧ 16 ≤ (aim p).wire.length ∧
      (aim p).wire.length ≤ 65455
  have hserved : ∀ b, s0.Served P rest b := by
    intro b a ha
    rw [h0] at ha
    cases ha
  have := few_forged (fun mk => T.reach P rest o mk q s0) aim under Fair
    (by
      rintro mk ⟨s, w, hp, hk, hu, -, -⟩ y hy
      rw [hp] at hk hu hy ⊢
      exact reach_congr P rest o mk _ y T q s0 s w hp hk hu hy)
    (fun mk ⟨s, w, hp, hk, hu, h1, h2⟩ => ⟨hu, h1, h2⟩)
    (by
      rintro mk ⟨s, w, hp, hk, hu, -, -⟩ t ht
      have hs := served_tagged (reach_served o mk T q s0 s w hp (hserved _))
      rw [hp] at ht ⊢
      obtain ⟨h1, h2⟩ := Siege.mem_under.mp ht
      obtain ⟨g1, -, g2⟩ := hs t h1
      rw [Blocks.oneTime_join, h2] at g2
      exact ⟨g1, g2⟩)
  refine le_trans (Nat.mul_le_mul_left _ ?_) this
  refine Nat.card_le_card_of_injective (fun mk => ⟨mk.1, ?_⟩) fun a b h => Subtype.ext (congrArg (fun x => x.1) h)
  obtain ⟨mk, s, w, hp, h⟩ := mk
  simp only [hp]
  exact ⟨⟨s, w, rfl, h.keys, h.once, h.long, h.short⟩, h.right, h.new⟩

/-! ## The two clients go apart only where a tag was guessed -/

variable {P rest}

theorem guessed_or_agree {mk : OneTime} {s : Siege} (hs : s.Served P rest (Blocks.join o mk)) (w : Bytes) (payload : Bool)
    (hl : 16 ≤ (s.asked P rest o w payload).wire.length) (hl' : (s.asked P rest o w payload).wire.length ≤ 65455) :
    s.Guessed P rest o mk w payload ∨ Agree mk (s.check P mk) (s.asked P rest o w payload) := by
  by_cases hg : s.Guessed P rest o mk w payload
  · exact .inl hg
  right
  intro hl2
  generalize ht : s.asked P rest o w payload = t at *
  by_cases hr : t.key ∈ s.keys ∨ 2 ≤ (s.under P t.key).length
  · constructor
    · exact fun h => .inl ⟨h, .inr hr⟩
    · rintro (h | h)
      · exact h.1
      · exact absurd (.inr hr) h.2
  · have hr' : ¬ (NX.nonce 0 ≠ NX.nonce 0 ∨ t.key ∈ s.keys ∨ 2 ≤ (s.under P t.key).length) := by
      rintro (h | h)
      · exact h rfl
      · exact hr h
    constructor
    · intro h
      refine .inr ⟨?_, hr'⟩
      by_contra hno
      refine hg ⟨?_, ?_, ?_, ?_, ?_, ?_⟩ <;> rw [ht]
      · exact fun h => hr (.inl h)
      · exact Nat.le_of_not_lt fun h => hr (.inr h)
      · exact hl
      · exact hl'
      · exact ⟨hl2, h⟩
      · rintro u hu ⟨e1, e2⟩
        refine hno ⟨u, hu, by rw [e1], ?_⟩
        rw [e2]
        exact (body_tag t.wire).symm
    · rintro (h | ⟨⟨u, hu, e1, e2⟩, -⟩)
      · exact h.1
      · obtain ⟨h1, h2⟩ := Siege.mem_under.mp hu
        obtain ⟨-, -, g⟩ := served_tagged hs u h1
        rw [Blocks.oneTime_join, h2] at g
        have hb : body u.wire = body t.wire := by rw [e2]; exact body_append _ _
        rw [g, hb, e1] at e2
        exact arr_ext (List.append_cancel_left e2)


theorem refused_snoc (Q : Prims) (ws : List Bytes) (w : Bytes) : ∀ i : NoiseSession, i.AllRefused Q ws →
    (∃ e, ((i.receives Q ws).recvMessage Q w).1 = .err e) → i.AllRefused Q (ws ++ [w]) := by
  induction ws with
  | nil => exact fun i _ h => ⟨h, trivial⟩
  | cons v ws ih => exact fun i h1 h2 => ⟨h1.1, ih _ h1.2 h2⟩

/-- The client is the one that refused these replies. -/
structure Siege.Refused (Q : Prims) (i1 : NoiseSession) (s : Siege) : Prop where
  client : s.client = i1.receives Q s.refused
  all : i1.AllRefused Q s.refused

variable (P rest)

theorem play_reach (mk : OneTime) (i1 : NoiseSession) (hi1 : i1.mc = 1) (T : Insistent) (w : Bytes) (i2 : NoiseSession)
    (out : Bytes) : ∀ (q : Nat) (s : Siege), s.accepted = none → s.Served P rest (Blocks.join o mk) →
    s.Refused (P.withBlocks rest (Blocks.join o mk)) i1 →
    (T.play P rest (Blocks.join o mk) q s).accepted = some (w, i2, out) →
    (∃ j < q, ∃ s1 w1 payload, T.reach P rest o mk j s = some (s1, w1) ∧ s1.Guessed P rest o mk w1 payload) ∨
    (∃ j < q, ∃ s', T.reach P rest o mk j s = some (s', w) ∧ s'.Served P rest (Blocks.join o mk) ∧
      s'.Refused (P.withBlocks rest (Blocks.join o mk)) i1 ∧
      T.play P rest (Blocks.join o mk) q s = { s' with accepted := some (w, i2, out) } ∧
      s'.client.recvMessage (P.withBlocks rest (Blocks.join o mk)) w = (.ok (), i2, out)) := by
  induction T with
  | stop =>
    intro q s hn _ _ h
    rw [Insistent.play, hn] at h
    cases h
  | block x next ih => exact fun q s hn hs hr h => ih _ q _ hn hs ⟨hr.client, hr.all⟩ h
  | serve c next ih => exact fun q s hn hs hr h => ih _ q _ hn (served_add hs c) ⟨hr.client, hr.all⟩ h
  | deliver m next ih =>
    intro q s hn hs hr h
    cases q with
    | zero =>
      rw [Insistent.play, hn] at h
      cases h
    | succ q =>
      have hQ := withBlocks_join (P := P) (rest := rest) o mk fun _ => EMPTY
      by_cases hg : ∃ payload, s.Guessed P rest o mk m payload
      · obtain ⟨payload, hg⟩ := hg
        exact .inl ⟨0, by omega, s, m, payload, rfl, hg⟩
      have hmc : s.client.mc = 1 := by
        rw [hr.client]
        exact (receives_refused _ s.refused i1 hi1 hr.all).1
      have hrecv : s.client.recvMessage (P.withBlocks rest (Blocks.join o mk)) m =
          s.client.recvMessage (P.withCheck (streamOf rest o) (s.check P mk)) m := by
        rw [hQ]
        refine recv_agree s.client hmc m (fun hl => ?_) fun hl hl' => ?_
        · have hlen : (NX.staticPart m).length = 48 := HandshakeState.partS_length hl
          rcases guessed_or_agree o hs m false (by show 16 ≤ (NX.staticPart m).length; omega)
            (by show (NX.staticPart m).length ≤ _; omega) with h | h
          · exact absurd ⟨_, h⟩ hg
          · exact h
        · have hlen : (m.drop 80).length = m.length - 80 := List.length_drop
          rcases guessed_or_agree o hs m true (by show 16 ≤ (m.drop 80).length; omega)
            (by show (m.drop 80).length ≤ _; omega) with h | h
          · exact absurd ⟨_, h⟩ hg
          · exact h
      rw [Insistent.play] at h ⊢
      rcases hres : s.client.recvMessage (P.withBlocks rest (Blocks.join o mk)) m with ⟨r, i, b⟩
      rw [hres] at h
      match r, hres, h with
      | .ok (), hres, h =>
        have h : some (m, i, b) = some (w, i2, out) := h
        obtain ⟨rfl, rfl, rfl⟩ : m = w ∧ i = i2 ∧ b = out := by
          have := Option.some.inj h
          exact ⟨congrArg (·.1) this, congrArg (·.2.1) this, congrArg (·.2.2) this⟩
        exact .inr ⟨0, by omega, s, rfl, hs, hr, rfl, hres⟩
      | .panic, hres, h =>
        have h : s.accepted = some (w, i2, out) := h
        rw [hn] at h
        cases h
      | .err e, hres, h =>
        have hreach : ∀ j, (Insistent.deliver m next).reach P rest o mk (j + 1) s =
            (next (.err e, i, b)).reach P rest o mk j { s with client := i, refused := s.refused ++ [m] } := by
          intro j
          rw [Insistent.reach, ← hrecv, hres]
        have hr' : Siege.Refused (P.withBlocks rest (Blocks.join o mk)) i1
            { s with client := i, refused := s.refused ++ [m] } := by
          refine ⟨?_, refused_snoc _ _ _ _ hr.all ⟨e, ?_⟩⟩
          · show i = List.foldl _ i1 (s.refused ++ [m])
            rw [List.foldl_append]
            show i = ((i1.receives _ s.refused).recvMessage _ m).2.1
            rw [← hr.client, hres]
          · rw [← hr.client, hres]
        rcases ih _ q { s with client := i, refused := s.refused ++ [m] } hn hs hr' h with ⟨j, hj, s1, w1, p, h1, h2⟩ | ⟨j, hj, s', h1, h2⟩
        · exact .inl ⟨j + 1, by omega, s1, w1, p, by rw [hreach]; exact h1, h2⟩
        · exact .inr ⟨j + 1, by omega, s', by rw [hreach]; exact h1, h2⟩


end SV2.Noise
