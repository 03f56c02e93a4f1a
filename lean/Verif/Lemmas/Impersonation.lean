import Verif.Spec.Impersonation
import Verif.Lemmas.Ideal
import Verif.Lemmas.Noise.Accepted
/-!
# Forged answers

The answer of a responder depends on the one-time keys of Poly1305 through the two tags in it.  So does what an attacker
does that does not compute the block itself, and a one-time key that gives the same tag leads to the same run.
-/

namespace SV2.Noise

/-! ## The answer of a responder -/

section
variable {P : Prims}

theorem keyIn_eq {b : Bytes} (h : 32 ≤ b.length) : (keyIn b).toList = b.take 32 := by
  show (b ++ _).take 32 = _
  rw [List.take_append_of_le_length h]

theorem eq_keyIn {b : Bytes} (h : 32 ≤ b.length) {k : Arr 32} (hk : k.toList = b.take 32) : k = keyIn b :=
  arr_ext (by rw [hk, keyIn_eq h])

/-- When a responder gets through. -/
structure Serving.Ok (P : Prims) (c : Serving) : Prop where
  first : 48 ≤ c.first.length ∧ c.first.length ≤ 65535
  key : c.first.take 32 ∉ forbiddenCurveValues
  buf : 96 ≤ c.buf.length ∧ c.buf.length ≤ 65535
  k1 : (NX.afterEE P (P.dh c.eR (keyIn c.first))).2 ≠ NX.zeros
  k2 : (NX.afterES P (P.dh c.eR (keyIn c.first)) (P.dh c.sR (keyIn c.first))).2 ≠ NX.zeros

def Serving.encS (P : Prims) (c : Serving) : Bytes :=
  NX.encryptedStatic P c.prologue (c.first.take 32) (c.first.drop 32) (P.publicOf c.eR).toList
    (P.dh c.eR (keyIn c.first)) (P.publicOf c.sR).toList

def Serving.encP (P : Prims) (c : Serving) : Bytes :=
  NX.encryptedPayload P c.prologue (c.first.take 32) (c.first.drop 32) (P.publicOf c.eR).toList (c.encS P)
    (P.dh c.eR (keyIn c.first)) (P.dh c.sR (keyIn c.first)) (body (c.buf.drop 80))

/-- Its answer. -/
def Serving.made (P : Prims) (c : Serving) : Answer :=
  ⟨c.prologue, c.eR, c.first, c.buf, (P.publicOf c.eR).toList ++ c.encS P ++ c.encP P,
    done false EMPTY (NX.transcript P [c.prologue, c.first.take 32, c.first.drop 32, (P.publicOf c.eR).toList, c.encS P, c.encP P])
      (NX.transportKeys P (P.dh c.eR (keyIn c.first)) (P.dh c.sR (keyIn c.first))) 1⟩

theorem send_second_inv {i : Bool} {prologue : Bytes} {s rnd : Keypair} {re : Arr 32} {ei p1 b w : Bytes} {s' : NoiseSession}
    (h : (mid P i prologue s Keypair.empty re ei p1).sendMessage P rnd b = (.ok (), s', w)) :
    96 ≤ b.length ∧ b.length ≤ 65535 ∧ (NX.afterEE P (P.dh rnd.private_key re)).2 ≠ NX.zeros ∧
      (NX.afterES P (P.dh rnd.private_key re) (P.dh s.private_key re)).2 ≠ NX.zeros := by
  by_cases hb : b.length < 16 ∨ 65535 < b.length
  · rw [NoiseSession.send_badLength rnd _ b hb] at h
    cases h
  have hE : (mid P i prologue s Keypair.empty re ei p1).hs.useE rnd = (mid P i prologue s rnd re ei p1).hs := rfl
  have hA := wrA_mid (P := P) prologue s rnd re ei p1 i
  have hB := wrB_mid (P := P) prologue s rnd re ei p1 i
  rcases HandshakeState.writeB_cases (P := P) rnd (mid P i prologue s Keypair.empty re ei p1).hs b with
    ⟨hl, hw⟩ | ⟨_, hl, b', _, hw⟩ | ⟨_, hk, b', _, hw⟩ | ⟨_, hl, _, b', _, hw⟩ | ⟨_, _, hk, b', _, hw⟩ |
    ⟨hl, hk1, hk2, hw⟩
  case inr.inr.inr.inr.inr =>
    rw [hE, hA] at hk1
    rw [hE, hB] at hk2
    exact ⟨hl, by omega, hk1, hk2⟩
  all_goals
    rw [NoiseSession.send_one rnd _ b hb rfl, hw] at h
    cases h

theorem Serving.answer_iff (c : Serving) (a : Answer) : c.answer P = some a ↔ c.Ok P ∧ a = c.made P := by
  constructor
  · intro h
    unfold Serving.answer at h
    split at h
    · next r1 out h1 =>
      split at h
      · next r2 second h2 =>
        obtain ⟨re, hre, hf, rfl, hl1, hl2⟩ := recv_first_ok h1
        obtain rfl := eq_keyIn (by omega) hre
        obtain ⟨g1, g2, g3, g4⟩ := send_second_inv h2
        rw [hre] at hf
        refine ⟨⟨⟨hl1, hl2⟩, hf, ⟨g1, g2⟩, g3, g4⟩, ?_⟩
        rw [send_second (P := P) false c.prologue (Keypair.default P c.sR) (Keypair.default P c.eR) (keyIn c.first)
          (c.first.take 32) (c.first.drop 32) c.buf g1 g2 g3 g4] at h2
        simp only [Prod.mk.injEq, true_and] at h2
        obtain ⟨rfl, rfl⟩ := h2
        exact (Option.some.inj h).symm
      · cases h
    · cases h
  · rintro ⟨h, rfl⟩
    have hr := recv_first (P := P) false c.prologue (Keypair.default P c.sR) (keyIn c.first) (c.first.drop 32)
      (by have := h.first; simp; omega) (by have := h.first; simp; omega)
      (by rw [keyIn_eq (by have := h.first; omega)]; exact h.key)
    rw [keyIn_eq (by have := h.first; omega), List.take_append_drop] at hr
    have hs := send_second (P := P) false c.prologue (Keypair.default P c.sR) (Keypair.default P c.eR) (keyIn c.first)
          (c.first.take 32) (c.first.drop 32) c.buf h.buf.1 h.buf.2 h.k1 h.k2
    unfold Serving.answer
    rw [hr]
    simp only []
    rw [hs]
    rfl

theorem Serving.encS_length (c : Serving) : (c.encS P).length = 48 := by
  unfold Serving.encS NX.encryptedStatic
  rw [enc_length, (P.publicOf c.sR).len]

theorem Serving.encP_length (c : Serving) : (c.encP P).length = (body (c.buf.drop 80)).length + 16 := by
  unfold Serving.encP NX.encryptedPayload
  rw [enc_length]

theorem Serving.made_parts (c : Serving) : (c.made P).second.take 32 = (P.publicOf c.eR).toList ∧
    ((c.made P).second.drop 32).take 48 = c.encS P ∧ (c.made P).second.drop 80 = c.encP P :=
  ⟨take_three (P.publicOf c.eR).len, take_mid_three (P.publicOf c.eR).len c.encS_length,
    drop_three (P.publicOf c.eR).len c.encS_length⟩

theorem Serving.genuine {c : Serving} {a : Answer} (h : c.answer P = some a) : a.Genuine P c.sR := by
  unfold Serving.answer at h
  split at h
  · next r1 out h1 =>
    split at h
    · next r2 second h2 =>
      obtain rfl := Option.some.inj h
      exact ⟨r1, out, h1, h2⟩
    · cases h
  · cases h

end

/-! ## Tags -/

/-- Something was encrypted under this key, with nonce 0 and this associated data. -/
structure Tagged where
  key : Arr 32
  ad : Arr 32
  wire : Bytes

/-- What a responder encrypted. -/
def Answer.tagged (P : Prims) (sR : Arr 32) (a : Answer) : List Tagged :=
  [⟨(NX.afterEE P (P.dh a.eR (keyIn a.first))).2,
      NX.transcript P [a.prologue, a.first.take 32, a.first.drop 32, a.second.take 32], (a.second.drop 32).take 48⟩,
    ⟨(NX.afterES P (P.dh a.eR (keyIn a.first)) (P.dh sR (keyIn a.first))).2,
      NX.payloadHash P a.prologue a.first a.second, a.second.drop 80⟩]

theorem Answer.tagged_keys (P : Prims) (sR : Arr 32) (a : Answer) : (a.tagged P sR).map (·.key) = a.keys P sR := rfl

variable {P : Prims} {stream : Arr 32 → Arr 12 → Nat → UInt8}

theorem enc_withMac (mk : OneTime) (k ad : Arr 32) (p : Bytes) :
    NX.enc (P.withMac stream mk) k 0 ad.toList p = mask (stream k (NX.nonce 0)) p ++
      (polyTag (mk (k, NX.nonce 0)) ad.toList (mask (stream k (NX.nonce 0)) p)).toList := rfl

theorem enc_congr {mk mk' : OneTime} {k ad : Arr 32} {p : Bytes} 
    (h : polyTag (mk (k, NX.nonce 0)) ad.toList (body (NX.enc (P.withMac stream mk) k 0 ad.toList p)) =
      polyTag (mk' (k, NX.nonce 0)) ad.toList (body (NX.enc (P.withMac stream mk) k 0 ad.toList p))) :
    NX.enc (P.withMac stream mk') k 0 ad.toList p = NX.enc (P.withMac stream mk) k 0 ad.toList p := by
  rw [enc_withMac, enc_withMac]
  rw [enc_withMac, body_append] at h
  rw [h]

/-- The same tags, the same answer. -/
theorem Serving.answer_congr {mk mk' : OneTime} (c : Serving)
    (h : ∀ a, c.answer (P.withMac stream mk) = some a → ∀ t ∈ a.tagged P c.sR,
      polyTag (mk (t.key, NX.nonce 0)) t.ad.toList (body t.wire) = polyTag (mk' (t.key, NX.nonce 0)) t.ad.toList (body t.wire)) :
    c.answer (P.withMac stream mk') = c.answer (P.withMac stream mk) := by
  by_cases hok : c.Ok (P.withMac stream mk)
  · have hok' : c.Ok (P.withMac stream mk') := ⟨hok.first, hok.key, hok.buf, hok.k1, hok.k2⟩
    have h1 := (c.answer_iff _).mpr ⟨hok, rfl⟩
    have h2 := (c.answer_iff _).mpr ⟨hok', rfl⟩
    rw [h1, h2]
    obtain ⟨e1, e2, e3⟩ := c.made_parts (P := P.withMac stream mk)
    have t1 := h _ h1 _ List.mem_cons_self
    have t2 := h _ h1 _ (List.mem_cons_of_mem _ List.mem_cons_self)
    simp only [NX.payloadHash, e1, e2, e3] at t1 t2
    have hS : c.encS (P.withMac stream mk') = c.encS (P.withMac stream mk) := enc_congr t1
    have hP : c.encP (P.withMac stream mk') = c.encP (P.withMac stream mk) := by
      unfold Serving.encP
      rw [hS]
      exact enc_congr t2
    unfold Serving.made
    rw [hS, hP]
    rfl
  · have hok' : ¬ c.Ok (P.withMac stream mk') := fun hok' => hok ⟨hok'.first, hok'.key, hok'.buf, hok'.k1, hok'.k2⟩
    have none : ∀ Q : Prims, ¬ c.Ok Q → c.answer Q = none := by
      intro Q hQ
      rcases ha : c.answer Q with _ | a
      · rfl
      · exact absurd ((c.answer_iff a).mp ha).1 hQ
    rw [none _ hok, none _ hok']

/-! ## The run of the attacker -/

/-- All that the responders encrypted. -/
def Played.tagged {α : Type} (P : Prims) (p : Played α) : List Tagged := p.served.flatMap fun s => s.2.tagged P s.1

theorem Played.tagged_keys {α : Type} (P : Prims) (p : Played α) :
    (p.tagged P).map (·.key) = p.served.flatMap fun s => s.2.keys P s.1 := by
  unfold Played.tagged
  rw [List.map_flatMap]
  rfl

variable {rest : Arr 32 → Arr 12 → Nat → UInt8}

theorem withBlocks_join (o : Others) (mk mk0 : OneTime) :
    P.withBlocks rest (Blocks.join o mk) = P.withMac ((Blocks.join o mk0).stream rest) mk := by
  unfold Prims.withBlocks
  rw [Blocks.oneTime_join, Blocks.stream_join rest o mk mk0]

theorem join_update (o : Others) (mk : OneTime) (row : Arr 32 × Arr 12) (y : Arr 32) (x : Arr 32 × Arr 12 × Fin 1025)
    (h : x.1 ≠ row.1) : Blocks.join o (Function.update mk row y) x = Blocks.join o mk x := by
  have : Function.update mk row y (x.1, x.2.1) = mk (x.1, x.2.1) :=
    Function.update_of_ne (fun e => h (congrArg Prod.fst e)) _ _
  unfold Blocks.join
  rw [this]

/-- A one-time key that the attacker did not compute, and that gives the same tags. -/
theorem play_congr (o : Others) (mk : OneTime) {α : Type} (k y : Arr 32) (imp : Asking α)
    (hk : k ∉ (imp.play P rest (Blocks.join o mk)).keys)
    (ht : ∀ t ∈ (imp.play P rest (Blocks.join o mk)).tagged P, t.key = k →
      polyTag y t.ad.toList (body t.wire) = polyTag (mk (k, NX.nonce 0)) t.ad.toList (body t.wire)) :
    imp.play P rest (Blocks.join o (Function.update mk (k, NX.nonce 0) y)) = imp.play P rest (Blocks.join o mk) := by
  induction imp with
  | reply w => rfl
  | block x next ih =>
    simp only [Asking.play, List.mem_cons, not_or] at hk ht ⊢
    have hx := join_update o mk (k, NX.nonce 0) y x (fun e => hk.1 e.symm)
    rw [hx, ih _ hk.2 ht]
  | serve c next ih =>
    have ha : c.answer (P.withBlocks rest (Blocks.join o (Function.update mk (k, NX.nonce 0) y))) =
        c.answer (P.withBlocks rest (Blocks.join o mk)) := by
      rw [withBlocks_join o _ mk, withBlocks_join o mk mk]
      refine c.answer_congr fun a ha t hta => ?_
      by_cases hkey : t.key = k
      · rw [hkey, Function.update_self]
        refine (ht t ?_ hkey).symm
        rw [← withBlocks_join o mk mk] at ha
        simp only [Asking.play, Played.tagged, ha, List.flatMap_append]
        exact List.mem_append_left _ (by simpa using hta)
      · rw [Function.update_of_ne fun e => hkey (congrArg Prod.fst e)]
    simp only [Asking.play] at hk ht ⊢
    rw [ha, ih _ hk fun t h1 h2 => ht t (by
      simp only [Played.tagged, List.flatMap_append]
      exact List.mem_append_right _ h1) h2]

/-- What responders encrypt. -/
theorem tagged_length {α : Type} (b : Blocks) (imp : Asking α) : ∀ t ∈ (imp.play P rest b).tagged P, t.wire.length ≤ 65455 ∧ 16 ≤ t.wire.length ∧
    t.wire = body t.wire ++ (polyTag (b.oneTime (t.key, NX.nonce 0)) t.ad.toList (body t.wire)).toList := by
  induction imp with
  | reply w => intro t h; cases h
  | block x next ih => exact ih _
  | serve c next ih =>
    intro t h
    simp only [Asking.play, Played.tagged, List.flatMap_append, List.mem_append] at h
    rcases h with h | h
    · rcases ha : c.answer (P.withBlocks rest b) with _ | a
      · rw [ha] at h; cases h
      · rw [ha] at h
        obtain ⟨hok, rfl⟩ := (c.answer_iff a).mp ha
        obtain ⟨e1, e2, e3⟩ := c.made_parts (P := P.withBlocks rest b)
        have hb := hok.buf
        have l1 := c.encS_length (P := P.withBlocks rest b)
        have l2 := c.encP_length (P := P.withBlocks rest b)
        have l3 : (body (c.buf.drop 80)).length ≤ 65439 := by simp only [body, List.length_take, List.length_drop]; omega
        simp only [Option.map_some, Option.toList_some, List.flatMap_cons, List.flatMap_nil, List.append_nil, Answer.tagged,
          NX.payloadHash, e1, e2, e3, List.mem_cons, List.not_mem_nil, or_false] at h
        rcases h with rfl | rfl
        · refine ⟨by simp only; omega, by simp only; omega, ?_⟩
          exact congrArg₂ _ (body_append _ _).symm (congrArg (fun c => (polyTag _ _ c).toList) (body_append _ _).symm)
        · refine ⟨by simp only; omega, by simp only; omega, ?_⟩
          exact congrArg₂ _ (body_append _ _).symm (congrArg (fun c => (polyTag _ _ c).toList) (body_append _ _).symm)
    · exact ih _ t h

/-! ## How many one-time keys accept -/

def macIn (ad c : Bytes) : Bytes :=
  ad ++ Crypto.Aead.pad16 ad ++ c ++ Crypto.Aead.pad16 c ++ toLE 8 ad.length ++ toLE 8 c.length

theorem polyTag_eq (key : Arr 32) (ad c : Bytes) : polyTag key ad c = Crypto.Poly1305.mac (macIn ad c) key.toList := rfl

theorem pad16_32 (ad : Arr 32) : Crypto.Aead.pad16 ad.toList = [] := by
  unfold Crypto.Aead.pad16
  rw [ad.len]
  rfl

theorem macIn_inj {ad ad' : Arr 32} {c c' : Bytes} (hc : c.length < 2 ^ 64) (hc' : c'.length < 2 ^ 64)
    (h : macIn ad.toList c = macIn ad'.toList c') : ad = ad' ∧ c = c' := by
  unfold macIn at h
  obtain ⟨h1, h2⟩ := List.append_inj' h (by rw [toLE_length, toLE_length])
  obtain ⟨h3, -⟩ := List.append_inj' h1 (by rw [toLE_length, toLE_length])
  have hl := congrArg fromLE h2
  rw [fromLE_toLE 8 _ (lt_of_lt_of_eq hc (by decide)), fromLE_toLE 8 _ (lt_of_lt_of_eq hc' (by decide))] at hl
  rw [pad16_32, pad16_32, List.append_nil, List.append_nil, List.append_assoc, List.append_assoc] at h3
  obtain ⟨h4, h5⟩ := List.append_inj h3 (by rw [ad.len, ad'.len])
  exact ⟨arr_ext h4, (List.append_inj h5 hl).1⟩

theorem blocks_macIn {ad : Arr 32} {c : Bytes} (h : c.length ≤ 65439) : Crypto.Poly1305.blocks (macIn ad.toList c) ≤ 4096 := by
  have : (macIn ad.toList c).length = 32 + c.length + (16 - c.length % 16) % 16 + 16 := by
    unfold macIn
    rw [pad16_32]
    simp only [List.length_append, toLE_length, Crypto.Aead.pad16, List.length_replicate, ad.len, List.length_nil]
  unfold Crypto.Poly1305.blocks
  omega

/-- Under one key at most one message was encrypted, and it is not this one. -/
theorem card_accept (key0 : Arr 32) (L : List Tagged) (hL : L.length ≤ 1)
    (hlen : ∀ t ∈ L, t.wire.length ≤ 65455)
    (hwire : ∀ t ∈ L, t.wire = body t.wire ++ (polyTag key0 t.ad.toList (body t.wire)).toList)
    (ad : Arr 32) (w : Bytes) (hw : 16 ≤ w.length) (hw' : w.length ≤ 65455) :
    2 ^ 91 * Nat.card {y : Arr 32 //
      (∀ t ∈ L, polyTag y t.ad.toList (body t.wire) = polyTag key0 t.ad.toList (body t.wire)) ∧
      (polyTag y ad.toList (body w) = CipherState.tagArr w hw ∧ ∀ t ∈ L, ¬ (t.ad = ad ∧ t.wire = w))} ≤
    Nat.card {y : Arr 32 // ∀ t ∈ L, polyTag y t.ad.toList (body t.wire) = polyTag key0 t.ad.toList (body t.wire)} := by
  have hb : (body w).length ≤ 65439 := by simp only [body, List.length_take]; omega
  match L, hL with
  | [], _ =>
    have c1 : Nat.card {y : Arr 32 // ∀ t ∈ ([] : List Tagged),
        polyTag y t.ad.toList (body t.wire) = polyTag key0 t.ad.toList (body t.wire)} = 2 ^ 256 := by
      rw [← Crypto.Poly1305.card_keys]
      exact Nat.card_congr (Equiv.subtypeUnivEquiv fun key t ht => by cases ht)
    have c2 := Crypto.Poly1305.card_mac (macIn ad.toList (body w)) (CipherState.tagArr w hw)
    rw [c1]
    refine le_trans (Nat.mul_le_mul_left _ (Nat.card_le_card_of_injective (β := {key : Arr 32 //
        Crypto.Poly1305.mac (macIn ad.toList (body w)) key.toList = CipherState.tagArr w hw})
      (fun y => ⟨y.1, y.2.2.1⟩) fun a b h => Subtype.ext (congrArg (fun x => x.1) h))) ?_
    rw [c2]
    decide
  | [t], _ =>
    have hlike : ∀ y : Arr 32, (∀ t' ∈ [t], polyTag y t'.ad.toList (body t'.wire) = polyTag key0 t'.ad.toList (body t'.wire)) ↔
        Crypto.Poly1305.mac (macIn t.ad.toList (body t.wire)) y.toList = polyTag key0 t.ad.toList (body t.wire) := by
      intro y
      rw [List.forall_mem_singleton, polyTag_eq]
    have c1 := Crypto.Poly1305.card_mac (macIn t.ad.toList (body t.wire)) (polyTag key0 t.ad.toList (body t.wire))
    rw [Nat.card_congr (Equiv.subtypeEquivRight hlike), c1]
    by_cases hs : t.ad = ad ∧ body t.wire = body w
    · have : IsEmpty {y : Arr 32 //
          (∀ t' ∈ [t], polyTag y t'.ad.toList (body t'.wire) = polyTag key0 t'.ad.toList (body t'.wire)) ∧
          (polyTag y ad.toList (body w) = CipherState.tagArr w hw ∧ ∀ t' ∈ [t], ¬ (t'.ad = ad ∧ t'.wire = w))} := by
        refine ⟨fun y => y.2.2.2 t List.mem_cons_self ⟨hs.1, ?_⟩⟩
        have g1 := y.2.1 t List.mem_cons_self
        have g2 := y.2.2.1
        rw [hwire t List.mem_cons_self, ← g1, hs.1, hs.2, g2]
        exact body_tag w
      rw [Nat.card_of_isEmpty]
      omega
    · have hlb : (body t.wire).length ≤ 65439 := by
        have := hlen t List.mem_cons_self
        simp only [body, List.length_take]; omega
      have hne : macIn t.ad.toList (body t.wire) ≠ macIn ad.toList (body w) := fun e =>
        hs (macIn_inj (by omega) (by omega) e)
      have c2 := Crypto.Poly1305.card_mac_two hne 4096 (blocks_macIn hlb) (blocks_macIn hb)
        (polyTag key0 t.ad.toList (body t.wire)) (CipherState.tagArr w hw)
      refine le_trans (Nat.mul_le_mul_left _ ((Nat.card_le_card_of_injective (β := {key : Arr 32 //
          Crypto.Poly1305.mac (macIn t.ad.toList (body t.wire)) key.toList = polyTag key0 t.ad.toList (body t.wire) ∧
          Crypto.Poly1305.mac (macIn ad.toList (body w)) key.toList = CipherState.tagArr w hw})
        (fun y => ⟨y.1, (hlike _).mp y.2.1, y.2.2.1⟩) fun a b h => Subtype.ext (congrArg (fun x => x.1) h)).trans c2)) ?_
      decide
  | _ :: _ :: _, h => simp at h

/-! ## What the client accepts -/

/-- The static key in an answer, without looking at the tag. -/
def staticIn (P : Prims) (stream : Arr 32 → Arr 12 → Nat → UInt8) (eI : Arr 32) (w : Bytes) : Arr 32 :=
  keyIn (mask (stream (NX.afterEE P (P.dh eI (keyIn w))).2 (NX.nonce 0)) (body (HandshakeState.partS w)))

/-- A client accepts only if the tag of the payload is right. -/
theorem accepts {mk : OneTime} {i : Bool} {prologue : Bytes} {s : Keypair} {eI re0 : Arr 32} {ei p1 w out : Bytes}
    {i2 : NoiseSession} {rs : Arr 32}
    (h : (mid (P.withMac stream mk) i prologue s (Keypair.default P eI) re0 ei p1).recvMessage (P.withMac stream mk) w =
      (.ok (), i2, out))
    (hrs : i2.getRemoteStaticPublicKey = some rs) :
    rs = staticIn P stream eI w ∧ 96 ≤ w.length ∧ w.length ≤ 2128 ∧ ∃ hl : 16 ≤ (w.drop 80).length,
      polyTag (mk (payloadKey P eI w rs, NX.nonce 0))
        (NX.transcript P [prologue, ei, p1, w.take 32, (w.drop 32).take 48]).toList (body (w.drop 80)) =
        CipherState.tagArr (w.drop 80) hl := by
  obtain ⟨re, rs', hl, hre, _, _, hl', ho, ⟨q, hq, _⟩, hdone⟩ := recv_second_ok h
  have hr : rs' = rs := by
    rw [hdone] at hrs
    exact Option.some.inj hrs
  subst hr
  obtain rfl := eq_keyIn (by omega) hre
  have hfirst : ∀ h, first32 w h = keyIn w := fun _ => arr_ext hre.symm
  refine ⟨?_, hl, hl', by simp; omega, ?_⟩
  · unfold HandshakeState.openS at ho
    simp only [hfirst, rdA_mid] at ho
    split at ho
    · cases ho
    · simp only [Prims.withMac] at ho
      split at ho
      · have e := Option.some.inj ho
        unfold staticIn
        rw [prepNonce_zero] at e
        apply arr_ext
        rw [keyIn_eq]
        · refine e.symm.trans (List.take_of_length_le ?_).symm
          exact Nat.le_of_eq ((congrArg List.length e).trans rs'.len)
        · exact Nat.le_of_eq ((congrArg List.length e).trans rs'.len).symm
      · cases ho
  · unfold HandshakeState.openP at hq
    simp only [hfirst, rdB_mid] at hq
    split at hq
    · cases hq
    · simp only [Prims.withMac] at hq
      split at hq
      · next ht =>
        rw [prepNonce_zero, hre] at ht
        exact ht
      · cases hq

/-! ## Counting -/

section
variable (P : Prims) (rest : Arr 32 → Arr 12 → Nat → UInt8) (prologue : Bytes) (eI : Arr 32) (first : Bytes) (imp : Impostor)
variable (o : Others)

/-- The key stream; it does not depend on the one-time keys. -/
def streamOf : Arr 32 → Arr 12 → Nat → UInt8 := (Blocks.join o fun _ => EMPTY).stream rest

/-- The key under which the client will decrypt the payload. -/
def Played.key (p : Played Bytes) : Arr 32 := payloadKey P eI p.result (staticIn P (streamOf rest o) eI p.result)

open Classical in
/-- What was encrypted under it. -/
noncomputable def Played.under (p : Played Bytes) : List Tagged := (p.tagged P).filter (·.key = p.key P rest eI o)

/-- The attacker did not use this key, and the responders at most once. -/
structure Played.Fair (p : Played Bytes) : Prop where
  keys : p.key P rest eI o ∉ p.keys
  once : (p.under P rest eI o).length ≤ 1
  long : 96 ≤ p.result.length
  short : p.result.length ≤ 2128

/-- The one-time keys that give the same tags as `key`. -/
def Played.like (key : Arr 32) (p : Played Bytes) : Set (Arr 32) :=
  {y | ∀ t ∈ p.under P rest eI o, polyTag y t.ad.toList (body t.wire) = polyTag key t.ad.toList (body t.wire)}

/-- The one-time keys with which a new payload is accepted. -/
def Played.bad (p : Played Bytes) : Set (Arr 32) :=
  {y | (∃ hl : 16 ≤ (p.result.drop 80).length, polyTag y (NX.payloadHash P prologue first p.result).toList
      (body (p.result.drop 80)) = CipherState.tagArr (p.result.drop 80) hl) ∧
    ∀ t ∈ p.under P rest eI o, ¬ (t.ad = NX.payloadHash P prologue first p.result ∧ t.wire = p.result.drop 80)}

theorem Played.keep {mk : OneTime} (hf : (imp.play P rest (Blocks.join o mk)).Fair P rest eI o) {y : Arr 32}
    (hy : y ∈ (imp.play P rest (Blocks.join o mk)).like P rest eI o
      (mk ((imp.play P rest (Blocks.join o mk)).key P rest eI o, NX.nonce 0))) :
    imp.play P rest (Blocks.join o (Function.update mk ((imp.play P rest (Blocks.join o mk)).key P rest eI o, NX.nonce 0) y)) =
      imp.play P rest (Blocks.join o mk) := by
  classical
  refine play_congr o mk _ y imp hf.keys fun t ht hk => hy t ?_
  exact List.mem_filter.mpr ⟨ht, by simpa using hk⟩

theorem Played.card_bad {mk : OneTime} (hf : (imp.play P rest (Blocks.join o mk)).Fair P rest eI o) :
    let p := imp.play P rest (Blocks.join o mk)
    2 ^ 91 * Nat.card {y // y ∈ p.like P rest eI o (mk (p.key P rest eI o, NX.nonce 0)) ∧ y ∈ p.bad P rest prologue eI first o} ≤
      Nat.card {y // y ∈ p.like P rest eI o (mk (p.key P rest eI o, NX.nonce 0))} := by
  classical
  intro p
  have hf : p.Fair P rest eI o := hf
  have hl : 16 ≤ (p.result.drop 80).length := by
    have := hf.long
    rw [List.length_drop]
    omega
  have hl' : (p.result.drop 80).length ≤ 65455 := by
    have := hf.short
    rw [List.length_drop]
    omega
  have hin : ∀ t ∈ p.under P rest eI o, t ∈ p.tagged P ∧ t.key = p.key P rest eI o := by
    intro t ht
    have := List.mem_filter.mp ht
    exact ⟨this.1, by simpa using this.2⟩
  have := card_accept (mk (p.key P rest eI o, NX.nonce 0)) (p.under P rest eI o) hf.once
    (fun t ht => (tagged_length _ imp t (hin t ht).1).1)
    (fun t ht => by
      have h := (tagged_length _ imp t (hin t ht).1).2.2
      rw [Blocks.oneTime_join, (hin t ht).2] at h
      exact h)
    (NX.payloadHash P prologue first p.result) (p.result.drop 80) hl hl'
  refine le_trans (Nat.mul_le_mul_left _ ?_) this
  exact Nat.card_le_card_of_injective (fun y => ⟨y.1, y.2.1, y.2.2.1.2, y.2.2.2⟩)
    fun a b h => Subtype.ext (congrArg (fun x => x.1) h)

open Classical in
/-- Few one-time keys let the attacker succeed. -/
theorem Played.few :
    2 ^ 91 * Nat.card {mk : OneTime //
      let p := imp.play P rest (Blocks.join o mk)
      p.Fair P rest eI o ∧ mk (p.key P rest eI o, NX.nonce 0) ∈ p.bad P rest prologue eI first o} ≤ Nat.card OneTime := by
  let pl : OneTime → Played Bytes := fun mk => imp.play P rest (Blocks.join o mk)
  let row : OneTime → Arr 32 × Arr 12 := fun mk => ((pl mk).key P rest eI o, NX.nonce 0)
  let S : OneTime → Set (Arr 32) := fun mk =>
    if (pl mk).Fair P rest eI o then (pl mk).like P rest eI o (mk (row mk)) else {mk (row mk)}
  let Bad : OneTime → Set (Arr 32) := fun mk =>
    if (pl mk).Fair P rest eI o then (pl mk).bad P rest prologue eI first o else ∅
  have keep : ∀ mk, ∀ y ∈ S mk, pl (Function.update mk (row mk) y) = pl mk := by
    intro mk y hy
    by_cases hf : (pl mk).Fair P rest eI o
    · have hy : y ∈ (pl mk).like P rest eI o (mk (row mk)) := by
        have := hy
        simp only [S, if_pos hf] at this
        exact this
      exact Played.keep P rest eI imp o hf hy
    · have hy : y = mk (row mk) := by
        have := hy
        simp only [S, if_neg hf] at this
        exact this
      rw [hy, Function.update_eq_self]
  have hrow : ∀ mk, ∀ y ∈ S mk, row (Function.update mk (row mk) y) = row mk := by
    intro mk y hy
    show ((pl _).key P rest eI o, _) = _
    rw [keep mk y hy]
  have := Rows.few (2 ^ 91) row S Bad
    (by
      intro mk
      by_cases hf : (pl mk).Fair P rest eI o
      · simp only [S, if_pos hf]
        exact fun t _ => rfl
      · simp only [S, if_neg hf]
        exact rfl)
    hrow
    (by
      intro mk y hy
      have e1 := hrow mk y hy
      have e2 := keep mk y hy
      by_cases hf : (pl mk).Fair P rest eI o
      · have hy' : y ∈ (pl mk).like P rest eI o (mk (row mk)) := by
          have := hy
          simp only [S, if_pos hf] at this
          exact this
        simp only [S, e1, e2, if_pos hf, Function.update_self]
        ext z
        refine forall_congr' fun t => forall_congr' fun ht => ?_
        rw [hy' t ht]
      · have hy' : y = mk (row mk) := by
          have := hy
          simp only [S, if_neg hf] at this
          exact this
        rw [hy', Function.update_eq_self])
    (by
      intro mk y hy
      show (if (pl _).Fair P rest eI o then (pl _).bad P rest prologue eI first o else ∅) = _
      rw [keep mk y hy])
    (fun _ => True) (fun _ _ _ => Iff.rfl) (fun _ _ _ => trivial)
    (by
      intro mk
      by_cases hf : (pl mk).Fair P rest eI o
      · simp only [S, Bad, if_pos hf]
        exact Played.card_bad P rest prologue eI first imp o hf
      · simp only [S, Bad, if_neg hf, Set.mem_empty_iff_false, and_false]
        rw [Nat.card_of_isEmpty]
        simp)
  rw [show Nat.card {mk : OneTime // True} = Nat.card OneTime from
    Nat.card_congr (Equiv.subtypeUnivEquiv fun _ => trivial)] at this
  refine le_trans (Nat.mul_le_mul_left _ ?_) this
  refine Nat.card_le_card_of_injective (fun mk => ⟨mk.1, ?_⟩) fun a b h => Subtype.ext (congrArg (fun x => x.1) h)
  have h := mk.2
  show mk.1 (row mk.1) ∈ if (pl mk.1).Fair P rest eI o then _ else _
  rw [if_pos h.1]
  exact h.2

end

/-! ## An attacker that computes all blocks of some keys -/

/-- It asks for these blocks, and goes on with a table that has them. -/
def Asking.learn {α : Type} (next : Blocks → Asking α) : List (Arr 32 × Arr 12 × Fin 1025) → Blocks → Asking α
  | [], b => next b
  | x :: xs, b => .block x fun y => Asking.learn next xs (Function.update b x y)

theorem Asking.play_learn {α : Type} (a : Blocks → α) (blocks : Blocks) (xs : List (Arr 32 × Arr 12 × Fin 1025)) :
    ∀ b : Blocks, ∃ b' : Blocks, (∀ x ∈ xs, b' x = blocks x) ∧ (∀ x, b x = blocks x → b' x = blocks x) ∧
      (Asking.learn (fun b => .reply (a b)) xs b).play P rest blocks = { result := a b', keys := xs.map (·.1) } := by
  induction xs with
  | nil => exact fun b => ⟨b, nofun, fun _ h => h, rfl⟩
  | cons x xs ih =>
    intro b
    obtain ⟨b', h1, h2, h3⟩ := ih (Function.update b x (blocks x))
    refine ⟨b', ?_, ?_, ?_⟩
    · intro y hy
      rcases List.mem_cons.mp hy with rfl | hy
      · exact h2 _ (Function.update_self _ _ _)
      · exact h1 _ hy
    · intro y hy
      apply h2
      by_cases e : y = x
      · subst e; exact Function.update_self _ _ _
      · rw [Function.update_of_ne e]; exact hy
    · simp only [Asking.learn, Asking.play, h3, List.map_cons]

/-- The blocks of a key and a nonce. -/
def rowOf (k : Arr 32) (n : Nat) : List (Arr 32 × Arr 12 × Fin 1025) := (List.finRange 1025).map fun c => (k, NX.nonce n, c)

theorem enc_row {b b' : Blocks} {k : Arr 32} {n : Nat} (h : ∀ x ∈ rowOf k n, b' x = b x) (ad p : Bytes) :
    NX.enc (P.withBlocks rest b') k n ad p = NX.enc (P.withBlocks rest b) k n ad p := by
  have h : ∀ c, b' (k, NX.nonce n, c) = b (k, NX.nonce n, c) := fun c =>
    h _ (List.mem_map.mpr ⟨c, List.mem_finRange c, rfl⟩)
  have hs : b'.stream rest k (NX.nonce n) = b.stream rest k (NX.nonce n) := by
    funext i
    unfold Blocks.stream
    split
    · rw [h]
    · rfl
  have ho : b'.oneTime (k, NX.nonce n) = b.oneTime (k, NX.nonce n) := by
    apply arr_ext
    show ((b' (k, NX.nonce n, 0)).toList.take 32) = (b (k, NX.nonce n, 0)).toList.take 32
    rw [h]
  simp only [NX.enc, Prims.withBlocks, Prims.withMac, hs, ho]

end SV2.Noise
