import Verif.Lemmas.Distant
import Verif.Props.Eavesdrop
/-!
# What the program of `Verif/Lemmas/Distant.lean` does

It says yes when the attacker does.  And there are as many rows of blocks for any payload of the server's message.
-/

namespace SV2.Noise

/-! ## Another payload -/

theorem getD_lt {l : Bytes} {i : Nat} (h : i < l.length) : l.getD i 0 = l[i] := by
  simp [List.getD_eq_getElem?_getD, h]

/-- A block with some bytes changed. -/
def stampBlock (d : Nat → UInt8) (b : Arr 64) : Arr 64 :=
  ⟨(List.range 64).map fun j => b.toList.getD j 0 ^^^ d j, by simp⟩

theorem stampBlock_at (d : Nat → UInt8) (b : Arr 64) {j : Nat} (hj : j < 64) :
    (stampBlock d b).toList.getD j 0 = b.toList.getD j 0 ^^^ d j := by
  show ((List.range 64).map fun j => b.toList.getD j 0 ^^^ d j).getD j 0 = _
  rw [List.getD_eq_getElem?_getD, List.getElem?_map, List.getElem?_range hj]
  rfl

theorem stampBlock_twice (d : Nat → UInt8) (b : Arr 64) : stampBlock d (stampBlock d b) = b := by
  refine arr_ext (List.ext_getElem (by rw [Arr.len, Arr.len]) fun j h1 h2 => ?_)
  have hj : j < 64 := by rw [Arr.len] at h2; exact h2
  have e := stampBlock_at d (stampBlock d b) hj
  rw [stampBlock_at d b hj, UInt8.xor_assoc, UInt8.xor_self, UInt8.xor_zero] at e
  rw [getD_lt h1, getD_lt h2] at e
  exact e

/-- Where two texts differ. -/
def differ (p q : Bytes) (i : Nat) : UInt8 := p.getD i 0 ^^^ q.getD i 0

/-- A row that gives the second text the ciphertext of the first one. -/
def stamp (p q : Bytes) : KeyRow ≃ KeyRow where
  toFun r x := if x.1 = NX.nonce 0 ∧ x.2 ≠ 0 then stampBlock (fun j => differ p q ((x.2.val - 1) * 64 + j)) (r x) else r x
  invFun r x := if x.1 = NX.nonce 0 ∧ x.2 ≠ 0 then stampBlock (fun j => differ p q ((x.2.val - 1) * 64 + j)) (r x) else r x
  left_inv r := by
    funext x
    by_cases h : x.1 = NX.nonce 0 ∧ x.2 ≠ 0
    · simp only [if_pos h, stampBlock_twice]
    · simp only [if_neg h]
  right_inv r := by
    funext x
    by_cases h : x.1 = NX.nonce 0 ∧ x.2 ≠ 0
    · simp only [if_pos h, stampBlock_twice]
    · simp only [if_neg h]

theorem stamp_stream (p q : Bytes) (r : KeyRow) {i : Nat} (hi : i < 65536) :
    (KeyRow.blocks (stamp p q r)).stream (fun _ _ _ => 0) NX.zeros (NX.nonce 0) i =
      (KeyRow.blocks r).stream (fun _ _ _ => 0) NX.zeros (NX.nonce 0) i ^^^ differ p q i := by
  unfold Blocks.stream
  rw [dif_pos hi, dif_pos hi]
  have hne : (⟨1 + i / 64, by omega⟩ : Fin 1025) ≠ 0 := fun h => by
    have := congrArg Fin.val h
    simp at this
  show ((stamp p q r) (NX.nonce 0, (⟨1 + i / 64, by omega⟩ : Fin 1025))).toList.getD (i % 64) 0 = _
  have e : (stamp p q r) (NX.nonce 0, (⟨1 + i / 64, by omega⟩ : Fin 1025)) =
      stampBlock (fun j => differ p q ((1 + i / 64 - 1) * 64 + j)) (r (NX.nonce 0, ⟨1 + i / 64, by omega⟩)) := if_pos ⟨rfl, hne⟩
  rw [e, stampBlock_at _ _ (Nat.mod_lt _ (by decide))]
  have : (1 + i / 64 - 1) * 64 + i % 64 = i := by omega
  rw [this]
  rfl

theorem stamp_mask (p q : Bytes) (hl : p.length = q.length) (hq : q.length ≤ 65536) (r : KeyRow) :
    mask ((KeyRow.blocks (stamp p q r)).stream (fun _ _ _ => 0) NX.zeros (NX.nonce 0)) q =
      mask ((KeyRow.blocks r).stream (fun _ _ _ => 0) NX.zeros (NX.nonce 0)) p := by
  refine List.ext_getElem (by rw [length_mask, length_mask, hl]) fun i h1 h2 => ?_
  rw [length_mask] at h1 h2
  simp only [mask, List.getElem_mapIdx]
  rw [stamp_stream p q r (by omega), differ, getD_lt h1, getD_lt h2]
  generalize (KeyRow.blocks r).stream (fun _ _ _ => 0) NX.zeros (NX.nonce 0) i = s
  rw [UInt8.xor_comm s, ← UInt8.xor_assoc, UInt8.xor_comm p[i], ← UInt8.xor_assoc, UInt8.xor_self, UInt8.zero_xor]

theorem stamp_enc (P : Prims) (p q : Bytes) (hl : p.length = q.length) (hq : q.length ≤ 65536) (r : KeyRow) (ad : Bytes) :
    encRow P (stamp p q r) ad q = encRow P r ad p := by
  have hm := stamp_mask p q hl hq r
  have ho : (KeyRow.blocks (stamp p q r)).oneTime (NX.zeros, NX.nonce 0) = (KeyRow.blocks r).oneTime (NX.zeros, NX.nonce 0) := by
    unfold Blocks.oneTime
    have : KeyRow.blocks (stamp p q r) (NX.zeros, NX.nonce 0, 0) = KeyRow.blocks r (NX.zeros, NX.nonce 0, 0) := by
      simp only [KeyRow.blocks, stamp, Equiv.coe_fn_mk]
      exact if_neg fun h => h.2 rfl
    simp only [this]
  simp only [encRow, NX.enc, Prims.withBlocks, Prims.withMac, hm, ho]

end SV2.Noise

namespace SV2.Noise.Distant
open SV2.Long
open SV2.Noise.Veiled (Ask kind ne_name length_96 length_65 length_97 length_64 kindOf_E cut pairPrims talking talking_wears kept
  choice mocks mockPrims hash_eq hash_short)

/-! ## The program, in ideal worlds -/

section
variable (P : Prims) {M : Nat} (far : Bytes → Arr 32) (h0 : Arr 32)

/-- All of it. -/
def listenJob (c : Serving) (listener : Bytes → Bytes → Listener) (rounds : Nat) (second : Bool) : Job M Bool :=
  .mix () fun r => afterJob P far h0 c listener rounds second r

theorem listenJob_calls (c : Serving) (listener : Bytes → Bytes → Listener) (rounds m : Nat)
    (hm : ∀ a b past, ((listener a b).next past).Within M m) (hv : ∀ a b past, ((listener a b).verdict past).Within M m)
    (second : Bool) : Calls (M := M) ((rounds + 1) * m + 7) (listenJob P far h0 c listener rounds second) :=
  fun w => Nat.succ_le_succ (afterJob_calls P far h0 c listener rounds m hm hv second _ w)

theorem replyJob_stamp (c c' : Serving) (hc : c' = { c with buf := c'.buf }) (hl : c.buf.length = c'.buf.length)
    (hb : c'.buf.length ≤ 65536) (r1 r2 : KeyRow) :
    replyJob (M := M) P far h0 c' r1 (stamp (body (c.buf.drop 80)) (body (c'.buf.drop 80)) r2) = replyJob P far h0 c r1 r2 := by
  have e := stamp_enc P (body (c.buf.drop 80)) (body (c'.buf.drop 80))
    (by simp only [body, List.length_take, List.length_drop, hl])
    (by simp only [body, List.length_take, List.length_drop]; omega) r2
  obtain ⟨e1, e2, e3, e4⟩ : c'.prologue = c.prologue ∧ c'.sR = c.sR ∧ c'.eR = c.eR ∧ c'.first = c.first := by
    rw [hc]
    exact ⟨rfl, rfl, rfl, rfl⟩
  unfold replyJob
  rw [e1, e2, e3, e4]
  simp only [e]

theorem afterJob_stamp (c c' : Serving) (hc : c' = { c with buf := c'.buf }) (hl : c.buf.length = c'.buf.length)
    (hb : c'.buf.length ≤ 65536) (listener : Bytes → Bytes → Listener) (rounds : Nat) (second : Bool) (r : Fin 4 → KeyRow) :
    afterJob (M := M) P far h0 c' listener rounds second
      (Function.update r 1 (stamp (body (c.buf.drop 80)) (body (c'.buf.drop 80)) (r 1))) =
    afterJob P far h0 c listener rounds second r := by
  obtain ⟨e2, e4⟩ : c'.sR = c.sR ∧ c'.first = c.first := by
    rw [hc]
    exact ⟨rfl, rfl⟩
  unfold afterJob
  rw [Function.update_self, Function.update_of_ne (by decide), Function.update_of_ne (by decide), Function.update_of_ne (by decide),
    replyJob_stamp P far h0 c c' hc hl hb, e2, e4]

theorem listenJob_alike [Finite (Ask M)] (A : Unit → Ask M) (c c' : Serving) (hc : c' = { c with buf := c'.buf })
    (hl : c.buf.length = c'.buf.length) (hb : c'.buf.length ≤ 65536) (listener : Bytes → Bytes → Listener) (rounds : Nat)
    (second second' : Bool) :
    Nat.card {z : (Place (Ask M) Unit → Arr 32) × (Arr 32 ⊕ Unit × Fin 4 → KeyRow) //
      ((listenJob P far h0 c listener rounds second).guard A).run (ideal z.1 z.2) = some true} =
    Nat.card {z : (Place (Ask M) Unit → Arr 32) × (Arr 32 ⊕ Unit × Fin 4 → KeyRow) //
      ((listenJob P far h0 c' listener rounds second').guard A).run (ideal z.1 z.2) = some true} := by
  have : Nonempty KeyRow := ⟨fun _ => Arr.replicate 64 0⟩
  have step : ∀ s : Bool, Nat.card {z : (Place (Ask M) Unit → Arr 32) × (Arr 32 ⊕ Unit × Fin 4 → KeyRow) //
      ((listenJob P far h0 c listener rounds s).guard A).run (ideal z.1 z.2) = some true} =
    Nat.card {z : (Place (Ask M) Unit → Arr 32) × (Arr 32 ⊕ Unit × Fin 4 → KeyRow) //
      ((listenJob P far h0 c' listener rounds s).guard A).run (ideal z.1 z.2) = some true} := by
    intro s
    let σ := stamp (body (c.buf.drop 80)) (body (c'.buf.drop 80))
    let τ : (Arr 32 ⊕ Unit × Fin 4 → KeyRow) ≃ (Arr 32 ⊕ Unit × Fin 4 → KeyRow) :=
      Equiv.piCongrRight fun k => if k = .inr ((), 1) then σ else Equiv.refl _
    have t1 : ∀ W, τ W (.inr ((), 1)) = σ (W (.inr ((), 1))) := fun W => rfl
    have t2 : ∀ W k, k ≠ .inr ((), 1) → τ W k = W k := fun W k hk => by
      show (if k = .inr ((), 1) then σ else Equiv.refl _) (W k) = _
      rw [if_neg hk]
      rfl
    refine Nat.card_congr ((Equiv.prodCongr (Equiv.refl _) τ).subtypeEquiv fun z => ?_)
    have hr : ((afterJob P far h0 c listener rounds s (fun j => z.2 (.inr ((), j)))).guard A).run (ideal z.1 z.2) =
        ((afterJob P far h0 c' listener rounds s (fun j => τ z.2 (.inr ((), j)))).guard A).run (ideal z.1 (τ z.2)) := by
      have e : (fun j => τ z.2 (.inr ((), j))) = Function.update (fun j => z.2 (.inr ((), j))) 1 (σ (z.2 (.inr ((), 1)))) := by
        funext j
        by_cases hj : j = 1
        · subst hj
          rw [Function.update_self, t1]
        · rw [Function.update_of_ne hj, t2 _ _ (fun h => hj (Prod.mk.inj (Sum.inr.inj h)).2)]
      rw [e, afterJob_stamp P far h0 c c' hc hl hb]
      exact ((afterJob_plain P far h0 c listener rounds s _).guard A).run rfl (funext fun k => (t2 _ _ (by simp)).symm)
    show ((afterJob P far h0 c listener rounds s (fun j => z.2 (.inr ((), j)))).guard A).run (ideal z.1 z.2) = some true ↔
      ((afterJob P far h0 c' listener rounds s (fun j => τ z.2 (.inr ((), j)))).guard A).run (ideal z.1 (τ z.2)) = some true
    rw [hr]
  have swap : Nat.card {z : (Place (Ask M) Unit → Arr 32) × (Arr 32 ⊕ Unit × Fin 4 → KeyRow) //
      ((listenJob P far h0 c listener rounds second).guard A).run (ideal z.1 z.2) = some true} =
    Nat.card {z : (Place (Ask M) Unit → Arr 32) × (Arr 32 ⊕ Unit × Fin 4 → KeyRow) //
      ((listenJob P far h0 c listener rounds (!second)).guard A).run (ideal z.1 z.2) = some true} :=
    card_alike A () _ _ (fun r => afterJob_plain P far h0 c listener rounds _ r) (fun r => afterJob_plain P far h0 c listener rounds _ r)
      fun a b w => afterJob_alike P A w c listener rounds second a b
  by_cases h : second' = second
  · rw [h]
    exact step second
  · have two : ∀ a b : Bool, ¬ a = b → a = !b := by decide
    have := two _ _ h
    rw [this, swap]
    exact step _

end

/-! ## The real world -/

/-- The real world with this hash function and these blocks. -/
def world {M : Nat} (hM : 97 ≤ M) (H : Hashes M) (blocks : Blocks) (h0 ee es : Arr 32) :
    World (Ask M) (Arr 32) Unit KeyRow := real (shape hM h0 ee es) (cut H) fun k x => blocks (k, x.1, x.2)

def Logged {M : Nat} (L : Log M) (x : Bytes) : Prop :=
  x = nameBytes ∨ ∃ h : x.length ≤ M ∧ x ≠ nameBytes, .hash ⟨x, h⟩ ∈ L

def Asks {M : Nat} (L : Log M) (φ : Bytes → Prop) : Prop := ∀ y, .hash y ∈ L → φ y.1

section
variable {M : Nat}

theorem Asks.append {L L' : Log M} {φ : Bytes → Prop} (h : Asks L φ) (h' : Asks L' φ) : Asks (L ++ L') φ := by
  intro y hy
  rcases List.mem_append.mp hy with hy | hy
  · exact h y hy
  · exact h' y hy

theorem Asks.nil {φ : Bytes → Prop} : Asks ([] : Log M) φ := fun _ h => by cases h

theorem Asks.mono {L : Log M} {φ ψ : Bytes → Prop} (h : Asks L φ) (hi : ∀ x, φ x → ψ x) : Asks L ψ := fun y hy => hi _ (h y hy)

end

section
variable {M : Nat} (hM : 97 ≤ M) {far : Bytes → Arr 32} {h0 ee es : Arr 32} (P : Prims) (H : Hashes M)
variable (blocks : Blocks) {Q : Prims} (hQ : Q = P.withHash (H.at far)) (hh : NX.h0 Q = h0)
variable (rest : Arr 32 → Arr 12 → Nat → UInt8)

include hQ in
theorem chain_keys (hh : NX.h0 Q = h0) : (shape hM h0 ee es).chain (cut H) () 5 = (NX.afterEE Q ee).2 ∧
    (shape hM h0 ee es).chain (cut H) () 11 = (NX.afterES Q ee es).2 ∧
    (shape hM h0 ee es).chain (cut H) () 15 = (NX.transportKeys Q ee es).1 ∧
    (shape hM h0 ee es).chain (cut H) () 17 = (NX.transportKeys Q ee es).2 := by
  obtain ⟨S, hS⟩ : ∃ S, S = shape hM h0 ee es := ⟨_, rfl⟩
  have hcut : ∀ x : Ask M, Q.hash x.1 = cut H x := fun x => hash_short P H hQ x.2.1
  have step : ∀ (x : Ask M) (k : Arr 32), Q.hash (padded 0x5c k ++ (Q.hash x.1).toList) = cut H (S.B k (cut H x)) := by
    intro x k
    rw [hcut, hS]
    exact hcut ((shape hM h0 ee es).B k (cut H x))
  have hA : (S.A ()).1 = padded 0x36 h0 ++ ee.toList := by rw [hS]; rfl
  have hC : ∀ k, (S.C k).1 = padded 0x36 k ++ [0x01] := fun k => by rw [hS]; rfl
  have hD : ∀ k u, (S.D k u).1 = padded 0x36 k ++ (u.toList ++ [0x02]) := fun k u => by rw [hS]; rfl
  have hE : ∀ k, (S.E k).1 = padded 0x36 k ++ [] := fun k => by rw [hS]; rfl
  have hF : ∀ k, (S.F k).1 = padded 0x36 k ++ es.toList := fun k => by rw [hS]; rfl
  have hck : S.ck () = h0 := by rw [hS]; rfl
  rw [← hS]
  clear hS
  obtain ⟨s, hs⟩ : ∃ s, s = S.chain (cut H) () := ⟨_, rfl⟩
  have a1 : NX.hmac Q h0 ee.toList = s 1 := by
    rw [hs, ← hck]
    show Q.hash (padded 0x5c (S.ck ()) ++ (Q.hash (padded 0x36 (S.ck ()) ++ ee.toList)).toList) = _
    rw [hck, ← hA, step, ← hck]
    rfl
  have a2 : NX.hmac Q (s 1) [0x01] = s 3 := by
    show Q.hash (padded 0x5c (s 1) ++ (Q.hash (padded 0x36 (s 1) ++ [0x01])).toList) = _
    rw [← hC, step, hs]
    rfl
  have a3 : NX.hmac Q (s 1) ((s 3).toList ++ [0x02]) = s 5 := by
    show Q.hash (padded 0x5c (s 1) ++ (Q.hash (padded 0x36 (s 1) ++ ((s 3).toList ++ [0x02]))).toList) = _
    rw [← hD, step, hs]
    rfl
  have b1 : NX.hmac Q (s 3) es.toList = s 7 := by
    show Q.hash (padded 0x5c (s 3) ++ (Q.hash (padded 0x36 (s 3) ++ es.toList)).toList) = _
    rw [← hF, step, hs]
    rfl
  have b2 : NX.hmac Q (s 7) [0x01] = s 9 := by
    show Q.hash (padded 0x5c (s 7) ++ (Q.hash (padded 0x36 (s 7) ++ [0x01])).toList) = _
    rw [← hC, step, hs]
    rfl
  have b3 : NX.hmac Q (s 7) ((s 9).toList ++ [0x02]) = s 11 := by
    show Q.hash (padded 0x5c (s 7) ++ (Q.hash (padded 0x36 (s 7) ++ ((s 9).toList ++ [0x02]))).toList) = _
    rw [← hD, step, hs]
    rfl
  have c1 : NX.hmac Q (s 9) [] = s 13 := by
    show Q.hash (padded 0x5c (s 9) ++ (Q.hash (padded 0x36 (s 9) ++ [])).toList) = _
    rw [← hE, step, hs]
    rfl
  have c2 : NX.hmac Q (s 13) [0x01] = s 15 := by
    show Q.hash (padded 0x5c (s 13) ++ (Q.hash (padded 0x36 (s 13) ++ [0x01])).toList) = _
    rw [← hC, step, hs]
    rfl
  have c3 : NX.hmac Q (s 13) ((s 15).toList ++ [0x02]) = s 17 := by
    show Q.hash (padded 0x5c (s 13) ++ (Q.hash (padded 0x36 (s 13) ++ ((s 15).toList ++ [0x02]))).toList) = _
    rw [← hD, step, hs]
    rfl
  rw [← hs]
  clear hs
  have e1 : NX.afterEE Q ee = (s 3, s 5) := by
    unfold NX.afterEE NX.hkdf
    simp only [hh, a1, a2, a3]
  have e2 : NX.afterES Q ee es = (s 9, s 11) := by
    unfold NX.afterES
    rw [e1]
    unfold NX.hkdf
    simp only [b1, b2, b3]
  have e3 : NX.transportKeys Q ee es = (s 15, s 17) := by
    unfold NX.transportKeys
    rw [e2]
    unfold NX.hkdf
    simp only [c1, c2, c3]
  rw [e1, e2, e3]
  exact ⟨rfl, rfl, rfl, rfl⟩

include hQ hh

theorem run_hashJob (x : Bytes) : (hashJob far h0 x).run (world hM H blocks h0 ee es) = Q.hash x := by
  unfold hashJob
  split
  · next h =>
    subst h
    exact hh.symm
  · rw [hash_eq P H hQ]
    unfold Hashes.at
    split <;> rfl

omit hQ hh in
theorem asks_hashJob {x : Bytes} {φ : Bytes → Prop} (h : φ x) : Asks ((hashJob far h0 x).log (world hM H blocks h0 ee es)) φ := by
  intro y hy
  unfold hashJob at hy
  split at hy
  · cases hy
  · split at hy
    · cases hy with
      | head => exact h
      | tail _ hy => cases hy
    · cases hy

omit hQ hh in
theorem logged_hashJob {x : Bytes} (hx : x.length ≤ M) {L : Log M}
    (hL : (hashJob far h0 x).log (world hM H blocks h0 ee es) ⊆ L) : Logged L x := by
  by_cases hn : x = nameBytes
  · exact .inl hn
  · refine .inr ⟨⟨hx, hn⟩, hL ?_⟩
    unfold hashJob
    rw [dif_neg hn, dif_pos hx]
    exact List.mem_cons_self

theorem foldJob_spec (ds : List Bytes) (h : Arr 32) :
    (foldJob far h0 h ds).run (world hM H blocks h0 ee es) = ds.foldl (fun h d => Q.hash (h.toList ++ d)) h ∧
    Asks ((foldJob far h0 h ds).log (world hM H blocks h0 ee es)) (· ∈ NX.hashInputs Q h ds) ∧
    (∀ {L : Log M}, (foldJob far h0 h ds).log (world hM H blocks h0 ee es) ⊆ L →
      ∀ x ∈ NX.hashInputs Q h ds, x.length ≤ M → Logged L x) := by
  induction ds generalizing h with
  | nil => exact ⟨rfl, Asks.nil, fun _ x hx => by cases hx⟩
  | cons d ds ih =>
    obtain ⟨i1, i2, i3⟩ := ih (Q.hash (h.toList ++ d))
    unfold foldJob
    rw [Prog.run_bind, Prog.log_bind, run_hashJob hM P H blocks hQ hh]
    refine ⟨i1, (asks_hashJob hM H blocks List.mem_cons_self).append (i2.mono fun x hx => List.mem_cons_of_mem _ hx), ?_⟩
    intro L hL x hx hl
    obtain ⟨h1, h2⟩ := List.append_subset.mp hL
    rcases List.mem_cons.mp hx with rfl | hx
    · exact logged_hashJob hM H blocks hl h1
    · exact i3 h2 x hx hl

theorem replyJob_spec (c : Serving) {L : Log M} (ok : c.Ok (Q.withBlocks rest blocks)) {k1 k2 : Arr 32}
    (h1 : (NX.afterEE Q (P.dh c.eR (keyIn c.first))).2 = k1)
    (h2 : (NX.afterES Q (P.dh c.eR (keyIn c.first)) (P.dh c.sR (keyIn c.first))).2 = k2)
    (hL : (replyJob P far h0 c (fun x => blocks (k1, x.1, x.2)) (fun x => blocks (k2, x.1, x.2))).log
      (world hM H blocks h0 ee es) ⊆ L) :
    (replyJob P far h0 c (fun x => blocks (k1, x.1, x.2)) (fun x => blocks (k2, x.1, x.2))).run
      (world hM H blocks h0 ee es) = ((c.made (Q.withBlocks rest blocks)).second,
        NX.transcript Q (NX.parts c.prologue c.first (c.made (Q.withBlocks rest blocks)).second)) ∧
    (∀ x ∈ NX.hashInputs Q (NX.h0 Q) (NX.parts c.prologue c.first (c.made (Q.withBlocks rest blocks)).second),
      x.length ≤ M → Logged L x) ∧
    Asks ((replyJob P far h0 c (fun x => blocks (k1, x.1, x.2)) (fun x => blocks (k2, x.1, x.2))).log
      (world hM H blocks h0 ee es))
        (· ∈ NX.hashInputs Q (NX.h0 Q) (NX.parts c.prologue c.first (c.made (Q.withBlocks rest blocks)).second)) := by
  have hfold := fun ds h => (foldJob_spec (ee := ee) (es := es) hM P H blocks hQ hh ds h).1
  have hask := fun ds h => (foldJob_spec (ee := ee) (es := es) hM P H blocks hQ hh ds h).2.1
  have hlog : ∀ (ds : List Bytes) (h : Arr 32), (foldJob far h0 h ds).log (world hM H blocks h0 ee es) ⊆ L →
      ∀ x ∈ NX.hashInputs Q h ds, x.length ≤ M → Logged L x :=
    fun ds h hL => (foldJob_spec hM P H blocks hQ hh ds h).2.2 hL
  have hdh : Q.dh = P.dh := by rw [hQ]; rfl
  have hpub : Q.publicOf = P.publicOf := by rw [hQ]; rfl
  have hrow : ∀ r ad p, encRow P r ad p = encRow Q r ad p := fun r ad p => by rw [hQ]; rfl
  clear hQ
  obtain ⟨p1, p2, p3⟩ := c.made_parts (P := Q.withBlocks rest blocks)
  have lP' : (body (c.buf.drop 80)).length ≤ 65439 := by
    have := ok.buf
    simp only [body, List.length_take, List.length_drop]; omega
  have hS : encRow P (fun x => blocks (k1, x.1, x.2)) ([c.prologue, c.first.take 32, c.first.drop 32,
      (P.publicOf c.eR).toList].foldl (fun h d => Q.hash (h.toList ++ d)) h0).toList (P.publicOf c.sR).toList =
      c.encS (Q.withBlocks rest blocks) := by
    rw [hrow, ← enc_eq_encRow Q rest blocks _ _ _ (by rw [Arr.len]; omega), ← hpub]
    have : k1 = (NX.afterEE (Q.withBlocks rest blocks) ((Q.withBlocks rest blocks).dh c.eR (keyIn c.first))).2 := by
      show k1 = (NX.afterEE Q (Q.dh c.eR (keyIn c.first))).2
      rw [hdh, h1]
    rw [this, ← hh]
    rfl
  generalize ht1 : [c.prologue, c.first.take 32, c.first.drop 32,
      (P.publicOf c.eR).toList].foldl (fun h d => Q.hash (h.toList ++ d)) h0 = t1 at hS
  have hP : encRow P (fun x => blocks (k2, x.1, x.2))
      ([c.encS (Q.withBlocks rest blocks)].foldl (fun h d => Q.hash (h.toList ++ d)) t1).toList (body (c.buf.drop 80)) =
      c.encP (Q.withBlocks rest blocks) := by
    rw [hrow, ← enc_eq_encRow Q rest blocks _ _ _ (by omega), ← ht1, ← hpub]
    have : k2 = (NX.afterES (Q.withBlocks rest blocks) ((Q.withBlocks rest blocks).dh c.eR (keyIn c.first))
        ((Q.withBlocks rest blocks).dh c.sR (keyIn c.first))).2 := by
      show k2 = (NX.afterES Q (Q.dh c.eR (keyIn c.first)) (Q.dh c.sR (keyIn c.first))).2
      rw [hdh, h2]
    rw [this, ← hh]
    rfl
  have hfin : (c.made (Q.withBlocks rest blocks)).second = (P.publicOf c.eR).toList ++
      c.encS (Q.withBlocks rest blocks) ++ c.encP (Q.withBlocks rest blocks) := by
    rw [← hpub]
    rfl
  have e1 : NX.parts c.prologue c.first (c.made (Q.withBlocks rest blocks)).second =
      [c.prologue, c.first.take 32, c.first.drop 32, (P.publicOf c.eR).toList] ++
        ([c.encS (Q.withBlocks rest blocks)] ++ [c.encP (Q.withBlocks rest blocks)]) := by
    unfold NX.parts
    rw [p1, p2, p3]
    show [_, _, _, (Q.publicOf c.eR).toList, _, _] = _
    rw [hpub]
    rfl
  have hin : ∀ x, x ∈ NX.hashInputs Q (NX.h0 Q) (NX.parts c.prologue c.first (c.made (Q.withBlocks rest blocks)).second) ↔
      x ∈ NX.hashInputs Q h0 [c.prologue, c.first.take 32, c.first.drop 32, (P.publicOf c.eR).toList] ∨
      x ∈ NX.hashInputs Q t1 [c.encS (Q.withBlocks rest blocks)] ∨
      x ∈ NX.hashInputs Q ([c.encS (Q.withBlocks rest blocks)].foldl (fun h d => Q.hash (h.toList ++ d)) t1)
        [c.encP (Q.withBlocks rest blocks)] := by
    intro x
    rw [e1, hh, hashInputs_after, hashInputs_after, List.mem_append, List.mem_append, ht1]
  have htr : NX.transcript Q (NX.parts c.prologue c.first (c.made (Q.withBlocks rest blocks)).second) =
      [c.encP (Q.withBlocks rest blocks)].foldl (fun h d => Q.hash (h.toList ++ d))
        ([c.encS (Q.withBlocks rest blocks)].foldl (fun h d => Q.hash (h.toList ++ d)) t1) := by
    unfold NX.transcript
    rw [e1, hh, List.foldl_append, List.foldl_append, ht1]
  unfold replyJob at hL ⊢
  simp only [Prog.run_bind, Prog.log_bind, hfold, ht1, hS, hP] at hL ⊢
  obtain ⟨l3, hL⟩ := List.append_subset.mp hL
  obtain ⟨l4, hL⟩ := List.append_subset.mp hL
  obtain ⟨l5, -⟩ := List.append_subset.mp hL
  refine ⟨?_, fun x hx hl => ?_, ?_⟩
  · rw [hfin, ← hfin, htr, hfin]
    rfl
  · rcases (hin x).mp hx with hx | hx | hx
    · exact hlog _ _ l3 x hx hl
    · exact hlog _ _ l4 x hx hl
    · exact hlog _ _ l5 x hx hl
  · exact ((hask _ _).mono fun x hx => (hin x).mpr (.inl hx)).append
      (((hask _ _).mono fun x hx => (hin x).mpr (.inr (.inl hx))).append
      (((hask _ _).mono fun x hx => (hin x).mpr (.inr (.inr hx))).append Asks.nil))

theorem attackJob_spec {α : Type} (fallback : α) (c : Curious α) (hb : c.Alone) {L : Log M}
    (hL : (attackJob far h0 fallback c).log (world hM H blocks h0 ee es) ⊆ L) :
    (attackJob far h0 fallback c).run (world hM H blocks h0 ee es) = (c.play Q rest blocks).result ∧
    (∀ x ∈ (c.play Q rest blocks).asked Q, x.length ≤ M → Logged L x) ∧
    Asks ((attackJob far h0 fallback c).log (world hM H blocks h0 ee es)) (· ∈ (c.play Q rest blocks).asked Q) := by
  induction c with
  | reply a => exact ⟨rfl, fun k hk => (List.not_mem_nil hk).elim, Asks.nil⟩
  | hash x next ih =>
    simp only [attackJob, Prog.log_bind, Prog.run_bind, run_hashJob hM P H blocks hQ hh] at hL ⊢
    obtain ⟨l1, l2⟩ := List.append_subset.mp hL
    obtain ⟨e1, e2, e3⟩ := ih _ (hb _) l2
    rw [e1]
    refine ⟨rfl, fun y hy hl => ?_, ?_⟩
    · rcases List.mem_cons.mp hy with rfl | hy
      · exact logged_hashJob hM H blocks hl l1
      · exact e2 y hy hl
    · exact (asks_hashJob hM H blocks List.mem_cons_self).append (e3.mono fun y hy => List.mem_cons_of_mem _ hy)
  | block x next ih =>
    simp only [attackJob, Prog.log, Prog.run] at hL ⊢
    obtain ⟨l1, l2⟩ := List.cons_subset.mp hL
    obtain ⟨e1, e2, e3⟩ := ih ((world hM H blocks h0 ee es).row x.1 x.2) (hb _) l2
    rw [e1]
    refine ⟨rfl, e2, ?_⟩
    intro y hy
    simp only [List.mem_cons, reduceCtorEq, false_or] at hy
    exact e3 y hy
  | serve c next ih => exact hb.elim

theorem earJob_spec {listener : Listener} (hb : ∀ past, (listener.next past).Alone) {a b : KeyRow} {keys : Arr 32 × Arr 32}
    (r1 : ∀ n c, blocks (keys.1, n, c) = a (n, c)) (r2 : ∀ n c, blocks (keys.2, n, c) = b (n, c))
    (hk1 : keys.1 ≠ EMPTY) (hk2 : keys.2 ≠ EMPTY) (second : Bool) (j : Nat) {s : Duo} (hs : s.Wears mocks) (seen : List Seen)
    (asked : List Bytes) {L : Log M}
    (hL : (earJob far h0 listener (pairPrims P a b) second j s seen).log (world hM H blocks h0 ee es) ⊆ L) :
    (earJob far h0 listener (pairPrims P a b) second j s seen).run (world hM H blocks h0 ee es) =
      (listener.listen Q rest blocks second j (s.dressed keys) seen asked).1 ∧
    (∀ x ∈ (listener.listen Q rest blocks second j (s.dressed keys) seen asked).2, x ∈ asked ∨ (x.length ≤ M → Logged L x)) ∧
    Asks ((earJob far h0 listener (pairPrims P a b) second j s seen).log (world hM H blocks h0 ee es))
      (· ∈ (listener.listen Q rest blocks second j (s.dressed keys) seen asked).2) := by
  have t1 : Twin (Q.withBlocks rest blocks) (pairPrims P a b) keys.1 mocks.1 := by
    refine twin_blocks Q P (fun n c => ?_) hk1 (by decide)
    rw [if_pos rfl]
    exact r1 n c
  have t2 : Twin (Q.withBlocks rest blocks) (pairPrims P a b) keys.2 mocks.2 := by
    refine twin_blocks Q P (fun n c => ?_) hk2 (by decide)
    rw [if_neg (show mocks.2 ≠ mocks.1 by decide)]
    exact r2 n c
  induction j generalizing s seen asked with
  | zero => exact ⟨rfl, fun x hx => .inl hx, Asks.nil⟩
  | succ j ih =>
    unfold earJob at hL ⊢
    rw [Prog.log_bind] at hL
    obtain ⟨l1, l2⟩ := List.append_subset.mp hL
    obtain ⟨a1, a5, a4⟩ := attackJob_spec hM P H blocks hQ hh rest (.deliver .initiator []) (listener.next seen) (hb _) l1
    rw [Prog.run_bind, Prog.log_bind]
    rw [a1] at l2 ⊢
    obtain ⟨e, w⟩ := Duo.act_twin t1 t2 hs second ((listener.next seen).play Q rest blocks).result
    unfold Listener.listen
    simp only [e, Seen.blind_dressed]
    obtain ⟨i1, i2, i3⟩ := ih w (seen ++ [Seen.blind _]) (asked ++ ((listener.next seen).play Q rest blocks).asked Q) l2
    refine ⟨i1, fun x hx => ?_, (a4.mono fun x hx => ?_).append i3⟩
    · rcases i2 x hx with hx | hx
      · exact (List.mem_append.mp hx).imp_right (a5 x)
      · exact .inr hx
    · exact Listener.listen_mono Q rest blocks listener second j _ _ _ (List.mem_append_right _ hx)

theorem verdictJob_spec {listener : Listener} (hb : ∀ past, (listener.next past).Alone)
    (hb' : ∀ past, (listener.verdict past).Alone) {a b : KeyRow} {keys : Arr 32 × Arr 32}
    (r1 : ∀ n c, blocks (keys.1, n, c) = a (n, c)) (r2 : ∀ n c, blocks (keys.2, n, c) = b (n, c))
    (hk1 : keys.1 ≠ EMPTY) (hk2 : keys.2 ≠ EMPTY) (second : Bool) (rounds : Nat) {s : Duo} (hs : s.Wears mocks)
    {h : List Seen × List Bytes} (hlisten : h = listener.listen Q rest blocks second rounds (s.dressed keys) [] [])
    {v : Spied Bool} (hverdict : v = (listener.verdict h.1).play Q rest blocks) {L : Log M}
    (hL : (verdictJob far h0 listener (pairPrims P a b) second rounds s).log (world hM H blocks h0 ee es) ⊆ L) :
    (verdictJob far h0 listener (pairPrims P a b) second rounds s).run (world hM H blocks h0 ee es) = v.result ∧
    (∀ x ∈ h.2 ++ v.asked Q, x.length ≤ M → Logged L x) ∧
    Asks ((verdictJob far h0 listener (pairPrims P a b) second rounds s).log (world hM H blocks h0 ee es))
      (· ∈ h.2 ++ v.asked Q) := by
  unfold verdictJob at hL ⊢
  rw [Prog.log_bind] at hL
  obtain ⟨l1, l2⟩ := List.append_subset.mp hL
  obtain ⟨e1, e2, e3⟩ := earJob_spec hM P H blocks hQ hh rest hb r1 r2 hk1 hk2 second rounds hs [] [] l1
  rw [← hlisten] at e1 e2 e3
  rw [e1] at l2
  obtain ⟨a1, a5, a4⟩ := attackJob_spec hM P H blocks hQ hh rest false (listener.verdict h.1) (hb' _) l2
  rw [← hverdict] at a1 a4 a5
  rw [Prog.run_bind, Prog.log_bind, e1]
  refine ⟨a1, fun x hx hl => ?_, (e3.mono fun x hx => List.mem_append_left _ hx).append
    (a4.mono fun x hx => List.mem_append_right _ hx)⟩
  rcases List.mem_append.mp hx with hx | hx
  · rcases e2 x hx with hx | hx
    · cases hx
    · exact hx hl
  · exact a5 x hx hl

end

end SV2.Noise.Distant
