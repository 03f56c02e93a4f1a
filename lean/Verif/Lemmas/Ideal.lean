import Verif.Lemmas.Integrity
import Verif.Lemmas.StackForger
import Verif.Lemmas.Secrecy
import Mathlib.Data.Finite.Sum
/-!
# Counting block functions

A block function is a table of one-time keys and a table of everything else.
-/

namespace SV2.Noise
open Function

/-! ### Halves of a block -/

def Block.left (b : Arr 64) : Arr 32 := ⟨b.toList.take 32, by rw [List.length_take, b.len]; rfl⟩

def Block.right (b : Arr 64) : Arr 32 := ⟨b.toList.drop 32, by rw [List.length_drop, b.len]⟩

def Block.glue (x y : Arr 32) : Arr 64 := ⟨x.toList ++ y.toList, by rw [List.length_append, x.len, y.len]⟩

theorem Block.glue_halves (b : Arr 64) : Block.glue (Block.left b) (Block.right b) = b :=
  arr_ext (List.take_append_drop _ _)

theorem Block.left_glue (x y : Arr 32) : Block.left (Block.glue x y) = x :=
  arr_ext (by show (x.toList ++ y.toList).take 32 = _; rw [List.take_left' x.len])

theorem Block.right_glue (x y : Arr 32) : Block.right (Block.glue x y) = y :=
  arr_ext (by show (x.toList ++ y.toList).drop 32 = _; rw [List.drop_left' x.len])

def Block.halves : Arr 64 ≃ Arr 32 × Arr 32 where
  toFun b := (Block.left b, Block.right b)
  invFun x := Block.glue x.1 x.2
  left_inv := Block.glue_halves
  right_inv _ := Prod.ext (Block.left_glue _ _) (Block.right_glue _ _)

attribute [instance] finite_arr

/-- `1 / 2^256` of the blocks begin with a certain key. -/
theorem Block.card_left (k : Arr 32) :
    2 ^ 256 * Nat.card {b : Arr 64 // Block.left b = k} = Nat.card (Arr 64) := by
  have e : {b : Arr 64 // Block.left b = k} ≃ Arr 32 :=
    { toFun := fun b => Block.right b.1
      invFun := fun y => ⟨Block.glue k y, Block.left_glue k y⟩
      left_inv := fun b => Subtype.ext (by
        obtain ⟨b, rfl⟩ := b
        exact Block.glue_halves b)
      right_inv := fun y => Block.right_glue k y }
  rw [Nat.card_congr e, Nat.card_congr Block.halves, Nat.card_prod, Crypto.Poly1305.card_keys]

/-! ### The one-time keys and the rest -/

/-- The second half of block 0 and the blocks from 1 on. -/
abbrev Others := Arr 32 × Arr 12 → Arr 32 × (Fin 1024 → Arr 64)

def Blocks.join (o : Others) (mk : OneTime) : Blocks := fun x =>
  Fin.cases (motive := fun _ => Arr 64) (Block.glue (mk (x.1, x.2.1)) (o (x.1, x.2.1)).1)
    (fun c => (o (x.1, x.2.1)).2 c) x.2.2

def Blocks.split : Blocks ≃ Others × OneTime where
  toFun b := (fun x => (Block.right (b (x.1, x.2, 0)), fun c => b (x.1, x.2, c.succ)), fun x => Block.left (b (x.1, x.2, 0)))
  invFun x := Blocks.join x.1 x.2
  left_inv b := by
    funext ⟨k, n, c⟩
    refine Fin.cases ?_ (fun c => ?_) c
    · exact Block.glue_halves _
    · rfl
  right_inv x := by
    obtain ⟨o, mk⟩ := x
    refine Prod.ext (funext fun y => Prod.ext ?_ rfl) (funext fun y => ?_)
    · exact Block.right_glue _ _
    · exact Block.left_glue _ _

theorem Blocks.oneTime_join (o : Others) (mk : OneTime) : (Blocks.join o mk).oneTime = mk :=
  funext fun x => Block.left_glue (mk x) (o x).1

theorem Blocks.stream_join (rest : Arr 32 → Arr 12 → Nat → UInt8) (o : Others) (mk mk' : OneTime) :
    (Blocks.join o mk).stream rest = (Blocks.join o mk').stream rest := by
  funext k n i
  unfold Blocks.stream
  split
  · next h =>
    have : (⟨1 + i / 64, by omega⟩ : Fin 1025) = Fin.succ ⟨i / 64, by omega⟩ := Fin.ext (Nat.add_comm _ _)
    rw [this]
    rfl
  · rfl

theorem card_prod_le {A B : Type} [Finite A] [Finite B] (D q : Nat) (p : A → B → Prop)
    (h : ∀ a, D * Nat.card {b // p a b} ≤ q * Nat.card B) :
    D * Nat.card {x : A × B // p x.1 x.2} ≤ q * Nat.card (A × B) := by
  have := Fintype.ofFinite A
  rw [Nat.card_congr (Equiv.subtypeProdEquivSigmaSubtype p), Nat.card_sigma, Finset.mul_sum]
  refine (Finset.sum_le_sum fun a _ => h a).trans ?_
  rw [Finset.sum_const, Finset.card_univ, Nat.card_prod, ← Nat.card_eq_fintype_card, smul_eq_mul]
  exact Nat.le_of_eq (by ring)

/-! ### Keys after rekeying -/

variable (rest : Arr 32 → Arr 12 → Nat → UInt8)

/-- The key after rekeying is the first half of a block. -/
theorem streamKey_succ (b : Blocks) (key : Arr 32) (e : Nat) :
    streamKey (b.stream rest) key (e + 1) =
      Block.left (b (streamKey (b.stream rest) key e, Arr.replicate 12 0xFF, 1)) := by
  have hm : ∀ (k : Arr 32) (n : Arr 12), mask (b.stream rest k n) NX.zeros.toList = (b (k, n, 1)).toList.take 32 := by
    intro k n
    have hb := (b (k, n, 1)).len
    apply List.ext_getElem
    · rw [length_mask, List.length_take, hb, NX.zeros.len]; rfl
    · intro i h1 h2
      rw [length_mask, NX.zeros.len] at h1
      have hz : ∀ x ∈ NX.zeros.toList, x = 0 := by decide
      have e1 : (⟨1 + i / 64, by omega⟩ : Fin 1025) = 1 := Fin.ext (by
        show 1 + i / 64 = 1
        omega)
      simp only [mask, List.getElem_mapIdx, List.getElem_take]
      rw [hz _ (List.getElem_mem _), UInt8.zero_xor]
      unfold Blocks.stream
      rw [dif_pos (by omega), e1, Nat.mod_eq_of_lt (by omega), List.getD, List.getElem?_eq_getElem (by omega),
        Option.getD_some]
  rw [streamKey]
  apply arr_ext
  simp only [Block.left]
  exact hm (streamKey (b.stream rest) key e) (Arr.replicate 12 0xFF)

/-- The row of the block that makes the next key. -/
def Blocks.rekeyRow (b : Blocks) (key : Arr 32) (e : Nat) : Arr 32 × Arr 12 × Fin 1025 :=
  (streamKey (b.stream rest) key e, Arr.replicate 12 0xFF, 1)

/-- This block was not used for one of the keys before. -/
def Blocks.Fresh (b : Blocks) (key : Arr 32) (e : Nat) : Prop :=
  ∀ j < e, streamKey (b.stream rest) key j ≠ streamKey (b.stream rest) key e

theorem Blocks.keys_update {b : Blocks} {key : Arr 32} {e : Nat} (h : b.Fresh rest key e) (v : Arr 64) :
    ∀ j ≤ e, streamKey (Blocks.stream rest (update b (b.rekeyRow rest key e) v)) key j = streamKey (b.stream rest) key j := by
  intro j
  induction j with
  | zero => exact fun _ => rfl
  | succ j ih =>
    intro hj
    rw [streamKey_succ, streamKey_succ, ih (by omega), update_of_ne]
    intro hc
    exact h j (by omega) (congrArg Prod.fst hc)

theorem Blocks.fresh_update {b : Blocks} {key : Arr 32} {e : Nat} (h : b.Fresh rest key e) (v : Arr 64) :
    Blocks.Fresh rest (update b (b.rekeyRow rest key e) v) key e := by
  intro j hj
  rw [Blocks.keys_update rest h v j (by omega), Blocks.keys_update rest h v e (le_refl _)]
  exact h j hj

open Classical in
/-- Few block functions make a certain key when it is the turn of a new block. -/
theorem Blocks.card_hit (k1 k2 : Arr 32) (e : Nat) :
    2 ^ 256 * Nat.card {b : Blocks // b.Fresh rest k1 e ∧ streamKey (b.stream rest) k1 (e + 1) = k2} ≤ Nat.card Blocks := by
  have := Rows.few (ι := Arr 32 × Arr 12 × Fin 1025) (K := Arr 64) (2 ^ 256) (fun b => Blocks.rekeyRow rest b k1 e)
    (fun b => if Blocks.Fresh rest b k1 e then Set.univ else {b (Blocks.rekeyRow rest b k1 e)})
    (fun b => if Blocks.Fresh rest b k1 e then {v | Block.left v = k2} else ∅)
    (by
      intro b
      split
      · trivial
      · rfl)
    (by
      intro b v hv
      split at hv
      · next h =>
        show (_, _, _) = (_, _, _)
        rw [Blocks.keys_update rest h v e (le_refl _)]
      · rw [Set.mem_singleton_iff.mp hv, update_eq_self])
    (by
      intro b v hv
      split at hv
      · next h => rw [if_pos h, if_pos (Blocks.fresh_update rest h v)]
      · next h => rw [Set.mem_singleton_iff.mp hv, update_eq_self, if_neg h])
    (by
      intro b v hv
      split at hv
      · next h => rw [if_pos h, if_pos (Blocks.fresh_update rest h v)]
      · next h => rw [Set.mem_singleton_iff.mp hv, update_eq_self, if_neg h])
    (fun _ => True) (fun _ _ _ => Iff.rfl) (fun _ _ _ => trivial)
    (by
      intro b
      split
      · have e1 : Nat.card {v : Arr 64 // v ∈ Set.univ ∧ v ∈ {v : Arr 64 | Block.left v = k2}} =
            Nat.card {v : Arr 64 // Block.left v = k2} :=
          Nat.card_congr (Equiv.subtypeEquivRight fun v => by simp)
        have e2 : Nat.card {v : Arr 64 // v ∈ (Set.univ : Set (Arr 64))} = Nat.card (Arr 64) :=
          Nat.card_congr (Equiv.subtypeUnivEquiv fun _ => trivial)
        rw [e1, e2, Block.card_left]
      · have : IsEmpty {v : Arr 64 // v ∈ ({b (Blocks.rekeyRow rest b k1 e)} : Set (Arr 64)) ∧ v ∈ (∅ : Set (Arr 64))} :=
          ⟨fun v => v.2.2⟩
        rw [Nat.card_of_isEmpty]
        simp)
  have e1 : Nat.card {b : Blocks // True} = Nat.card Blocks := Nat.card_congr (Equiv.subtypeUnivEquiv fun _ => trivial)
  rw [e1] at this
  refine le_trans (Nat.mul_le_mul_left _ ?_) this
  refine Nat.card_le_card_of_injective (fun b => ⟨b.1, ?_⟩) fun a b h => Subtype.ext (congrArg (fun x => x.1) h)
  rw [if_pos b.2.1]
  obtain ⟨b, h1, h2⟩ := b
  rw [streamKey_succ] at h2
  exact h2

/-- The first time a key is reached, it comes from a block that was not used before. -/
theorem reached {b : Blocks} {k1 k2 : Arr 32} (hk : k1 ≠ k2) {E : Nat} (h : ∃ e ≤ E, streamKey (b.stream rest) k1 e = k2) :
    ∃ e < E, b.Fresh rest k1 e ∧ streamKey (b.stream rest) k1 (e + 1) = k2 := by
  classical
  obtain ⟨e0, he0, h0⟩ := h
  have hx : ∃ e, streamKey (b.stream rest) k1 e = k2 := ⟨e0, h0⟩
  have hle := Nat.find_min' hx h0
  have hsp := Nat.find_spec hx
  have hmin := fun m => Nat.find_min (H := hx) (m := m)
  generalize Nat.find hx = e at *
  cases e with
  | zero => exact absurd hsp hk
  | succ e =>
    refine ⟨e, by omega, fun j hj hc => hmin (j + 1) (by omega) ?_, hsp⟩
    rw [streamKey_succ, hc, ← streamKey_succ]
    exact hsp

/-- Few block functions lead from one key to the other by rekeying. -/
theorem Blocks.card_reach (k1 k2 : Arr 32) (hk : k1 ≠ k2) (E : Nat) :
    2 ^ 256 * Nat.card {b : Blocks // ∃ e ≤ E, streamKey (b.stream rest) k1 e = k2} ≤ E * Nat.card Blocks := by
  have := Rows.union (X := Blocks) (2 ^ 256) E E
    (fun e b => b.Fresh rest k1 e ∧ streamKey (b.stream rest) k1 (e + 1) = k2) (fun _ _ => True)
    (fun e => by
      rw [show Nat.card {b : Blocks // True} = Nat.card Blocks from
        Nat.card_congr (Equiv.subtypeUnivEquiv fun _ => trivial)]
      exact Blocks.card_hit rest k1 k2 e)
    (fun _ s hs => by
      have : s ⊆ Finset.range E := fun j hj => Finset.mem_range.mpr (hs j hj).1
      exact (Finset.card_le_card this).trans (by rw [Finset.card_range]))
  refine le_trans (Nat.mul_le_mul_left _ ?_) this
  exact Nat.card_le_card_of_injective (fun b => ⟨b.1, reached rest hk b.2⟩)
    fun a b h => Subtype.ext (congrArg (fun x => x.1) h)

/-! ### Forgeries -/

variable (P : Prims)

theorem Blocks.card_forged {forger : RForger} {E : Nat} (hE : forger.Rekeys E) {keys : Arr 32 × Arr 32} {i r : NoiseSession}
    {m1 m2 : UInt64} (h : InSync i r keys m1 m2) (hk : keys.1 ≠ keys.2) {q : Nat} (hq : forger.AtMost q) (rounds : Nat) :
    2 ^ 256 * Nat.card {b : Blocks //
      ¬ (RNet.attacked (P.withBlocks rest b) forger { net := { i := i, r := r } } rounds).1.net.Genuine} ≤
    (2 ^ 165 * q + E) * Nat.card Blocks := by
  classical
  let bad : Blocks → Prop := fun b =>
    ¬ (RNet.attacked (P.withBlocks rest b) forger { net := { i := i, r := r } } rounds).1.net.Genuine
  let reach : Blocks → Prop := fun b => ∃ e ≤ E, streamKey (b.stream rest) keys.1 e = keys.2
  have mk0 : OneTime := fun _ => EMPTY
  have h1 : 2 ^ 91 * Nat.card {b : Blocks // bad b ∧ ¬ reach b} ≤ q * Nat.card Blocks := by
    have e : {b : Blocks // bad b ∧ ¬ reach b} ≃
        {x : Others × OneTime // bad (Blocks.join x.1 x.2) ∧ ¬ reach (Blocks.join x.1 x.2)} :=
      Blocks.split.subtypeEquiv fun b => by
        have : Blocks.join (Blocks.split b).1 (Blocks.split b).2 = b := Blocks.split.symm_apply_apply b
        rw [this]
    rw [Nat.card_congr e, Nat.card_congr Blocks.split]
    refine card_prod_le (2 ^ 91) q (fun o mk => bad (Blocks.join o mk) ∧ ¬ reach (Blocks.join o mk)) fun o => ?_
    by_cases ho : reach (Blocks.join o mk0)
    · have : IsEmpty {mk : OneTime // bad (Blocks.join o mk) ∧ ¬ reach (Blocks.join o mk)} := by
        refine ⟨fun mk => mk.2.2 ?_⟩
        show ∃ e ≤ E, streamKey (Blocks.stream rest (Blocks.join o mk.1)) keys.1 e = keys.2
        rw [Blocks.stream_join rest o mk.1 mk0]
        exact ho
      rw [Nat.card_of_isEmpty]
      simp
    · have hc := Noise.card_forged (P := P) (stream := (Blocks.join o mk0).stream rest) (fun _ => hE) h
        (fun e he hc => ho ⟨e, he, hc⟩) (fun _ => hq) (fun _ _ _ _ => rfl) (G := fun _ => True) (fun _ _ _ _ => rfl) rounds
      simp only [true_and, Nat.card_congr (Equiv.subtypeUnivEquiv fun (_ : OneTime) => trivial)] at hc
      refine le_trans (Nat.mul_le_mul_left _ ?_) hc
      refine Nat.card_le_card_of_injective (fun mk => ⟨mk.1, ?_⟩) fun a b h => Subtype.ext (congrArg (fun x => x.1) h)
      have := mk.2.1
      show ¬ (RNet.attacked (P.withMac ((Blocks.join o mk0).stream rest) mk.1) forger _ rounds).1.net.Genuine
      rw [Blocks.stream_join rest o mk0 mk.1, ← Blocks.oneTime_join o mk.1]
      rw [Blocks.oneTime_join o mk.1]
      have e2 : P.withBlocks rest (Blocks.join o mk.1) = P.withMac ((Blocks.join o mk.1).stream rest) mk.1 := by
        unfold Prims.withBlocks
        rw [Blocks.oneTime_join]
      rw [← e2]
      exact this
  have h2 := Blocks.card_reach rest keys.1 keys.2 hk E
  have h3 : Nat.card {b : Blocks // bad b} ≤ Nat.card {b : Blocks // bad b ∧ ¬ reach b} + Nat.card {b : Blocks // reach b} := by
    have f1 : Finite {b : Blocks // bad b ∧ ¬ reach b} := inferInstance
    have f2 : Finite {b : Blocks // reach b} := inferInstance
    rw [← Nat.card_sum]
    refine Nat.card_le_card_of_injective
      (fun b => if hr : reach b.1 then Sum.inr ⟨b.1, hr⟩ else Sum.inl ⟨b.1, b.2, hr⟩) fun a b hab => ?_
    by_cases ha : reach a.1 <;> by_cases hb : reach b.1 <;> simp only [ha, hb, dif_pos, dif_neg, not_false_iff] at hab
    · exact Subtype.ext (congrArg (fun x => x.1) (Sum.inr.inj hab))
    · cases hab
    · cases hab
    · exact Subtype.ext (congrArg (fun x => x.1) (Sum.inl.inj hab))
  calc 2 ^ 256 * Nat.card {b : Blocks // bad b}
      ≤ 2 ^ 256 * (Nat.card {b : Blocks // bad b ∧ ¬ reach b} + Nat.card {b : Blocks // reach b}) := Nat.mul_le_mul_left _ h3
    _ = 2 ^ 165 * (2 ^ 91 * Nat.card {b : Blocks // bad b ∧ ¬ reach b}) + 2 ^ 256 * Nat.card {b : Blocks // reach b} := by ring
    _ ≤ 2 ^ 165 * (q * Nat.card Blocks) + E * Nat.card Blocks := Nat.add_le_add (Nat.mul_le_mul_left _ h1) h2
    _ = (2 ^ 165 * q + E) * Nat.card Blocks := by ring

/-! ### Pads -/

/-- Block 0, and the bytes of the key stream no session gets to. -/
abbrev Unused := (Arr 32 × Arr 12 → Arr 64) × (Arr 32 → Arr 12 → Fin 17 → UInt8)

/-- Byte `i` of the blocks from 1 on. -/
def Unused.byte (u : Unused) (pad : Pad) (k : Arr 32) (n : Arr 12) (i : Nat) (h : i < 65536) : UInt8 :=
  if h' : i < 65519 then pad k n ⟨i, h'⟩ else u.2 k n ⟨i - 65519, by omega⟩

def Unused.join (u : Unused) (pad : Pad) : Blocks := fun x =>
  Fin.cases (motive := fun _ => Arr 64) (u.1 (x.1, x.2.1))
    (fun c => ⟨List.ofFn fun j : Fin 64 => u.byte pad x.1 x.2.1 (c.val * 64 + j.val) (by omega), List.length_ofFn⟩) x.2.2

theorem Unused.join_succ (u : Unused) (pad : Pad) (k : Arr 32) (n : Arr 12) (c : Fin 1024) :
    (u.join pad (k, n, c.succ)).toList = List.ofFn fun j : Fin 64 => u.byte pad k n (c.val * 64 + j.val) (by omega) := rfl

def Blocks.unused (b : Blocks) : Unused := (fun x => b (x.1, x.2, 0),
  fun k n i => (b (k, n, ⟨1 + (65519 + i.val) / 64, by omega⟩)).toList.getD ((65519 + i.val) % 64) 0)

def Blocks.pad (b : Blocks) : Pad := fun k n i =>
  (b (k, n, ⟨1 + i.val / 64, by omega⟩)).toList.getD (i.val % 64) 0

theorem Unused.block (u : Unused) (pad : Pad) (k : Arr 32) (n : Arr 12) (i : Nat) (h : i < 65536) :
    ((u.join pad) (k, n, ⟨1 + i / 64, by omega⟩)).toList.getD (i % 64) 0 = u.byte pad k n i h := by
  have e : (⟨1 + i / 64, by omega⟩ : Fin 1025) = Fin.succ ⟨i / 64, by omega⟩ := Fin.ext (Nat.add_comm _ _)
  rw [e]
  show (List.ofFn fun j : Fin 64 => u.byte pad k n (i / 64 * 64 + j.val) _).getD (i % 64) 0 = _
  rw [List.getD, List.getElem?_eq_getElem (by rw [List.length_ofFn]; omega), Option.getD_some, List.getElem_ofFn]
  congr 1
  show i / 64 * 64 + i % 64 = i
  omega

def Blocks.pads : Blocks ≃ Unused × Pad where
  toFun b := (b.unused, b.pad)
  invFun x := x.1.join x.2
  left_inv b := by
    funext ⟨k, n, c⟩
    refine Fin.cases rfl (fun c => ?_) c
    apply arr_ext
    have hl := (b (k, n, c.succ)).len
    show (b.unused.join b.pad (k, n, c.succ)).toList = _
    rw [Unused.join_succ]
    apply List.ext_getElem
    · rw [hl]; exact List.length_ofFn
    · intro j h1 h2
      have hj : j < 64 := by omega
      rw [List.getElem_ofFn]
      have hd : ∀ (m : Nat) (hm : 1 + m / 64 < 1025), m = c.val * 64 + j →
          (b (k, n, ⟨1 + m / 64, hm⟩)).toList.getD (m % 64) 0 = (b (k, n, c.succ)).toList[j] := by
        rintro m hm rfl
        have e : (⟨1 + (c.val * 64 + j) / 64, hm⟩ : Fin 1025) = c.succ := Fin.ext (by
          show 1 + (c.val * 64 + j) / 64 = c.val + 1
          omega)
        rw [e, show (c.val * 64 + j) % 64 = j by omega, List.getD, List.getElem?_eq_getElem (by omega), Option.getD_some]
      unfold Unused.byte
      split
      · exact hd _ _ rfl
      · next hn =>
        have hn : ¬ c.val * 64 + j < 65519 := hn
        exact hd (65519 + (c.val * 64 + j - 65519)) (by omega) (by omega)
  right_inv x := by
    obtain ⟨u, pad⟩ := x
    refine Prod.ext (Prod.ext (funext fun y => rfl) ?_) ?_
    · funext k n i
      show (u.join pad _).toList.getD _ 0 = _
      rw [Unused.block u pad k n (65519 + i.val) (by omega)]
      unfold Unused.byte
      rw [dif_neg (by omega)]
      exact congrArg (u.2 k n) (Fin.ext (Nat.add_sub_cancel_left (n := 65519) (m := i.val)))
    · funext k n i
      show (u.join pad _).toList.getD _ 0 = _
      rw [Unused.block u pad k n i.val (by omega)]
      unfold Unused.byte
      rw [dif_pos i.isLt]

/-- The tags and the rest of the key stream. -/
def Unused.tag (u : Unused) : Arr 32 → Arr 12 → Bytes → Bytes → Arr 16 := fun k n ad c =>
  polyTag (Block.left (u.1 (k, n))) ad c

def Unused.more (u : Unused) : Arr 32 → Arr 12 → Nat → UInt8 := fun k n i =>
  if h : 65519 ≤ i ∧ i < 65536 then u.2 k n ⟨i - 65519, by omega⟩ else rest k n i

theorem Unused.withBlocks (u : Unused) (pad : Pad) :
    P.withBlocks rest (u.join pad) = P.withPad u.tag (u.more rest) pad := by
  have hs : ∀ k n, (u.join pad).stream rest k n = pad.byte (u.more rest) k n := by
    intro k n
    funext i
    unfold Blocks.stream Pad.byte Unused.more
    by_cases h1 : i < 65519
    · rw [dif_pos h1, dif_pos (by omega), Unused.block u pad k n i (by omega)]
      unfold Unused.byte
      rw [dif_pos h1]
    · rw [dif_neg h1]
      by_cases h2 : i < 65536
      · rw [dif_pos h2, dif_pos ⟨by omega, h2⟩, Unused.block u pad k n i h2]
        unfold Unused.byte
        rw [dif_neg h1]
      · rw [dif_neg h2, dif_neg (fun h => h2 h.2)]
  have hext : ∀ p q : Prims, p.hash = q.hash → p.aeadSeal = q.aeadSeal → p.aeadOpen = q.aeadOpen → p.dh = q.dh →
      p.publicOf = q.publicOf → p = q := by
    intro p q; cases p; cases q; simp_all
  apply hext <;> try rfl
  · funext k n ad m
    show (mask ((u.join pad).stream rest k n) m, _) = (mask (pad.byte (u.more rest) k n) m, _)
    rw [hs]
    rfl
  · funext k n ad c mac
    show (if _ = mac then some (mask ((u.join pad).stream rest k n) c) else none) =
      if _ = mac then some (mask (pad.byte (u.more rest) k n) c) else none
    rw [hs]
    rfl

end SV2.Noise
