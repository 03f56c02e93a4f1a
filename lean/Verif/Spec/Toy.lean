import Verif.Spec.Noise
/-!
# Primitives that satisfy the laws

Not secure; they show that the hypotheses of the theorems can be met, and carry the concrete counterexamples.
-/

namespace SV2.Noise

/-- A 64-bit polynomial checksum. -/
def toySum (b : Bytes) : Nat := b.foldl (fun h x => (h * 257 + x.toNat + 7) % 2 ^ 64) 17

/-- Its eight bytes four times, with a byte that is never zero. -/
def toyHash (b : Bytes) : Arr 32 :=
  let d := (List.range 8).map fun i => UInt8.ofNat (toySum b / 256 ^ i)
  ⟨d ++ d ++ d ++ d.take 7 ++ [1], by simp [d]⟩

def toyTag (k : Arr 32) (n : Arr 12) (ad p : Bytes) : Arr 16 :=
  ⟨(toyHash (k.toList ++ n.toList ++ p ++ ad)).toList.take 16, by simp [Arr.len]⟩

/-- Add the first bytes of the key and of the nonce. -/
def toyMask (k : Arr 32) (n : Arr 12) (p : Bytes) : Bytes := p.map (· + (k.toList.headD 0 + n.toList.headD 0))
def toyUnmask (k : Arr 32) (n : Arr 12) (c : Bytes) : Bytes := c.map (· - (k.toList.headD 0 + n.toList.headD 0))

theorem toy_unmask_mask (k : Arr 32) (n : Arr 12) (p : Bytes) : toyUnmask k n (toyMask k n p) = p := by
  unfold toyMask toyUnmask
  rw [List.map_map]
  conv => rhs; rw [← List.map_id p]
  apply List.map_congr_left
  intro a _
  exact UInt8.add_sub_cancel ..

theorem toy_mask_unmask (k : Arr 32) (n : Arr 12) (p : Bytes) : toyMask k n (toyUnmask k n p) = p := by
  unfold toyMask toyUnmask
  rw [List.map_map]
  conv => rhs; rw [← List.map_id p]
  apply List.map_congr_left
  intro a _
  exact UInt8.sub_add_cancel ..

def toyDh (a b : Bytes) : Bytes := 1 :: List.zipWith (· + ·) (a.drop 1) (b.drop 1)

def toyPrims : Prims where
  hash := toyHash
  aeadSeal k n ad p := (toyMask k n p, toyTag k n ad p)
  seal_length k n ad p := by simp [toyMask]
  aeadOpen k n ad c mac :=
    if toyTag k n ad (toyUnmask k n c) = mac then some (toyUnmask k n c) else none
  open_length k n ad c mac p h := by
    split at h
    · cases h; simp [toyUnmask]
    · cases h
  dh a b := ⟨toyDh a.toList b.toList, by simp [toyDh, a.len, b.len]⟩
  publicOf a := ⟨9 :: a.toList.drop 1, by simp [a.len]⟩

theorem toy_correct : AeadCorrect toyPrims := by
  intro k n ad p
  simp [toyPrims, toy_unmask_mask]

theorem toy_tight : AeadTight toyPrims := by
  intro k n ad c mac p h
  simp only [toyPrims] at h ⊢
  split at h
  · rename_i ht
    cases h
    rw [toy_mask_unmask, ht]
  · cases h

theorem toy_dh : DhLaws toyPrims where
  comm a b := by
    simp only [toyPrims, toyDh, List.drop_succ_cons, List.drop_zero]
    congr 2
    rw [List.zipWith_comm]
    congr 1
    funext x y
    exact UInt8.add_comm _ _
  public_ok a := by
    simp [toyPrims, forbiddenCurveValues]

theorem toyHash_ne_zeros (b : Bytes) : toyHash b ≠ NX.zeros := by
  intro h
  have := congrArg (fun a : Arr 32 => a.toList.getLast?) h
  simp [toyHash, NX.zeros] at this

/-- No derived key is all-zero. -/
theorem toy_hkdf_ne_zeros (ck : Arr 32) (d : Bytes) : (NX.hkdf toyPrims ck d).2 ≠ NX.zeros :=
  toyHash_ne_zeros _

theorem toy_keysNonzero (x : NX.Run) : x.KeysNonzero toyPrims :=
  ⟨toy_hkdf_ne_zeros _ _, toy_hkdf_ne_zeros _ _⟩

end SV2.Noise
