import Verif.Model.Crypto.ChaCha20Poly1305
/-!
# BLAKE2s (RFC 7693)

The function behind `Blake2s::new(32)`, `update`, `finalize` of the `blake2_rfc` crate (nx-noise prims.rs:18-48), without
a key, with 32 bytes of output.  Written from the RFC.
-/

namespace SV2.Crypto.Blake2s

/-- RFC 7693, 2.6: the initialization vector. -/
def iv : List UInt32 :=
  [0x6A09E667, 0xBB67AE85, 0x3C6EF372, 0xA54FF53A, 0x510E527F, 0x9B05688C, 0x1F83D9AB, 0x5BE0CD19]

/-- 2.7: the message schedule. -/
def sigma : List (List Nat) := [
  [0, 1, 2, 3, 4, 5, 6, 7, 8, 9, 10, 11, 12, 13, 14, 15],
  [14, 10, 4, 8, 9, 15, 13, 6, 1, 12, 0, 2, 11, 7, 5, 3],
  [11, 8, 12, 0, 5, 2, 15, 13, 10, 14, 3, 6, 7, 1, 9, 4],
  [7, 9, 3, 1, 13, 12, 11, 14, 2, 6, 5, 10, 4, 0, 15, 8],
  [9, 0, 5, 7, 2, 4, 10, 15, 14, 1, 11, 12, 6, 8, 3, 13],
  [2, 12, 6, 10, 0, 11, 8, 3, 4, 13, 7, 5, 15, 14, 1, 9],
  [12, 5, 1, 15, 14, 13, 4, 10, 0, 7, 6, 3, 9, 2, 8, 11],
  [13, 11, 7, 14, 12, 1, 3, 9, 5, 0, 15, 4, 8, 6, 2, 10],
  [6, 15, 14, 9, 11, 3, 0, 8, 12, 2, 13, 7, 1, 4, 10, 5],
  [10, 2, 8, 4, 7, 6, 1, 5, 15, 11, 9, 14, 3, 12, 13, 0]]

/-- Rotation to the right. -/
def rotr (x n : UInt32) : UInt32 := x >>> n ||| x <<< (32 - n)

/-- 3.1: the mixing function `G`. -/
def mix (v : List UInt32) (a b c d : Nat) (x y : UInt32) : List UInt32 :=
  let va := v.getD a 0 + v.getD b 0 + x
  let vd := rotr (v.getD d 0 ^^^ va) 16
  let vc := v.getD c 0 + vd
  let vb := rotr (v.getD b 0 ^^^ vc) 12
  let va := va + vb + y
  let vd := rotr (vd ^^^ va) 8
  let vc := vc + vd
  let vb := rotr (vb ^^^ vc) 7
  (((v.set a va).set b vb).set c vc).set d vd

/-- 3.2: one round. -/
def round (m : List UInt32) (v : List UInt32) (s : List Nat) : List UInt32 :=
  let w := fun i => m.getD (s.getD i 0) 0
  let v := mix v 0 4 8 12 (w 0) (w 1)
  let v := mix v 1 5 9 13 (w 2) (w 3)
  let v := mix v 2 6 10 14 (w 4) (w 5)
  let v := mix v 3 7 11 15 (w 6) (w 7)
  let v := mix v 0 5 10 15 (w 8) (w 9)
  let v := mix v 1 6 11 12 (w 10) (w 11)
  let v := mix v 2 7 8 13 (w 12) (w 13)
  mix v 3 4 9 14 (w 14) (w 15)

/-- 3.2: the compression function `F`: state, block, number of bytes so far, final block. -/
def compress (h : List UInt32) (block : Bytes) (t : Nat) (final : Bool) : List UInt32 :=
  let v := h ++ iv
  let v := v.set 12 (v.getD 12 0 ^^^ UInt32.ofNat t)
  let v := v.set 13 (v.getD 13 0 ^^^ UInt32.ofNat (t / 2 ^ 32))
  let v := if final then v.set 14 (v.getD 14 0 ^^^ 0xFFFFFFFF) else v
  let v := sigma.foldl (round (words 16 block)) v
  List.zipWith (· ^^^ ·) h (List.zipWith (· ^^^ ·) (v.take 8) (v.drop 8))

/-- 3.3: the blocks; `t` bytes have been done, `n` blocks follow the current one. -/
def blocks : (n : Nat) → (h : List UInt32) → (t : Nat) → Bytes → List UInt32
  | 0, h, t, data => compress h (data ++ List.replicate (64 - data.length) 0) (t + data.length) true
  | n + 1, h, t, data => blocks n (compress h (data.take 64) (t + 64) false) (t + 64) (data.drop 64)

/-- 3.3: `BLAKE2s(data, "", 32)`. -/
def hash (data : Bytes) : Arr 32 :=
  let h := iv.set 0 (iv.getD 0 0 ^^^ 0x01010020)
  ⟨toLE 32 (ofWords (blocks ((data.length - 1) / 64) h 0 data)), X25519.length_toLE _ _⟩

end SV2.Crypto.Blake2s
