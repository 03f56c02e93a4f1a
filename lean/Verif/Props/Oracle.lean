import Verif.Lemmas.OracleEnd
import Verif.Props.Impersonation
import Mathlib.Data.Set.Finite.List
/-!
# C103: nobody answers for a server without a shared secret, if the hash function and ChaCha20 are random

The attacker, and what it means to mislead a client, are in `Verif/Spec/Oracle.lean`.
-/

namespace SV2.Noise
open Oracle

variable (P : Prims) (rest : Arr 32 → Arr 12 → Nat → UInt8)

instance (M : Nat) : Finite (Input M) := by
  have : Finite UInt8 := Finite.of_injective UInt8.toFin fun a b h => UInt8.toFin_inj.mp h
  exact (List.finite_length_le UInt8 M).to_subtype

theorem card_imp_or {Y : Type} [Finite Y] {p q r : Y → Prop} (h : ∀ x, p x → q x ∨ r x) :
    Nat.card {x // p x} ≤ Nat.card {x // q x} + Nat.card {x // r x} :=
  (Nat.card_le_card_of_injective (fun x : {x // p x} => (⟨x.1, h x.1 x.2⟩ : {x // q x ∨ r x})) fun _ _ h =>
    Subtype.ext (congrArg (fun y => y.1) h)).trans (card_or_le q r)

/-- The hashes and blocks under which something happens by chance are few. -/
theorem few_by_chance {M : Nat} (hM : 97 ≤ M) (far : Bytes → Arr 32) (D : List (Arr 32)) (prologue : Bytes) (eI : Arr 32)
    (first : Bytes) (impostor : Curious Bytes) (n : Nat) (hn : impostor.Within M n) :
    2 ^ 256 * Nat.card {x : Hashes M × Blocks // ¬ Fine (hkdfShape hM D)
      ((wholeJob P far D prologue eI first impostor).guard (hkdfShape hM D).A) x.1 fun k y => x.2 (k, y.1, y.2)} ≤
      2 ^ 16 * (n + 1) ^ 2 * Nat.card (Hashes M × Blocks) := by
  let e : Hashes M × Blocks ≃ (Input M → Arr 32) × (Arr 32 → KeyRow) :=
    (Equiv.refl _).prodCongr (Equiv.curry (Arr 32) (Arr 12 × Fin 1025) (Arr 64))
  have : Nonempty (Arr 32) := ⟨NX.zeros⟩
  have : Nonempty KeyRow := ⟨fun _ => Arr.replicate 64 0⟩
  have b := few_not_fine (hkdfShape hM D) ((wholeJob P far D prologue eI first impostor).guard (hkdfShape hM D).A)
    (29 * n + 21)
    (fun w => ((wholeJob P far D prologue eI first impostor).guard_prefix _ w).length_le.trans
      (wholeJob_calls P far D prologue eI first impostor n hn w))
    fun w p => Prog.guard_never _ w _ p
  rw [Crypto.Poly1305.card_keys] at b
  rw [Nat.card_congr e]
  have e' : {x : Hashes M × Blocks // ¬ Fine (hkdfShape hM D)
      ((wholeJob P far D prologue eI first impostor).guard (hkdfShape hM D).A) x.1 fun k y => x.2 (k, y.1, y.2)} ≃
      {x : (Input M → Arr 32) × (Arr 32 → KeyRow) // ¬ Fine (hkdfShape hM D)
      ((wholeJob P far D prologue eI first impostor).guard (hkdfShape hM D).A) x.1 x.2} :=
    e.subtypeEquiv fun x => Iff.rfl
  rw [Nat.card_congr e']
  refine b.trans (Nat.mul_le_mul_right _ ?_)
  have h : (29 * n + 21) ^ 2 ≤ (29 * (n + 1)) ^ 2 := Nat.pow_le_pow_left (by omega) 2
  refine (Nat.mul_le_mul_left 42 h).trans ?_
  rw [Nat.mul_pow, ← Nat.mul_assoc]
  exact Nat.mul_le_mul_right _ (by decide)

/-- A client sends its first message.  An attacker with at most `n` questions - hashes, blocks of ChaCha20, and answers of
responders with any secrets, the real servers among them - gives it a reply.  For all but a share of `1 / 2^91` and
`(n + 1)^2 / 2^240` of the hash and block functions: if the client accepts the reply as one of one of the `servers`, then a
responder made this very answer for this very message and the two sides agree, or a shared secret of the client and one of
these servers was hashed by somebody, other than for keys, or two responders had the same two shared secrets with the
client. -/
theorem C103_impostor (hD : DhLaws P) (far : Bytes → Arr 32) (M : Nat) (hM : 65567 ≤ M) (prologue : Bytes)
    (hp : prologue.length + 32 ≤ M) (kp : Keypair) (eI : Arr 32) (buf1 : Bytes) (servers : List (Arr 32))
    (impostor : Bytes → Curious Bytes) (n : Nat) (hn : ∀ first, (impostor first).Within M n) :
    2 ^ 256 * Nat.card {x : Hashes M × Blocks // Misled P rest far prologue kp eI buf1 servers impostor x.1 x.2} ≤
      (2 ^ 165 + 2 ^ 16 * (n + 1) ^ 2) * Nat.card (Hashes M × Blocks) := by
  by_cases hb : 32 ≤ buf1.length ∧ buf1.length ≤ 65535
  swap
  · have : IsEmpty {x : Hashes M × Blocks // Misled P rest far prologue kp eI buf1 servers impostor x.1 x.2} := by
      refine ⟨fun x => hb ?_⟩
      obtain ⟨_, i1, first, h1, -⟩ := x
      obtain ⟨-, -, h2, h3, -⟩ := send_first_ok h1
      exact ⟨h2, h3⟩
    rw [Nat.card_of_isEmpty, Nat.mul_zero]
    exact Nat.zero_le _
  have hM' : 97 ≤ M := by omega
  obtain ⟨w1, hw⟩ : ∃ w1, w1 = (P.publicOf eI).toList ++ buf1.drop 32 := ⟨_, rfl⟩
  have hwl : w1.length ≤ 65535 := by
    rw [hw, List.length_append, Arr.len, List.length_drop]; omega
  obtain ⟨D, hDs⟩ : ∃ D, D = servers.map (P.dh eI) := ⟨_, rfl⟩
  have b1 := few_by_chance P hM' far D prologue eI w1 (impostor w1) n (hn w1)
  let i1 : Hashes M → NoiseSession := fun H => mid (P.withHash (H.at far)) true prologue kp
    (Keypair.default (P.withHash (H.at far)) eI) EMPTY (P.publicOf eI).toList (buf1.drop 32)
  have hsend : ∀ H : Hashes M, (NoiseSession.initSession (P.withHash (H.at far)) true prologue kp).sendMessage
      (P.withHash (H.at far)) (Keypair.default (P.withHash (H.at far)) eI) buf1 = (.ok (), i1 H, w1) := by
    intro H
    rw [hw]
    exact send_first true prologue kp (Keypair.default (P.withHash (H.at far)) eI) buf1 hb.1 hb.2
  have b2 := card_prod_le (A := Hashes M) (B := Blocks) (2 ^ 91) 1 (fun H blocks => Fooled (P.withHash (H.at far)) rest prologue
    eI (i1 H) w1 ((impostor w1).asking (H.at far)) blocks) fun H => by
      rw [Nat.one_mul]
      exact C95_impostor (P.withHash (H.at far)) rest ⟨hD.comm, hD.public_ok⟩ prologue kp eI buf1 w1 (i1 H) (hsend H) _
  have sub : ∀ x : Hashes M × Blocks, Misled P rest far prologue kp eI buf1 servers impostor x.1 x.2 →
      ¬ Fine (hkdfShape hM' D) ((wholeJob P far D prologue eI w1 (impostor w1)).guard (hkdfShape hM' D).A) x.1
        (fun k y => x.2 (k, y.1, y.2)) ∨
      Fooled (P.withHash (x.1.at far)) rest prologue eI (i1 x.1) w1 ((impostor w1).asking (x.1.at far)) x.2 := by
    rintro ⟨H, blocks⟩ ⟨i, first, h1, i2, out, rs, h2, hrs, hmem, ht, hc, hno⟩
    simp only at *
    rw [hsend H] at h1
    simp only [Prod.mk.injEq, true_and] at h1
    obtain ⟨rfl, rfl⟩ := h1
    by_cases F : Fine (hkdfShape hM' D) ((wholeJob P far D prologue eI w1 (impostor w1)).guard (hkdfShape hM' D).A) H
        (fun k y => blocks (k, y.1, y.2))
    swap
    · exact .inl F
    right
    have hplay := (impostor w1).play_asking (P.withHash (H.at far)) rest blocks
    unfold Fooled
    have hplay' : ((impostor w1).asking (H.at far)).play (P.withHash (H.at far)) rest blocks =
      ((impostor w1).play (P.withHash (H.at far)) rest blocks).toPlayed := hplay
    rw [hplay']
    obtain ⟨hst, hl, hl', -⟩ := accepts (P := P.withHash (H.at far)) (stream := blocks.stream rest) (mk := blocks.oneTime) h2 hrs
    refine ⟨i2, out, rs, h2, hrs, ?_, hno⟩
    rw [hDs] at F
    exact careful hM' P H blocks rest hM (hn w1) hp hwl F rfl rfl hst (by omega) hmem ht hc
  refine (Nat.mul_le_mul_left _ (card_imp_or sub)).trans ?_
  rw [Nat.mul_add, Nat.add_mul, Nat.add_comm]
  refine Nat.add_le_add ?_ b1
  have := Nat.mul_le_mul_left (2 ^ 165) b2
  rw [← Nat.mul_assoc, Nat.one_mul] at this
  exact this

/-! ## An attacker that hashes the shared secret -/

namespace Curious

variable {P rest} {α β : Type}

def bind : Curious α → (α → Curious β) → Curious β
  | .reply a, f => f a
  | .hash x next, f => .hash x fun y => (next y).bind f
  | .block x next, f => .block x fun y => (next y).bind f
  | .serve c next, f => .serve c fun a => (next a).bind f

/-- Its result, without a responder. -/
def Gives (P : Prims) (rest : Arr 32 → Arr 12 → Nat → UInt8) (blocks : Blocks) (c : Curious α) (v : α) : Prop :=
  (c.play P rest blocks).result = v ∧ (c.play P rest blocks).served = []

theorem Gives.bind {blocks : Blocks} {c : Curious α} {f : α → Curious β} {v : α} {u : β} (h : c.Gives P rest blocks v)
    (hf : (f v).Gives P rest blocks u) : (c.bind f).Gives P rest blocks u := by
  obtain ⟨h1, h2⟩ := h
  induction c with
  | reply a => cases h1; exact hf
  | hash x next ih => exact ih _ h1 h2
  | block x next ih => exact ih _ h1 h2
  | serve c next ih =>
    simp only [Curious.play, List.append_eq_nil_iff] at h1 h2
    obtain ⟨g1, g2⟩ := ih _ h1 h2.2
    refine ⟨g1, ?_⟩
    simp only [Curious.bind, Curious.play, List.append_eq_nil_iff]
    exact ⟨h2.1, g2⟩

theorem hashed_left {blocks : Blocks} {c : Curious α} {f : α → Curious β} {x : Bytes} (h : x ∈ (c.play P rest blocks).hashed) :
    x ∈ ((c.bind f).play P rest blocks).hashed := by
  induction c with
  | reply a => cases h
  | hash y next ih =>
    rcases List.mem_cons.mp h with rfl | h
    · exact List.mem_cons_self
    · exact List.mem_cons_of_mem _ (ih _ h)
  | block y next ih => exact ih _ h
  | serve c next ih => exact ih _ h

theorem hashed_right {blocks : Blocks} {c : Curious α} {f : α → Curious β} {v : α} {x : Bytes}
    (hc : (c.play P rest blocks).result = v) (h : x ∈ ((f v).play P rest blocks).hashed) :
    x ∈ ((c.bind f).play P rest blocks).hashed := by
  induction c with
  | reply a => cases hc; exact h
  | hash y next ih => exact List.mem_cons_of_mem _ (ih _ hc)
  | block y next ih => exact ih _ hc
  | serve c next ih => exact ih _ hc

theorem Within.bind {M a b : Nat} {c : Curious α} {f : α → Curious β} (h : c.Within M a) (hf : ∀ x, (f x).Within M b) :
    (c.bind f).Within M (a + b) := by
  have mono : ∀ (c : Curious β) (b a : Nat), c.Within M b → c.Within M (a + b) := by
    intro c
    induction c with
    | reply x =>
      intro b a h
      cases a + b <;> trivial
    | hash x next ih =>
      intro b a h
      cases b with
      | zero => exact h.elim
      | succ b => exact fun y => ih y b a (h y)
    | block x next ih =>
      intro b a h
      cases b with
      | zero => exact h.elim
      | succ b => exact fun y => ih y b a (h y)
    | serve c next ih =>
      intro b a h
      cases b with
      | zero => exact h.elim
      | succ b => exact ⟨h.1, fun y => ih y b a (h.2 y)⟩
  induction c generalizing a with
  | reply x => exact mono _ b a (hf x)
  | hash x next ih =>
    cases a with
    | zero => exact h.elim
    | succ a =>
      rw [Nat.add_right_comm]
      exact fun y => ih y (h y)
  | block x next ih =>
    cases a with
    | zero => exact h.elim
    | succ a =>
      rw [Nat.add_right_comm]
      exact fun y => ih y (h y)
  | serve c next ih =>
    cases a with
    | zero => exact h.elim
    | succ a =>
      rw [Nat.add_right_comm]
      exact ⟨h.1, fun y => ih y (h.2 y)⟩

def hashed (x : Bytes) : Curious (Arr 32) := .hash x .reply

def hmac (k : Arr 32) (x : Bytes) : Curious (Arr 32) :=
  (hashed (padded 0x36 k ++ x)).bind fun v => hashed (padded 0x5c k ++ v.toList)

def hkdf (k : Arr 32) (x : Bytes) : Curious (Arr 32 × Arr 32) :=
  (hmac k x).bind fun t => (hmac t [0x01]).bind fun o => (hmac t (o.toList ++ [0x02])).bind fun u => .reply (o, u)

def mixed : Arr 32 → List Bytes → Curious (Arr 32)
  | h, [] => .reply h
  | h, d :: ds => (hashed (h.toList ++ d)).bind fun h => mixed h ds

/-- Some blocks. -/
def learn : List (Arr 32 × Arr 12 × Fin 1025) → Curious Blocks
  | [] => .reply fun _ => Arr.replicate 64 0
  | x :: l => .block x fun y => (learn l).bind fun b => .reply fun z => if z = x then y else b z

theorem hashed_gives (blocks : Blocks) (x : Bytes) : (hashed x).Gives P rest blocks (P.hash x) := ⟨rfl, rfl⟩

theorem hmac_gives (blocks : Blocks) (k : Arr 32) (x : Bytes) : (hmac k x).Gives P rest blocks (NX.hmac P k x) :=
  (hashed_gives blocks _).bind (hashed_gives blocks _)

theorem hkdf_gives (blocks : Blocks) (k : Arr 32) (x : Bytes) : (hkdf k x).Gives P rest blocks (NX.hkdf P k x) :=
  (hmac_gives blocks _ _).bind ((hmac_gives blocks _ _).bind ((hmac_gives blocks _ _).bind ⟨rfl, rfl⟩))

theorem hkdf_hashed (blocks : Blocks) (k d : Arr 32) : innerInput k d ∈ ((hkdf k d.toList).play P rest blocks).hashed :=
  hashed_left (hashed_left (List.mem_cons_self : _ ∈ ((hashed (padded 0x36 k ++ d.toList)).play P rest blocks).hashed))

theorem mixed_gives (blocks : Blocks) (ds : List Bytes) (h : Arr 32) :
    (mixed h ds).Gives P rest blocks (ds.foldl (fun h d => P.hash (h.toList ++ d)) h) := by
  induction ds generalizing h with
  | nil => exact ⟨rfl, rfl⟩
  | cons d ds ih => exact (hashed_gives blocks _).bind (ih _)

theorem learn_gives (blocks : Blocks) (l : List (Arr 32 × Arr 12 × Fin 1025)) :
    ∃ b, (learn l).Gives P rest blocks b ∧ ∀ x ∈ l, b x = blocks x := by
  induction l with
  | nil => exact ⟨_, ⟨rfl, rfl⟩, fun x hx => absurd hx List.not_mem_nil⟩
  | cons x l ih =>
    obtain ⟨b, hb, h⟩ := ih
    refine ⟨fun z => if z = x then blocks x else b z, ?_, ?_⟩
    · have : ((learn l).bind fun b => .reply fun z => if z = x then blocks x else b z).Gives P rest blocks
        (fun z => if z = x then blocks x else b z) := hb.bind ⟨rfl, rfl⟩
      exact this
    · intro z hz
      show (if z = x then blocks x else b z) = _
      by_cases e : z = x
      · rw [if_pos e, e]
      · rw [if_neg e]
        exact h z ((List.mem_cons.mp hz).resolve_left e)

variable {M : Nat}

theorem reply_within (a : α) : (reply a).Within M 0 := trivial

theorem hashed_within (x : Bytes) : (hashed x).Within M 1 := fun _ => trivial

theorem hmac_within (k : Arr 32) (x : Bytes) : (hmac k x).Within M 2 := (hashed_within _).bind (b := 1) fun _ => hashed_within _

theorem hkdf_within (k : Arr 32) (x : Bytes) : (hkdf k x).Within M 6 :=
  (hmac_within _ _).bind (b := 4) fun _ => (hmac_within _ _).bind (b := 2) fun _ => (hmac_within _ _).bind (b := 0) fun _ => trivial

theorem mixed_within (ds : List Bytes) (h : Arr 32) : (mixed h ds).Within M ds.length := by
  induction ds generalizing h with
  | nil => trivial
  | cons d ds ih =>
    rw [List.length_cons, Nat.add_comm]
    exact (hashed_within _).bind fun _ => ih _

theorem mixed_one (d : Bytes) (h : Arr 32) : (mixed h [d]).Within M 1 := mixed_within [d] h

theorem mixed_four (a b c d : Bytes) (h : Arr 32) : (mixed h [a, b, c, d]).Within M 4 := mixed_within [a, b, c, d] h

theorem learn_within (l : List (Arr 32 × Arr 12 × Fin 1025)) : (learn l).Within M l.length := by
  induction l with
  | nil => trivial
  | cons x l ih => exact fun y => ih.bind (b := 0) fun _ => trivial

/-- It does what a responder does, with the shared secrets `ee` and `es`. -/
def forge (P : Prims) (rest : Arr 32 → Arr 12 → Nat → UInt8) (prologue : Bytes) (re rs ee es : Arr 32) (payload first : Bytes) :
    Curious Bytes :=
  (hashed nameBytes).bind fun h =>
  (hkdf h ee.toList).bind fun a =>
  (hkdf a.1 es.toList).bind fun b =>
  (mixed h [prologue, first.take 32, first.drop 32, re.toList]).bind fun t =>
  (learn (rowOf a.2 0)).bind fun b1 =>
  let encS := NX.enc (P.withBlocks rest b1) a.2 0 t.toList rs.toList
  (mixed t [encS]).bind fun t =>
  (learn (rowOf b.2 0)).bind fun b2 =>
  .reply (re.toList ++ encS ++ NX.enc (P.withBlocks rest b2) b.2 0 t.toList payload)

theorem forge_hash (hash : Bytes → Arr 32) (prologue : Bytes) (re rs ee es : Arr 32) (payload first : Bytes) :
    forge (P.withHash hash) rest prologue re rs ee es payload first = forge P rest prologue re rs ee es payload first := by
  have e : ∀ b k n ad p, NX.enc ((P.withHash hash).withBlocks rest b) k n ad p = NX.enc (P.withBlocks rest b) k n ad p :=
    fun _ _ _ _ _ => rfl
  unfold forge
  simp only [e]

seal Curious.Within in
theorem forge_within (prologue : Bytes) (re rs ee es : Arr 32) (payload first : Bytes) :
    (forge P rest prologue re rs ee es payload first).Within M 2068 := by
  have l : ∀ k, (rowOf k 0).length = 1025 := fun k => by rw [rowOf, List.length_map, List.length_finRange]
  obtain ⟨N, hN⟩ : ∃ N, N = 1025 := ⟨_, rfl⟩
  obtain ⟨N', hN'⟩ : ∃ N, N = 2068 := ⟨_, rfl⟩
  have hl : ∀ k, (learn (rowOf k 0)).Within M N := fun k => by
    have := learn_within (M := M) (rowOf k 0)
    rw [(l k).trans hN.symm] at this
    exact this
  have e : N' = 1 + (6 + (6 + (4 + (N + (1 + (N + 0)))))) := by omega
  rw [← hN', e]
  exact (hashed_within _).bind fun h => (hkdf_within _ _).bind fun a => (hkdf_within _ _).bind fun b =>
    (mixed_four _ _ _ _ _).bind fun t => (hl _).bind fun b1 => (mixed_one _ _).bind fun t =>
    (hl _).bind fun b2 => reply_within _

theorem forge_gives (blocks : Blocks) (prologue : Bytes) (re rs ee es : Arr 32) (payload first : Bytes) :
    (forge P rest prologue re rs ee es payload first).Gives P rest blocks (re.toList ++
      NX.encryptedStatic (P.withBlocks rest blocks) prologue (first.take 32) (first.drop 32) re.toList ee rs.toList ++
      NX.encryptedPayload (P.withBlocks rest blocks) prologue (first.take 32) (first.drop 32) re.toList
        (NX.encryptedStatic (P.withBlocks rest blocks) prologue (first.take 32) (first.drop 32) re.toList ee rs.toList)
        ee es payload) := by
  obtain ⟨b1, g1, e1⟩ := learn_gives (P := P) (rest := rest) blocks (rowOf (NX.afterEE P ee).2 0)
  obtain ⟨b2, g2, e2⟩ := learn_gives (P := P) (rest := rest) blocks (rowOf (NX.afterES P ee es).2 0)
  refine (hashed_gives blocks _).bind ((hkdf_gives blocks _ _).bind ((hkdf_gives blocks _ _).bind ((mixed_gives blocks _ _).bind
    (g1.bind ((mixed_gives blocks _ _).bind (g2.bind ⟨?_, rfl⟩))))))
  have f1 : ∀ ad p, NX.enc (P.withBlocks rest b1) (NX.hkdf P (P.hash nameBytes) ee.toList).2 0 ad p =
    NX.enc (P.withBlocks rest blocks) (NX.hkdf P (P.hash nameBytes) ee.toList).2 0 ad p := fun ad p => enc_row e1 ad p
  have f2 : ∀ ad p, NX.enc (P.withBlocks rest b2) (NX.hkdf P (NX.hkdf P (P.hash nameBytes) ee.toList).1 es.toList).2 0 ad p =
    NX.enc (P.withBlocks rest blocks) (NX.hkdf P (NX.hkdf P (P.hash nameBytes) ee.toList).1 es.toList).2 0 ad p :=
    fun ad p => enc_row e2 ad p
  show re.toList ++ _ ++ _ = _
  rw [f1, f2]
  rfl

theorem forge_hashed (blocks : Blocks) (prologue : Bytes) (re rs ee es : Arr 32) (payload first : Bytes) :
    innerInput (NX.afterEE P ee).1 es ∈ ((forge P rest prologue re rs ee es payload first).play P rest blocks).hashed :=
  hashed_right (hashed_gives blocks _).1 (hashed_right (hkdf_gives blocks _ _).1 (hashed_left (hkdf_hashed blocks _ _)))

end Curious

seal Curious.Within in
/-- The condition on the hashes is needed: for every client, every static key `rs` and every payload there is an attacker
that asks for some hashes - one of them of the shared secret of the client and the owner of `rs` - and blocks, but no
responder, and whose reply the client accepts as one of the owner of `rs`, whatever the hash and the block function are.  (The keys of the handshake are not zero.) -/
theorem C103_informed (far : Bytes → Arr 32) (M : Nat) (prologue : Bytes) (kp : Keypair) (eI : Arr 32) (buf1 : Bytes)
    (h1 : 32 ≤ buf1.length) (h2 : buf1.length ≤ 65535) (re rs : Arr 32) (hre : re.toList ∉ forbiddenCurveValues)
    (hrs : rs.toList ∉ forbiddenCurveValues) (payload : Bytes) (hl : payload.length ≤ 2032) :
    ∃ impostor : Bytes → Curious Bytes, (∀ first, (impostor first).Within M 2068) ∧ ∀ (H : Hashes M) (blocks : Blocks),
      let Q := P.withHash (H.at far)
      (NX.afterEE Q (Q.dh eI re)).2 ≠ NX.zeros → (NX.afterES Q (Q.dh eI re) (Q.dh eI rs)).2 ≠ NX.zeros →
      ∃ i1 first, (NoiseSession.initSession Q true prologue kp).sendMessage Q (Keypair.default Q eI) buf1 = (.ok (), i1, first) ∧
        let p := (impostor first).play Q rest blocks
        p.served = [] ∧ innerInput (NX.afterEE Q (Q.dh eI re)).1 (Q.dh eI rs) ∈ p.hashed ∧ ∃ i2 out, i1.recvMessage (Q.withBlocks rest blocks) p.result = (.ok (), i2, out) ∧
          i2.getRemoteStaticPublicKey = some rs ∧ plain (out.drop 80) = payload := by
  refine ⟨Curious.forge P rest prologue re rs (P.dh eI re) (P.dh eI rs) payload, fun _ => Curious.forge_within _ _ _ _ _ _ _,
    fun H blocks => ?_⟩
  intro Q hk1 hk2
  have hf := fun first => Curious.forge_hash (P := P) (rest := rest) (H.at far) prologue re rs (P.dh eI re) (P.dh eI rs) payload first
  have hQ : P.withHash (H.at far) = Q := rfl
  have hdh : P.dh = Q.dh := rfl
  have hpub : P.publicOf = Q.publicOf := rfl
  clear_value Q
  rw [hQ] at hf
  obtain ⟨w1, hw⟩ : ∃ w1, w1 = (P.publicOf eI).toList ++ buf1.drop 32 := ⟨_, rfl⟩
  have hsend : (NoiseSession.initSession Q true prologue kp).sendMessage Q (Keypair.default Q eI) buf1 =
      (.ok (), mid Q true prologue kp (Keypair.default Q eI) EMPTY (P.publicOf eI).toList (buf1.drop 32), w1) := by
    rw [hw, hpub]
    exact send_first true prologue kp (Keypair.default Q eI) buf1 h1 h2
  obtain ⟨g1, g2⟩ := Curious.forge_gives (P := Q) (rest := rest) blocks prologue re rs (P.dh eI re) (P.dh eI rs) payload w1
  have e1 : w1.take 32 = (P.publicOf eI).toList := by rw [hw, List.take_left' (P.publicOf eI).len]
  have e2 : w1.drop 32 = buf1.drop 32 := by rw [hw, List.drop_left' (P.publicOf eI).len]
  rw [e1, e2] at g1
  rw [hf] at g1 g2
  have g3 := Curious.forge_hashed (P := Q) (rest := rest) blocks prologue re rs (P.dh eI re) (P.dh eI rs) payload w1
  rw [hf] at g3
  refine ⟨_, w1, hsend, g2, by rw [← hdh]; exact g3, ?_⟩
  rw [g1, hdh]
  have hA : AeadCorrect (Q.withBlocks rest blocks) := withMac_correct Q _ blocks.oneTime
  have hrecv := recv_second hA true prologue kp (Keypair.default Q eI) EMPTY re rs (P.publicOf eI).toList (buf1.drop 32) payload
    hre hrs hl hk1 hk2
  refine ⟨_, _, hrecv, rfl, ?_⟩
  have l1 := re.len
  have l2 := rs.len
  rw [List.drop_left']
  · refine plain_append (tag_length ?_)
    show 16 ≤ (NX.enc _ _ _ _ _).length
    rw [enc_length]; omega
  · rw [List.length_append, List.length_append, l1, l2, tag_length]
    show 16 ≤ (NX.enc _ _ _ _ _).length
    rw [enc_length]; omega

/-! ## Cases -/

/-- The toy primitives with their hash function as a table. -/
example : toyPrims.withHash (Hashes.at toyPrims.hash (fun x => toyPrims.hash x.1 : Hashes 65567)) = toyPrims := by
  have : Hashes.at toyPrims.hash (fun x => toyPrims.hash x.1 : Hashes 65567) = toyPrims.hash := by
    funext x
    unfold Hashes.at
    split <;> rfl
  rw [this]
  rfl

/-- An attacker that hashes something, computes a block, and passes the client's message on to the server and its answer
back. -/
def relay (first : Bytes) : Curious Bytes :=
  .hash (List.replicate 96 1) fun _ => .block (Arr.replicate 32 1, NX.nonce 0, 0) fun _ => .serve (serving first) fun a =>
    .reply ((a.map (·.second)).getD [])

example (first : Bytes) : (relay first).Within 65567 3 := fun _ _ => ⟨show 2 + 32 ≤ 65567 by decide, fun _ => trivial⟩

/-- The client accepts the answer, and it is the server's; nobody hashed a shared secret, and the two shared secrets of this
connection are those of one responder. -/
example : let m := firstOf (Arr.replicate 32 3)
    let eI := Arr.replicate 32 3
    let p := (relay m.2.2).play toyPrims (fun _ _ _ => 7) toyBlocks
    let r := m.2.1.recvMessage (toyPrims.withBlocks (fun _ _ _ => 7) toyBlocks) p.result
    let rs := toyPrims.publicOf (Arr.replicate 32 5)
    r.1 = .ok () ∧ r.2.1.getRemoteStaticPublicKey = some rs ∧
      (∀ x ∈ p.heard toyPrims [1, 2] m.2.2, x.drop 64 ≠ (toyPrims.dh eI rs).toList) ∧
      (p.served.map fun s => s.2.secrets toyPrims s.1).count (toyPrims.dh eI (keyIn p.result), toyPrims.dh eI rs) = 1 ∧
      p.served.map (·.2.second) = [p.result] := by
  decide +kernel

/-- So nobody was told. -/
example (P : Prims) (eI rs : Arr 32) (heard : List Bytes) (h : ∀ x ∈ heard, x.drop 64 ≠ (P.dh eI rs).toList) :
    ¬ Told P eI [rs] heard := by
  rintro ⟨ck, rs', hm, hx⟩
  obtain rfl := List.mem_singleton.mp hm
  exact h _ hx (List.drop_left' (padded_length 0x36 ck))

/-- An attacker that hashes the shared secret was told. -/
example (P : Prims) (eI rs ck : Arr 32) (heard : List Bytes) : Told P eI [rs] (innerInput ck (P.dh eI rs) :: heard) :=
  ⟨ck, rs, List.mem_singleton.mpr rfl, List.mem_cons_self⟩

end SV2.Noise
