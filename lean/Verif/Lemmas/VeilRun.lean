import Verif.Lemmas.OracleEnd
import Verif.Lemmas.Veil
import Verif.Lemmas.VeilNet
/-!
# The connection as a program

The attacker, the responders, the client, and then the two sides with the attacker between them, as one program in the sense
of `Verif/Lemmas/Veil.lean`.  Where a shared secret of the client with a server is mixed into a chaining key, all that
follows is a chain, up to the session keys.  The hash of the protocol's name is fixed.
-/

namespace SV2.Noise.Veiled
open SV2.Veil

/-- What may be asked. -/
abbrev Ask (M : Nat) := {x : Bytes // x.length ≤ M ∧ x ≠ nameBytes}
/-- A chaining key that is not the first one, and a shared secret of the client with a server. -/
abbrev Deep (h0 : Arr 32) (D : List (Arr 32)) := {p : Arr 32 × Arr 32 // p.2 ∈ D ∧ p.1 ≠ h0}
abbrev Job (M : Nat) (h0 : Arr 32) (D : List (Arr 32)) (α : Type) := Prog (Ask M) (Arr 32) (Deep h0 D) KeyRow α
abbrev Log (M : Nat) (h0 : Arr 32) (D : List (Arr 32)) := List (Event (Ask M) (Arr 32) (Deep h0 D))

theorem ne_name {x : Bytes} (h : x.length ≠ 33) : x ≠ nameBytes := fun e => h (by rw [e, name_length])

def kind (x : Bytes) : Nat := if x.length = 64 then 4 else kindOf x

theorem length_96 (c : UInt8) (k u : Arr 32) : (padded c k ++ u.toList).length = 96 := by
  rw [List.length_append, padded_length, u.len]

theorem length_65 (c : UInt8) (k : Arr 32) : (padded c k ++ [0x01]).length = 65 := by
  rw [List.length_append, padded_length]; rfl

theorem length_97 (c : UInt8) (k u : Arr 32) : (padded c k ++ (u.toList ++ [0x02])).length = 97 := by
  rw [List.length_append, List.length_append, padded_length, u.len]; rfl

theorem length_64 (c : UInt8) (k : Arr 32) : (padded c k ++ []).length = 64 := by
  rw [List.append_nil, padded_length]

theorem kindOf_E (k : Arr 32) : kindOf (padded 0x36 k ++ []) = 0 := by
  have := length_64 0x36 k
  unfold kindOf
  rw [if_neg (by omega), if_neg (by omega), if_pos (padded_at _ _ _)]

/-- The inputs of the twelve hashes. -/
def shape {M : Nat} (hM : 97 ≤ M) (h0 : Arr 32) (D : List (Arr 32)) : Shape (Ask M) (Arr 32) (Deep h0 D) where
  A p := ⟨padded 0x36 p.1.1 ++ p.1.2.toList, by rw [length_96]; omega, ne_name (by rw [length_96]; decide)⟩
  B k u := ⟨padded 0x5c k ++ u.toList, by rw [length_96]; omega, ne_name (by rw [length_96]; decide)⟩
  C k := ⟨padded 0x36 k ++ [0x01], by rw [length_65]; omega, ne_name (by rw [length_65]; decide)⟩
  D k u := ⟨padded 0x36 k ++ (u.toList ++ [0x02]), by rw [length_97]; omega, ne_name (by rw [length_97]; decide)⟩
  E k := ⟨padded 0x36 k ++ [], by rw [length_64]; omega, ne_name (by rw [length_64]; decide)⟩
  ck p := p.1.1
  bad := NX.zeros
  start := h0
  head x := some (headOf x.1)
  tail x := some (keyIn (x.1.drop 64))
  kind x := kind x.1
  A_inj p q h := by
    have h := congrArg Subtype.val h
    simp only at h
    have h1 := keyIn_padded 0x36 p.1.1 p.1.2.toList
    have h2 := drop_padded 0x36 p.1.1 p.1.2
    rw [h, keyIn_padded] at h1
    rw [h, drop_padded] at h2
    exact Subtype.ext (Prod.ext h1.symm h2.symm)
  head_B k u := by
    simp only [headOf, kindOf_B]
    exact congrArg some (keyIn_padded _ _ _)
  tail_B k u := congrArg some (drop_padded _ _ _)
  head_C k := by
    simp only [headOf, kindOf_C]
    exact congrArg some (keyIn_padded _ _ _)
  head_D k u := by
    simp only [headOf, kindOf_D]
    exact congrArg some (keyIn_padded _ _ _)
  head_E k := by
    simp only [headOf, kindOf_E]
    exact congrArg some (keyIn_padded _ _ _)
  kind_A p := by rw [kind, if_neg (by rw [length_96]; decide)]; exact kindOf_A _ _
  kind_B k u := by rw [kind, if_neg (by rw [length_96]; decide)]; exact kindOf_B _ _
  kind_C k := by rw [kind, if_neg (by rw [length_65]; decide)]; exact kindOf_C _
  kind_D k u := by rw [kind, if_neg (by rw [length_97]; decide)]; exact kindOf_D _ _
  kind_E k := by rw [kind, if_pos (length_64 _ _)]

/-! ## Hashing and mixing -/

section
variable {M : Nat} (far : Bytes → Arr 32) (h0 : Arr 32) (D : List (Arr 32))

def hashJob (x : Bytes) : Job M h0 D (Arr 32) :=
  if hn : x = nameBytes then .ret h0 else if h : x.length ≤ M then .hash ⟨x, h, hn⟩ .ret else .ret (far x)

def hmacJob (k : Arr 32) (data : Bytes) : Job M h0 D (Arr 32) :=
  (hashJob far h0 D (padded 0x36 k ++ data)).bind fun v => hashJob far h0 D (padded 0x5c k ++ v.toList)

def hkdfJob (ck : Arr 32) (ikm : Bytes) : Job M h0 D (Arr 32 × Arr 32) :=
  (hmacJob far h0 D ck ikm).bind fun t => (hmacJob far h0 D t [0x01]).bind fun o =>
    (hmacJob far h0 D t (o.toList ++ [0x02])).bind fun k => .ret (o, k)

/-- Mixes the first shared secret in: the chaining key, the blocks of the key, and whether the key is not zero. -/
def eeJob (d : Arr 32) : Job M h0 D (Arr 32 × KeyRow × Bool) :=
  (hkdfJob far h0 D h0 d.toList).bind fun x => .row x.2 fun r => .ret (x.1, r, x.2 ≠ NX.zeros)

/-- Mixes the second one in: the blocks of the key and, in a chain, of the session keys. -/
def esJob (ck d : Arr 32) : Job M h0 D ((Fin 3 → KeyRow) × Bool) :=
  if h : d ∈ D ∧ ck ≠ h0 then .mix ⟨(ck, d), h⟩ fun r b => .ret (r, b)
  else (hkdfJob far h0 D ck d.toList).bind fun x => .row x.2 fun r => .ret (fun _ => r, x.2 ≠ NX.zeros)

/-- Mixes parts into the handshake hash. -/
def foldJob : Arr 32 → List Bytes → Job M h0 D (Arr 32)
  | h, [] => .ret h
  | h, d :: ds => (hashJob far h0 D (h.toList ++ d)).bind fun h' => foldJob h' ds

/-! ## How often they ask -/

variable {α β : Type}

/-- At most `n` questions. -/
def Calls (n : Nat) (m : Job M h0 D α) : Prop := ∀ w, (m.log w).length ≤ n

variable {h0 D}

theorem Calls.bind {a b : Nat} {m : Job M h0 D α} {f : α → Job M h0 D β} (hm : Calls h0 D a m) (hf : ∀ x, Calls h0 D b (f x)) :
    Calls h0 D (a + b) (m.bind f) := by
  intro w
  rw [Prog.log_bind, List.length_append]
  exact Nat.add_le_add (hm w) (hf _ w)

theorem Calls.mono {a b : Nat} {m : Job M h0 D α} (h : Calls h0 D a m) (hab : a ≤ b) : Calls h0 D b m :=
  fun w => (h w).trans hab

theorem Calls.ret (a : α) : Calls (M := M) h0 D 0 (.ret a) := fun _ => Nat.le_refl _

variable (h0 D)

theorem hashJob_calls (x : Bytes) : Calls (M := M) h0 D 1 (hashJob far h0 D x) := by
  intro w
  unfold hashJob
  split
  · exact Nat.zero_le _
  · split
    · exact Nat.le_refl _
    · exact Nat.zero_le _

theorem hmacJob_calls (k : Arr 32) (x : Bytes) : Calls (M := M) h0 D 2 (hmacJob far h0 D k x) :=
  (hashJob_calls far h0 D _).bind fun _ => hashJob_calls far h0 D _

theorem hkdfJob_calls (k : Arr 32) (x : Bytes) : Calls (M := M) h0 D 6 (hkdfJob far h0 D k x) :=
  ((hmacJob_calls far h0 D _ _).bind fun _ => (hmacJob_calls far h0 D _ _).bind fun _ => (hmacJob_calls far h0 D _ _).bind fun _ =>
    Calls.ret _).mono (by omega)

theorem eeJob_calls (d : Arr 32) : Calls (M := M) h0 D 7 (eeJob far h0 D d) :=
  ((hkdfJob_calls far h0 D _ _).bind (b := 1) fun _ w => Nat.le_refl _).mono (by omega)

theorem esJob_calls (ck d : Arr 32) : Calls (M := M) h0 D 7 (esJob far h0 D ck d) := by
  unfold esJob
  split
  · intro w
    show 1 ≤ 7
    omega
  · refine ((hkdfJob_calls far h0 D _ _).bind (b := 1) fun _ w => ?_).mono (by omega)
    exact Nat.le_refl _

theorem foldJob_calls (ds : List Bytes) (h : Arr 32) : Calls (M := M) h0 D ds.length (foldJob far h0 D h ds) := by
  induction ds generalizing h with
  | nil => exact Calls.ret _
  | cons d ds ih => exact ((hashJob_calls far h0 D _).bind fun _ => ih _).mono (by simp only [List.length_cons]; omega)

end

/-! ## What they compute -/

/-- The hash function without the name. -/
def cut {M : Nat} (H : Hashes M) (x : Ask M) : Arr 32 := H ⟨x.1, x.2.1⟩

/-- The real world with this hash function and these blocks. -/
noncomputable def world {M : Nat} (hM : 97 ≤ M) (H : Hashes M) (blocks : Blocks) (h0 : Arr 32) (D : List (Arr 32)) :
    World (Ask M) (Arr 32) (Deep h0 D) KeyRow := real (shape hM h0 D) (cut H) fun k x => blocks (k, x.1, x.2)

/-- It was asked for, or is the name. -/
def Logged {M : Nat} {h0 : Arr 32} {D : List (Arr 32)} (L : Log M h0 D) (x : Bytes) : Prop :=
  x = nameBytes ∨ ∃ h : x.length ≤ M ∧ x ≠ nameBytes, .hash ⟨x, h⟩ ∈ L

/-- Not the first input of a chain. -/
def Unlike (h0 : Arr 32) (D : List (Arr 32)) (x : Bytes) : Prop := ∀ ck, ck ≠ h0 → ∀ d ∈ D, x ≠ padded 0x36 ck ++ d.toList

/-- All that is hashed has this property. -/
def Asks {M : Nat} {h0 : Arr 32} {D : List (Arr 32)} (L : Log M h0 D) (φ : Bytes → Prop) : Prop := ∀ y, .hash y ∈ L → φ y.1

section
variable {M : Nat} {h0 : Arr 32} {D : List (Arr 32)}

theorem Asks.append {L L' : Log M h0 D} {φ : Bytes → Prop} (h : Asks L φ) (h' : Asks L' φ) :
    Asks (L ++ L') φ := by
  intro y hy
  rcases List.mem_append.mp hy with hy | hy
  · exact h y hy
  · exact h' y hy

theorem Asks.nil {φ : Bytes → Prop} : Asks ([] : Log M h0 D) φ := fun _ h => by cases h

theorem Asks.row {φ : Bytes → Prop} (k : Arr 32) : Asks ([.row k] : Log M h0 D) φ := fun _ h => by
  cases h with
  | tail _ h => cases h

theorem Asks.mix {φ : Bytes → Prop} (p : Deep h0 D) : Asks ([.mix p] : Log M h0 D) φ := fun _ h => by
  cases h with
  | tail _ h => cases h

theorem Asks.mono {L : Log M h0 D} {φ ψ : Bytes → Prop} (h : Asks L φ) (hi : ∀ x, φ x → ψ x) :
    Asks L ψ := fun y hy => hi _ (h y hy)

theorem Logged.mono {L L' : Log M h0 D} {x : Bytes} (h : Logged L x) (hs : L ⊆ L') : Logged L' x := by
  rcases h with h | ⟨h, hx⟩
  · exact .inl h
  · exact .inr ⟨h, hs hx⟩

theorem unlike_inner {k : Arr 32} {x : Bytes} (h : k ≠ h0 → ∀ d ∈ D, x ≠ d.toList) : Unlike h0 D (padded 0x36 k ++ x) := by
  intro ck hck d hd e
  obtain ⟨e1, e2⟩ := List.append_inj e (by rw [padded_length, padded_length])
  refine h ?_ d hd e2
  have := congrArg (fun l => keyIn (l.map (· ^^^ 0x36))) e
  simp only [keyIn_padded] at this
  rw [this]
  exact hck

theorem unlike_outer {k : Arr 32} {x : Bytes} : Unlike h0 D (padded 0x5c k ++ x) := by
  intro ck _ d _ e
  have := congrArg (fun l => l.getD 32 0) e
  simp only [padded_at] at this
  exact absurd this (by decide)

end

section
variable {M : Nat} (hM : 97 ≤ M) {far : Bytes → Arr 32} {h0 : Arr 32} (D : List (Arr 32)) (P : Prims) (H : Hashes M)
variable (blocks : Blocks) {Q : Prims} (hQ : Q = P.withHash (H.at far)) (hh : NX.h0 Q = h0)

include hQ in
theorem hash_eq (x : Bytes) : Q.hash x = H.at far x := by rw [hQ]; rfl

include hQ in
theorem hash_short {x : Bytes} (h : x.length ≤ M) : Q.hash x = H ⟨x, h⟩ := by rw [hash_eq P H hQ]; exact dif_pos h

include hQ hh

theorem run_hashJob (x : Bytes) : (hashJob far h0 D x).run (world hM H blocks h0 D) = Q.hash x := by
  unfold hashJob
  split
  · next h =>
    subst h
    exact hh.symm
  · rw [hash_eq P H hQ]
    unfold Hashes.at
    split <;> rfl

omit hQ hh in
theorem asks_hashJob {x : Bytes} {φ : Bytes → Prop} (h : φ x) : Asks ((hashJob far h0 D x).log (world hM H blocks h0 D)) φ := by
  intro y hy
  unfold hashJob at hy
  split at hy
  · cases hy
  · split at hy
    · cases hy with
      | head => exact h
      | tail _ hy => cases hy
    · cases hy

omit hQ hh in
theorem logged_hashJob {x : Bytes} (hx : x.length ≤ M) {L : Log M h0 D}
    (hL : (hashJob far h0 D x).log (world hM H blocks h0 D) ⊆ L) : Logged L x := by
  by_cases hn : x = nameBytes
  · exact .inl hn
  · refine .inr ⟨⟨hx, hn⟩, hL ?_⟩
    unfold hashJob
    rw [dif_neg hn, dif_pos hx]
    exact List.mem_cons_self

theorem run_hmacJob (k : Arr 32) (x : Bytes) :
    (hmacJob far h0 D k x).run (world hM H blocks h0 D) = NX.hmac Q k x := by
  unfold hmacJob
  rw [Prog.run_bind, run_hashJob hM D P H blocks hQ hh, run_hashJob hM D P H blocks hQ hh]
  rfl

theorem run_hkdfJob (k : Arr 32) (x : Bytes) :
    (hkdfJob far h0 D k x).run (world hM H blocks h0 D) = NX.hkdf Q k x := by
  unfold hkdfJob
  rw [Prog.run_bind, run_hmacJob hM D P H blocks hQ hh, Prog.run_bind, run_hmacJob hM D P H blocks hQ hh, Prog.run_bind,
    run_hmacJob hM D P H blocks hQ hh]
  rfl

theorem logged_hkdfJob (ck d : Arr 32) {L : Log M h0 D}
    (hL : (hkdfJob far h0 D ck d.toList).log (world hM H blocks h0 D) ⊆ L) :
    Logged L (padded 0x36 ck ++ d.toList) ∧ Logged L (padded 0x5c ck ++ (Q.hash (padded 0x36 ck ++ d.toList)).toList) ∧
      Logged L (padded 0x5c (NX.hmac Q ck d.toList) ++ (Q.hash (padded 0x36 (NX.hmac Q ck d.toList) ++ [0x01])).toList) := by
  have l1 : ∀ (c : UInt8) (k u : Arr 32), (padded c k ++ u.toList).length ≤ M := by
    intro c k u
    rw [length_96]
    omega
  unfold hkdfJob at hL
  rw [Prog.log_bind, run_hmacJob hM D P H blocks hQ hh, Prog.log_bind, run_hmacJob hM D P H blocks hQ hh] at hL
  obtain ⟨g3, g4⟩ := List.append_subset.mp hL
  obtain ⟨g5, -⟩ := List.append_subset.mp g4
  unfold hmacJob at g3 g5
  rw [Prog.log_bind, run_hashJob hM D P H blocks hQ hh] at g3 g5
  obtain ⟨a1, a2⟩ := List.append_subset.mp g3
  obtain ⟨-, b2⟩ := List.append_subset.mp g5
  exact ⟨logged_hashJob hM D H blocks (l1 _ _ _) a1, logged_hashJob hM D H blocks (l1 _ _ _) a2,
    logged_hashJob hM D H blocks (l1 _ _ _) b2⟩

omit hQ hh in
theorem asks_hmacJob {k : Arr 32} {x : Bytes} (h : k ≠ h0 → ∀ d ∈ D, x ≠ d.toList) :
    Asks ((hmacJob far h0 D k x).log (world hM H blocks h0 D)) (Unlike h0 D) := by
  unfold hmacJob
  rw [Prog.log_bind]
  exact (asks_hashJob hM D H blocks (unlike_inner h)).append (asks_hashJob hM D H blocks unlike_outer)

omit hQ hh in
theorem asks_hkdfJob {k : Arr 32} {x : Bytes} (h : k ≠ h0 → ∀ d ∈ D, x ≠ d.toList) :
    Asks ((hkdfJob far h0 D k x).log (world hM H blocks h0 D)) (Unlike h0 D) := by
  have hl : ∀ (k : Arr 32) (x : Bytes), x.length ≠ 32 → k ≠ h0 → ∀ d ∈ D, x ≠ d.toList := fun _ x hx _ d _ e => hx (by rw [e, d.len])
  unfold hkdfJob
  rw [Prog.log_bind, Prog.log_bind, Prog.log_bind]
  refine (asks_hmacJob hM D H blocks h).append ((asks_hmacJob hM D H blocks (hl _ _ (by decide))).append
    ((asks_hmacJob hM D H blocks (hl _ _ ?_)).append Asks.nil))
  rw [List.length_append, Arr.len]
  decide

/-- What is in the log when the first shared secret was mixed in. -/
structure EeLogged (L : Log M h0 D) (Q : Prims) (d : Arr 32) : Prop where
  inner : Logged L (padded 0x36 h0 ++ d.toList)
  temp : Logged L (padded 0x5c h0 ++ (Q.hash (padded 0x36 h0 ++ d.toList)).toList)
  out : Logged L (padded 0x5c (NX.hmac Q h0 d.toList) ++
    (Q.hash (padded 0x36 (NX.hmac Q h0 d.toList) ++ [0x01])).toList)
  row : .row (NX.afterEE Q d).2 ∈ L

theorem eeJob_spec (d : Arr 32) {L : Log M h0 D} (hL : (eeJob far h0 D d).log (world hM H blocks h0 D) ⊆ L) :
    (eeJob far h0 D d).run (world hM H blocks h0 D) = ((NX.afterEE Q d).1, (fun x => blocks ((NX.afterEE Q d).2, x.1, x.2)),
      decide ((NX.afterEE Q d).2 ≠ NX.zeros)) ∧
    EeLogged D L Q d ∧ Asks ((eeJob far h0 D d).log (world hM H blocks h0 D)) (Unlike h0 D) := by
  have hr := run_hkdfJob hM D P H blocks hQ hh h0 d.toList
  have e : NX.afterEE Q d = NX.hkdf Q h0 d.toList := by rw [← hh]; rfl
  unfold eeJob at hL ⊢
  rw [Prog.log_bind, hr] at hL
  obtain ⟨g1, g2⟩ := List.append_subset.mp hL
  rw [Prog.run_bind, Prog.log_bind, hr]
  refine ⟨by rw [e]; rfl, ?_, (asks_hkdfJob hM D H blocks fun h => absurd rfl h).append (Asks.row _)⟩
  obtain ⟨a1, a2, a3⟩ := logged_hkdfJob hM D P H blocks hQ hh _ _ g1
  exact ⟨a1, a2, a3, by rw [e]; exact g2 List.mem_cons_self⟩

omit hh in
/-- The chain is HKDF, twice. -/
theorem chain_hkdf (p : Deep h0 D) :
    ((shape hM h0 D).chain (cut H) p 3, (shape hM h0 D).chain (cut H) p 5) = NX.hkdf Q p.1.1 p.1.2.toList ∧
    ((shape hM h0 D).chain (cut H) p 9, (shape hM h0 D).chain (cut H) p 11) =
      NX.hkdf Q ((shape hM h0 D).chain (cut H) p 3) [] := by
  have hcut : ∀ x : Ask M, Q.hash x.1 = cut H x := fun x => hash_short P H hQ x.2.1
  have step : ∀ (x : Ask M) (k : Arr 32), Q.hash (padded 0x5c k ++ (Q.hash x.1).toList) = cut H ((shape hM h0 D).B k (cut H x)) := by
    intro x k
    rw [hcut]
    exact hcut ((shape hM h0 D).B k (cut H x))
  have h1 : NX.hmac Q p.1.1 p.1.2.toList = (shape hM h0 D).chain (cut H) p 1 := step ((shape hM h0 D).A p) _
  have h2 : NX.hmac Q ((shape hM h0 D).chain (cut H) p 1) [0x01] = (shape hM h0 D).chain (cut H) p 3 :=
    step ((shape hM h0 D).C _) _
  have h3 : NX.hmac Q ((shape hM h0 D).chain (cut H) p 1) (((shape hM h0 D).chain (cut H) p 3).toList ++ [0x02]) =
      (shape hM h0 D).chain (cut H) p 5 := step ((shape hM h0 D).D _ _) _
  have g1 : NX.hmac Q ((shape hM h0 D).chain (cut H) p 3) [] = (shape hM h0 D).chain (cut H) p 7 := step ((shape hM h0 D).E _) _
  have g2 : NX.hmac Q ((shape hM h0 D).chain (cut H) p 7) [0x01] = (shape hM h0 D).chain (cut H) p 9 :=
    step ((shape hM h0 D).C _) _
  have g3 : NX.hmac Q ((shape hM h0 D).chain (cut H) p 7) (((shape hM h0 D).chain (cut H) p 9).toList ++ [0x02]) =
      (shape hM h0 D).chain (cut H) p 11 := step ((shape hM h0 D).D _ _) _
  unfold NX.hkdf
  simp only [h1, h2, h3, g1, g2, g3, and_self]

/-- The three keys of a chain. -/
def keysOf (Q : Prims) (ck d : Arr 32) : Fin 3 → Arr 32
  | 0 => (NX.hkdf Q ck d.toList).2
  | 1 => (NX.hkdf Q (NX.hkdf Q ck d.toList).1 []).1
  | 2 => (NX.hkdf Q (NX.hkdf Q ck d.toList).1 []).2

omit hh in
theorem chain_keys (p : Deep h0 D) (j : Fin 3) : (shape hM h0 D).chain (cut H) p (keyAt j) = keysOf Q p.1.1 p.1.2 j := by
  obtain ⟨e1, e2⟩ := chain_hkdf hM D P H hQ p
  have a := congrArg Prod.fst e1
  have b := congrArg Prod.snd e1
  simp only at a b
  rw [a] at e2
  fin_cases j
  · exact b
  · exact congrArg Prod.fst e2
  · exact congrArg Prod.snd e2

/-- What is in the log when the second shared secret was mixed in. -/
structure EsLogged (L : Log M h0 D) (Q : Prims) (ck d : Arr 32) : Prop where
  hidden : ∀ h : d ∈ D ∧ ck ≠ h0, .mix ⟨(ck, d), h⟩ ∈ L
  row : ¬ (d ∈ D ∧ ck ≠ h0) → .row (keysOf Q ck d 0) ∈ L

theorem esJob_spec (ck d : Arr 32) {L : Log M h0 D} (hL : (esJob far h0 D ck d).log (world hM H blocks h0 D) ⊆ L) :
    (((esJob far h0 D ck d).run (world hM H blocks h0 D)).1 0 = (fun x => blocks (keysOf Q ck d 0, x.1, x.2)) ∧
      ((esJob far h0 D ck d).run (world hM H blocks h0 D)).2 = decide (keysOf Q ck d 0 ≠ NX.zeros)) ∧
    (d ∈ D ∧ ck ≠ h0 → ((esJob far h0 D ck d).run (world hM H blocks h0 D)).1 = fun j x => blocks (keysOf Q ck d j, x.1, x.2)) ∧
    EsLogged D L Q ck d ∧ Asks ((esJob far h0 D ck d).log (world hM H blocks h0 D)) (Unlike h0 D) := by
  by_cases h : d ∈ D ∧ ck ≠ h0
  · have e := chain_keys hM D P H hQ ⟨(ck, d), h⟩
    have e' : (fun (j : Fin 3) (x : Arr 12 × Fin 1025) => blocks (keysOf Q ck d j, x.1, x.2)) =
        fun j x => blocks ((shape hM h0 D).chain (cut H) ⟨(ck, d), h⟩ (keyAt j), x.1, x.2) := by
      funext j x
      rw [e j]
    have hr : (esJob far h0 D ck d).run (world hM H blocks h0 D) =
        (fun j x => blocks (keysOf Q ck d j, x.1, x.2), decide (keysOf Q ck d 0 ≠ NX.zeros)) := by
      unfold esJob
      rw [dif_pos h, e', ← e 0]
      exact Prod.ext rfl (decide_any _ _ _)
    rw [hr]
    have hl : (esJob far h0 D ck d).log (world hM H blocks h0 D) = [.mix ⟨(ck, d), h⟩] := by
      unfold esJob
      rw [dif_pos h]
      rfl
    rw [hl] at hL ⊢
    exact ⟨⟨rfl, rfl⟩, fun _ => rfl, ⟨fun _ => hL List.mem_cons_self, fun g => absurd h g⟩, Asks.mix _⟩
  · unfold esJob at hL ⊢
    have hr := run_hkdfJob hM D P H blocks hQ hh ck d.toList
    rw [dif_neg h, Prog.log_bind, hr] at hL
    rw [dif_neg h, Prog.log_bind, Prog.run_bind, hr]
    obtain ⟨-, g2⟩ := List.append_subset.mp hL
    refine ⟨⟨rfl, rfl⟩, fun g => absurd g h, ⟨fun g => absurd g h, fun _ => g2 List.mem_cons_self⟩,
      (asks_hkdfJob hM D H blocks fun hk d' hd' e => h ⟨?_, hk⟩).append (Asks.row _)⟩
    rw [arr_ext e]
    exact hd'

theorem foldJob_spec (ds : List Bytes) (h : Arr 32) :
    (foldJob far h0 D h ds).run (world hM H blocks h0 D) = ds.foldl (fun h d => Q.hash (h.toList ++ d)) h ∧
    Asks ((foldJob far h0 D h ds).log (world hM H blocks h0 D)) (· ∈ NX.hashInputs Q h ds) ∧
    ((∀ d ∈ ds, d.length + 32 ≤ M) → ∀ {L : Log M h0 D}, (foldJob far h0 D h ds).log (world hM H blocks h0 D) ⊆ L →
      ∀ x ∈ NX.hashInputs Q h ds, Logged L x) := by
  induction ds generalizing h with
  | nil => exact ⟨rfl, Asks.nil, fun _ _ _ x hx => by cases hx⟩
  | cons d ds ih =>
    obtain ⟨i1, i2, i3⟩ := ih (Q.hash (h.toList ++ d))
    unfold foldJob
    rw [Prog.run_bind, Prog.log_bind, run_hashJob hM D P H blocks hQ hh]
    refine ⟨i1, (asks_hashJob hM D H blocks List.mem_cons_self).append (i2.mono fun x hx => List.mem_cons_of_mem _ hx), ?_⟩
    intro hs L hL x hx
    obtain ⟨h1, h2⟩ := List.append_subset.mp hL
    rcases List.mem_cons.mp hx with rfl | hx
    · refine logged_hashJob hM D H blocks ?_ h1
      have := hs d List.mem_cons_self
      rw [List.length_append, Arr.len]
      omega
    · exact i3 (fun d hd => hs d (List.mem_cons_of_mem _ hd)) h2 x hx

end

/-! ## The parties -/

section
variable (P : Prims) {M : Nat} (far : Bytes → Arr 32) (h0 : Arr 32) (D : List (Arr 32))

/-- The second half of a responder's work: it mixes its answer into the handshake hash.  Only the message counts. -/
def finishJob (c : Serving) (r1 r2 : KeyRow) : Job M h0 D (Option Bytes) :=
  (foldJob far h0 D h0 [c.prologue, c.first.take 32, c.first.drop 32, (P.publicOf c.eR).toList]).bind fun t1 =>
  (foldJob far h0 D t1 [encRow P r1 t1.toList (P.publicOf c.sR).toList]).bind fun t2 =>
  (foldJob far h0 D t2 [encRow P r2 t2.toList (body (c.buf.drop 80))]).bind fun _ =>
  .ret (some ((P.publicOf c.eR).toList ++ encRow P r1 t1.toList (P.publicOf c.sR).toList ++
    encRow P r2 t2.toList (body (c.buf.drop 80))))

def servingJob (c : Serving) : Job M h0 D (Option Bytes) :=
  if (48 ≤ c.first.length ∧ c.first.length ≤ 65535) ∧ c.first.take 32 ∉ forbiddenCurveValues ∧
      96 ≤ c.buf.length ∧ c.buf.length ≤ 65535 then
    (eeJob far h0 D (P.dh c.eR (keyIn c.first))).bind fun a =>
    (esJob far h0 D a.1 (P.dh c.sR (keyIn c.first))).bind fun b =>
    if a.2.2 = true ∧ b.2 = true then finishJob P far h0 D c a.2.1 (b.1 0) else .ret none
  else .ret none

theorem finishJob_calls (c : Serving) (r1 r2 : KeyRow) : Calls (M := M) h0 D 6 (finishJob P far h0 D c r1 r2) := by
  have f1 : ∀ h (d : Bytes), Calls (M := M) h0 D 1 (foldJob far h0 D h [d]) := fun h d => foldJob_calls far h0 D [d] h
  have f4 : Calls (M := M) h0 D 4 (foldJob far h0 D h0 [c.prologue, c.first.take 32, c.first.drop 32, (P.publicOf c.eR).toList]) :=
    foldJob_calls far h0 D _ h0
  exact f4.bind (b := 2) fun t1 => (f1 _ _).bind (b := 1) fun t2 => (f1 _ _).bind (b := 0) fun t3 => Calls.ret _

theorem servingJob_calls (c : Serving) : Calls (M := M) h0 D 20 (servingJob P far h0 D c) := by
  unfold servingJob
  split
  · refine ((eeJob_calls far h0 D _).bind fun a => (esJob_calls far h0 D _ _).bind (b := 6) fun b => ?_).mono (by omega)
    split
    · exact finishJob_calls P far h0 D c _ _
    · exact (Calls.ret _).mono (by omega)
  · exact (Calls.ret _).mono (by omega)

/-- An answer with this message. -/
def withSecond (w : Option Bytes) : Option Answer :=
  w.map fun w => ⟨[], NX.zeros, [], [], w, done false EMPTY NX.zeros (NX.zeros, NX.zeros) 1⟩

theorem map_withSecond (w : Option Bytes) : (withSecond w).map Answer.second = w := by
  cases w <;> rfl

def attackJob {α : Type} : Curious α → Job M h0 D α
  | .reply a => .ret a
  | .hash x next => (hashJob far h0 D x).bind fun y => attackJob (next y)
  | .block x next => .row x.1 fun r => attackJob (next (r x.2))
  | .serve c next => (servingJob P far h0 D c).bind fun a => attackJob (next (withSecond a))

theorem attackJob_calls {α : Type} (c : Curious α) (n : Nat) (hn : c.Within M n) :
    Calls (M := M) h0 D (20 * n) (attackJob P far h0 D c) := by
  induction c generalizing n with
  | reply a => exact (Calls.ret _).mono (by omega)
  | hash x next ih =>
    cases n with
    | zero => exact hn.elim
    | succ n => exact ((hashJob_calls far h0 D _).bind fun y => ih y n (hn y)).mono (by omega)
  | block x next ih =>
    cases n with
    | zero => exact hn.elim
    | succ n =>
      intro w
      exact Nat.succ_le_succ (ih _ n (hn _) w) |>.trans (by omega)
  | serve c next ih =>
    cases n with
    | zero => exact hn.elim
    | succ n => exact ((servingJob_calls P far h0 D _).bind fun y => ih _ n (hn.2 _)).mono (by omega)

/-- The client: the server's key, the handshake hash, and the blocks of the session keys. -/
def clientJob (prologue : Bytes) (eI : Arr 32) (first second : Bytes) : Job M h0 D (Arr 32 × Arr 32 × (Fin 3 → KeyRow)) :=
  (eeJob far h0 D (P.dh eI (keyIn second))).bind fun a =>
  (foldJob far h0 D h0 (NX.parts prologue first second)).bind fun t =>
  (esJob far h0 D a.1 (P.dh eI (keyIn (mask ((KeyRow.blocks a.2.1).stream (fun _ _ _ => 0) NX.zeros (NX.nonce 0))
    (body (HandshakeState.partS second)))))).bind fun b =>
  .ret (keyIn (mask ((KeyRow.blocks a.2.1).stream (fun _ _ _ => 0) NX.zeros (NX.nonce 0))
    (body (HandshakeState.partS second))), t, b.1)

theorem clientJob_calls (prologue : Bytes) (eI : Arr 32) (first second : Bytes) :
    Calls (M := M) h0 D 20 (clientJob P far h0 D prologue eI first second) :=
  ((eeJob_calls far h0 D _).bind fun a => (foldJob_calls far h0 D _ _).bind fun b =>
    (esJob_calls far h0 D _ _).bind fun _ => Calls.ret _).mono (by simp [NX.parts])

end

/-! ## What the parties ask, and what comes of it -/

section
variable {M : Nat} (hM : 97 ≤ M) {far : Bytes → Arr 32} {h0 : Arr 32} (D : List (Arr 32)) (P : Prims) (H : Hashes M)
variable (blocks : Blocks) {Q : Prims} (hQ : Q = P.withHash (H.at far)) (hh : NX.h0 Q = h0)
variable (rest : Arr 32 → Arr 12 → Nat → UInt8) (hM' : 65567 ≤ M)

/-- What is in the log of a responder's answer. -/
structure AnswerLogged (L : Log M h0 D) (Q : Prims) (sR : Arr 32) (a : Answer) : Prop where
  ee : EeLogged D L Q (Q.dh a.eR (keyIn a.first))
  es : EsLogged D L Q (NX.afterEE Q (Q.dh a.eR (keyIn a.first))).1 (Q.dh sR (keyIn a.first))
  parts : ∀ x ∈ NX.hashInputs Q (NX.h0 Q) (NX.parts a.prologue a.first a.second), Logged L x

include hQ hh hM'

theorem finishJob_spec (c : Serving) (hc : c.prologue.length + 32 ≤ M) {L : Log M h0 D}
    (ok : c.Ok (Q.withBlocks rest blocks)) {k1 k2 : Arr 32}
    (h1 : (NX.afterEE Q (P.dh c.eR (keyIn c.first))).2 = k1)
    (h2 : (NX.afterES Q (P.dh c.eR (keyIn c.first)) (P.dh c.sR (keyIn c.first))).2 = k2)
    (hL : (finishJob P far h0 D c (fun x => blocks (k1, x.1, x.2)) (fun x => blocks (k2, x.1, x.2))).log
      (world hM H blocks h0 D) ⊆ L) :
    (finishJob P far h0 D c (fun x => blocks (k1, x.1, x.2)) (fun x => blocks (k2, x.1, x.2))).run
      (world hM H blocks h0 D) = some (c.made (Q.withBlocks rest blocks)).second ∧
    (∀ x ∈ NX.hashInputs Q (NX.h0 Q) (NX.parts c.prologue c.first (c.made (Q.withBlocks rest blocks)).second), Logged L x) ∧
    Asks ((finishJob P far h0 D c (fun x => blocks (k1, x.1, x.2)) (fun x => blocks (k2, x.1, x.2))).log
      (world hM H blocks h0 D))
        (· ∈ NX.hashInputs Q (NX.h0 Q) (NX.parts c.prologue c.first (c.made (Q.withBlocks rest blocks)).second)) := by
  have hfold := fun ds h => (foldJob_spec hM D P H blocks hQ hh ds h).1
  have hask := fun ds h => (foldJob_spec hM D P H blocks hQ hh ds h).2.1
  have hlog : ∀ (ds : List Bytes) (h : Arr 32), (∀ d ∈ ds, d.length + 32 ≤ M) →
      (foldJob far h0 D h ds).log (world hM H blocks h0 D) ⊆ L → ∀ x ∈ NX.hashInputs Q h ds, Logged L x :=
    fun ds h hs hL => (foldJob_spec hM D P H blocks hQ hh ds h).2.2 hs hL
  have hdh : Q.dh = P.dh := by rw [hQ]; rfl
  have hpub : Q.publicOf = P.publicOf := by rw [hQ]; rfl
  have hrow : ∀ r ad p, encRow P r ad p = encRow Q r ad p := fun _ _ _ => rfl
  clear hQ
  obtain ⟨p1, p2, p3⟩ := c.made_parts (P := Q.withBlocks rest blocks)
  have lS := c.encS_length (P := Q.withBlocks rest blocks)
  have lP := c.encP_length (P := Q.withBlocks rest blocks)
  have lP' : (body (c.buf.drop 80)).length ≤ 65439 := by
    have := ok.buf
    simp only [body, List.length_take, List.length_drop]; omega
  have hS : encRow P (fun x => blocks (k1, x.1, x.2)) ([c.prologue, c.first.take 32, c.first.drop 32,
      (P.publicOf c.eR).toList].foldl (fun h d => Q.hash (h.toList ++ d)) h0).toList (P.publicOf c.sR).toList =
      c.encS (Q.withBlocks rest blocks) := by
    rw [hrow, ← enc_eq_encRow Q rest blocks _ _ _ (by rw [Arr.len]; omega), ← hpub]
    have : k1 = (NX.afterEE (Q.withBlocks rest blocks) ((Q.withBlocks rest blocks).dh c.eR (keyIn c.first))).2 := by
      show k1 = (NX.afterEE Q (Q.dh c.eR (keyIn c.first))).2
      rw [hdh, h1]
    rw [this, ← hh]
    rfl
  generalize ht1 : [c.prologue, c.first.take 32, c.first.drop 32,
      (P.publicOf c.eR).toList].foldl (fun h d => Q.hash (h.toList ++ d)) h0 = t1 at hS
  have hP : encRow P (fun x => blocks (k2, x.1, x.2))
      ([c.encS (Q.withBlocks rest blocks)].foldl (fun h d => Q.hash (h.toList ++ d)) t1).toList (body (c.buf.drop 80)) =
      c.encP (Q.withBlocks rest blocks) := by
    rw [hrow, ← enc_eq_encRow Q rest blocks _ _ _ (by omega), ← ht1, ← hpub]
    have : k2 = (NX.afterES (Q.withBlocks rest blocks) ((Q.withBlocks rest blocks).dh c.eR (keyIn c.first))
        ((Q.withBlocks rest blocks).dh c.sR (keyIn c.first))).2 := by
      show k2 = (NX.afterES Q (Q.dh c.eR (keyIn c.first)) (Q.dh c.sR (keyIn c.first))).2
      rw [hdh, h2]
    rw [this, ← hh]
    rfl
  have hfin : (c.made (Q.withBlocks rest blocks)).second = (P.publicOf c.eR).toList ++
      c.encS (Q.withBlocks rest blocks) ++ c.encP (Q.withBlocks rest blocks) := by
    rw [← hpub]
    rfl
  have hin : ∀ x, x ∈ NX.hashInputs Q (NX.h0 Q) (NX.parts c.prologue c.first (c.made (Q.withBlocks rest blocks)).second) ↔
      x ∈ NX.hashInputs Q h0 [c.prologue, c.first.take 32, c.first.drop 32, (P.publicOf c.eR).toList] ∨
      x ∈ NX.hashInputs Q t1 [c.encS (Q.withBlocks rest blocks)] ∨
      x ∈ NX.hashInputs Q ([c.encS (Q.withBlocks rest blocks)].foldl (fun h d => Q.hash (h.toList ++ d)) t1)
        [c.encP (Q.withBlocks rest blocks)] := by
    intro x
    have e1 : NX.parts c.prologue c.first (c.made (Q.withBlocks rest blocks)).second =
        [c.prologue, c.first.take 32, c.first.drop 32, (P.publicOf c.eR).toList] ++
          ([c.encS (Q.withBlocks rest blocks)] ++ [c.encP (Q.withBlocks rest blocks)]) := by
      unfold NX.parts
      rw [p1, p2, p3]
      show [_, _, _, (Q.publicOf c.eR).toList, _, _] = _
      rw [hpub]
      rfl
    rw [e1, hh, hashInputs_after, hashInputs_after, List.mem_append, List.mem_append, ht1]
  unfold finishJob at hL ⊢
  simp only [Prog.run_bind, Prog.log_bind, hfold, ht1, hS, hP] at hL ⊢
  obtain ⟨l3, hL⟩ := List.append_subset.mp hL
  obtain ⟨l4, hL⟩ := List.append_subset.mp hL
  obtain ⟨l5, -⟩ := List.append_subset.mp hL
  refine ⟨?_, fun x hx => ?_, ?_⟩
  · rw [hfin]
    rfl
  · rcases (hin x).mp hx with hx | hx | hx
    · refine hlog _ _ ?_ l3 x hx
      intro d hd
      simp only [List.mem_cons, List.not_mem_nil, or_false] at hd
      rcases hd with rfl | rfl | rfl | rfl
      · exact hc
      · rw [List.length_take]; omega
      · have := ok.first
        rw [List.length_drop]; omega
      · rw [Arr.len]; omega
    · refine hlog _ _ ?_ l4 x hx
      intro d hd
      obtain rfl := List.mem_singleton.mp hd
      omega
    · refine hlog _ _ ?_ l5 x hx
      intro d hd
      obtain rfl := List.mem_singleton.mp hd
      omega
  · exact ((hask _ _).mono fun x hx => (hin x).mpr (.inl hx)).append
      (((hask _ _).mono fun x hx => (hin x).mpr (.inr (.inl hx))).append
      (((hask _ _).mono fun x hx => (hin x).mpr (.inr (.inr hx))).append Asks.nil))

theorem servingJob_spec (c : Serving) (hc : c.prologue.length + 32 ≤ M) {L : Log M h0 D}
    (hL : (servingJob P far h0 D c).log (world hM H blocks h0 D) ⊆ L) :
    (servingJob P far h0 D c).run (world hM H blocks h0 D) = (c.answer (Q.withBlocks rest blocks)).map Answer.second ∧
    (∀ a, c.answer (Q.withBlocks rest blocks) = some a → AnswerLogged D L Q c.sR a) ∧
    Asks ((servingJob P far h0 D c).log (world hM H blocks h0 D)) fun x => Unlike h0 D x ∨
      ∃ a, c.answer (Q.withBlocks rest blocks) = some a ∧
        x ∈ NX.hashInputs Q (NX.h0 Q) (NX.parts a.prologue a.first a.second) := by
  have none : ¬ c.Ok (Q.withBlocks rest blocks) → c.answer (Q.withBlocks rest blocks) = none := by
    intro hQ
    rcases ha : c.answer (Q.withBlocks rest blocks) with _ | a
    · rfl
    · exact absurd ((c.answer_iff a).mp ha).1 hQ
  have hdh : Q.dh = P.dh := by rw [hQ]; rfl
  have hee := fun d (h : (eeJob far h0 D d).log (world hM H blocks h0 D) ⊆ L) => eeJob_spec hM D P H blocks hQ hh d h
  have hes := fun ck d (h : (esJob far h0 D ck d).log (world hM H blocks h0 D) ⊆ L) => esJob_spec hM D P H blocks hQ hh ck d h
  have hfin := fun ok => finishJob_spec hM D P H blocks hQ hh rest hM' c hc (L := L) ok rfl rfl
  clear hQ
  unfold servingJob at hL ⊢
  split at hL
  case isFalse h =>
    have hn := none fun ok => h ⟨ok.first, ok.key, ok.buf⟩
    rw [if_neg h, hn]
    exact ⟨rfl, fun a ha => (Option.some_ne_none a ha.symm).elim, Asks.nil⟩
  case isTrue h =>
    rw [if_pos h]
    rw [Prog.log_bind, Prog.log_bind] at hL
    obtain ⟨l1, hL⟩ := List.append_subset.mp hL
    obtain ⟨l2, hL⟩ := List.append_subset.mp hL
    obtain ⟨m1, g1, a1⟩ := hee _ l1
    rw [m1] at l2
    obtain ⟨⟨m2, m3⟩, -, g2, a2⟩ := hes _ _ l2
    rw [m1, m2, m3] at hL
    rw [Prog.run_bind, m1, Prog.run_bind, m2, m3, Prog.log_bind, m1, Prog.log_bind, m2, m3]
    have hk2 : (NX.afterES Q (P.dh c.eR (keyIn c.first)) (P.dh c.sR (keyIn c.first))).2 =
      keysOf Q (NX.afterEE Q (P.dh c.eR (keyIn c.first))).1 (P.dh c.sR (keyIn c.first)) 0 := rfl
    rw [hk2] at hfin
    have hok : (NX.afterEE Q (P.dh c.eR (keyIn c.first))).2 ≠ NX.zeros ∧
        keysOf Q (NX.afterEE Q (P.dh c.eR (keyIn c.first))).1 (P.dh c.sR (keyIn c.first)) 0 ≠ NX.zeros ↔
        c.Ok (Q.withBlocks rest blocks) := by
      rw [← hk2, ← hdh]
      exact ⟨fun k => ⟨h.1, h.2.1, h.2.2, k.1, k.2⟩, fun ok => ⟨ok.k1, ok.k2⟩⟩
    have g1' : ∀ a : Answer, a.eR = c.eR → a.first = c.first → EeLogged D L Q (Q.dh a.eR (keyIn a.first)) := by
      intro a e1 e2
      rw [e1, e2, hdh]
      exact g1
    have g2' : ∀ a : Answer, a.eR = c.eR → a.first = c.first →
        EsLogged D L Q (NX.afterEE Q (Q.dh a.eR (keyIn a.first))).1 (Q.dh c.sR (keyIn a.first)) := by
      intro a e1 e2
      rw [e1, e2, hdh]
      exact g2
    clear g1 g2 m1 m2 m3 l1 l2 hk2
    generalize keysOf Q (NX.afterEE Q (P.dh c.eR (keyIn c.first))).1 (P.dh c.sR (keyIn c.first)) 0 = kk2 at *
    generalize NX.afterEE Q (P.dh c.eR (keyIn c.first)) = kk1 at *
    by_cases hk : kk1.2 ≠ NX.zeros ∧ kk2 ≠ NX.zeros
    · rw [decide_eq_true hk.1, decide_eq_true hk.2] at hL ⊢
      simp only [and_self, if_true] at hL ⊢
      have ok := hok.mp hk
      have ans := (c.answer_iff _).mpr ⟨ok, rfl⟩
      obtain ⟨e1, e2, e3⟩ := hfin ok hL
      refine ⟨e1.trans (by rw [ans]; rfl), ?_, (a1.mono fun x hx => Or.inl hx).append
        ((a2.mono fun x hx => Or.inl hx).append (e3.mono fun x hx => .inr ⟨_, ans, hx⟩))⟩
      intro a ha
      obtain rfl := Option.some.inj (ans.symm.trans ha)
      exact ⟨g1' _ rfl rfl, g2' _ rfl rfl, e2⟩
    · have hn := none fun ok => hk (hok.mpr ok)
      have hk' : ¬ (decide (kk1.2 ≠ NX.zeros) = true ∧ decide (kk2 ≠ NX.zeros) = true) := by
        rw [decide_eq_true_iff, decide_eq_true_iff]; exact hk
      rw [if_neg hk']
      refine ⟨by rw [hn]; rfl, fun a ha => ?_, (a1.mono fun x hx => Or.inl hx).append
        ((a2.mono fun x hx => Or.inl hx).append Asks.nil)⟩
      rw [hn] at ha
      exact (Option.some_ne_none a ha.symm).elim

theorem attackJob_spec {α : Type} (c : Curious α) (n : Nat) (hc : c.Within M n) (hb : c.Blind) {L : Log M h0 D}
    (hL : (attackJob P far h0 D c).log (world hM H blocks h0 D) ⊆ L) :
    (attackJob P far h0 D c).run (world hM H blocks h0 D) = (c.play Q rest blocks).result ∧
    (∀ k ∈ (c.play Q rest blocks).keys, .row k ∈ L) ∧
    (∀ s ∈ (c.play Q rest blocks).served, AnswerLogged D L Q s.1 s.2) ∧
    Asks ((attackJob P far h0 D c).log (world hM H blocks h0 D)) fun x => Unlike h0 D x ∨ x ∈ (c.play Q rest blocks).asked Q := by
  induction c generalizing n with
  | reply a => exact ⟨rfl, fun k hk => (List.not_mem_nil hk).elim, fun s hs => (List.not_mem_nil hs).elim, Asks.nil⟩
  | hash x next ih =>
    cases n with
    | zero => exact hc.elim
    | succ n =>
      simp only [attackJob, Prog.log_bind, Prog.run_bind, run_hashJob hM D P H blocks hQ hh] at hL ⊢
      obtain ⟨l1, l2⟩ := List.append_subset.mp hL
      obtain ⟨e1, e2, e3, e4⟩ := ih _ n (hc _) (hb _) l2
      rw [e1]
      refine ⟨rfl, e2, e3, ?_⟩
      refine (asks_hashJob hM D H blocks (.inr (List.mem_append_left _ List.mem_cons_self))).append (e4.mono ?_)
      rintro y (h | h)
      · exact .inl h
      · refine .inr ?_
        rcases List.mem_append.mp h with h | h
        · exact List.mem_append_left _ (List.mem_cons_of_mem _ h)
        · exact List.mem_append_right _ h
  | block x next ih =>
    cases n with
    | zero => exact hc.elim
    | succ n =>
      simp only [attackJob, Prog.log, Prog.run] at hL ⊢
      obtain ⟨l1, l2⟩ := List.cons_subset.mp hL
      obtain ⟨e1, e2, e3, e4⟩ := ih ((world hM H blocks h0 D).row x.1 x.2) n (hc _) (hb _) l2
      rw [e1]
      refine ⟨rfl, ?_, e3, ?_⟩
      · intro k hk
        rcases List.mem_cons.mp hk with rfl | hk
        · exact l1
        · exact e2 k hk
      · intro y hy
        simp only [List.mem_cons, reduceCtorEq, false_or] at hy
        exact e4 y hy
  | serve c next ih =>
    cases n with
    | zero => exact hc.elim
    | succ n =>
      simp only [attackJob, Prog.log_bind, Prog.run_bind] at hL ⊢
      obtain ⟨l1, l2⟩ := List.append_subset.mp hL
      obtain ⟨s1, s2, s3⟩ := servingJob_spec hM D P H blocks hQ hh rest hM' c hc.1 l1
      rw [s1, hb.2 _ (c.answer (Q.withBlocks rest blocks)) (map_withSecond _)] at l2 ⊢
      obtain ⟨e1, e2, e3, e4⟩ := ih _ n (hc.2 _) (hb.1 _) l2
      rw [e1]
      refine ⟨rfl, e2, ?_, ?_⟩
      · intro s hs
        simp only [Curious.play, List.mem_append, Option.mem_toList, Option.map_eq_some_iff] at hs
        rcases hs with ⟨a, ha, rfl⟩ | hs
        · exact s2 a ha
        · exact e3 s hs
      · refine (s3.mono ?_).append (e4.mono ?_)
        · rintro y (h | ⟨a, ha, h⟩)
          · exact .inl h
          · refine .inr (List.mem_append_right _ (List.mem_flatMap.mpr ⟨(c.sR, a), ?_, h⟩))
            simp only [Curious.play, ha, Option.map_some, Option.toList_some]
            exact List.mem_append_left _ List.mem_cons_self
        · rintro y (h | h)
          · exact .inl h
          · refine .inr ?_
            rcases List.mem_append.mp h with h | h
            · exact List.mem_append_left _ h
            · obtain ⟨s, hs, h⟩ := List.mem_flatMap.mp h
              exact List.mem_append_right _ (List.mem_flatMap.mpr ⟨s, List.mem_append_right _ hs, h⟩)

theorem clientJob_spec (prologue : Bytes) (eI : Arr 32) (first second : Bytes) {rs : Arr 32}
    (hrs : rs = staticIn Q (blocks.stream rest) eI second) {L : Log M h0 D}
    (hL : (clientJob P far h0 D prologue eI first second).log (world hM H blocks h0 D) ⊆ L) :
    (Q.dh eI rs ∈ D ∧ (NX.afterEE Q (Q.dh eI (keyIn second))).1 ≠ h0 →
      (clientJob P far h0 D prologue eI first second).run (world hM H blocks h0 D) =
        (rs, NX.transcript Q (NX.parts prologue first second), fun j x => blocks (keysOf Q
          (NX.afterEE Q (Q.dh eI (keyIn second))).1 (Q.dh eI rs) j, x.1, x.2))) ∧
    EeLogged D L Q (Q.dh eI (keyIn second)) ∧ EsLogged D L Q (NX.afterEE Q (Q.dh eI (keyIn second))).1 (Q.dh eI rs) ∧
    (prologue.length + 32 ≤ M → first.length ≤ 65535 → second.length ≤ 65535 →
      ∀ x ∈ NX.hashInputs Q (NX.h0 Q) (NX.parts prologue first second), Logged L x) ∧
    Asks ((clientJob P far h0 D prologue eI first second).log (world hM H blocks h0 D)) fun x => Unlike h0 D x ∨
      x ∈ NX.hashInputs Q (NX.h0 Q) (NX.parts prologue first second) := by
  have hdh : Q.dh = P.dh := by rw [hQ]; rfl
  have hee := fun d (h : (eeJob far h0 D d).log (world hM H blocks h0 D) ⊆ L) => eeJob_spec hM D P H blocks hQ hh d h
  have hes := fun ck d (h : (esJob far h0 D ck d).log (world hM H blocks h0 D) ⊆ L) => esJob_spec hM D P H blocks hQ hh ck d h
  have hfold := foldJob_spec hM D P H blocks hQ hh (NX.parts prologue first second) h0
  have htr : NX.transcript Q (NX.parts prologue first second) =
      (NX.parts prologue first second).foldl (fun h d => Q.hash (h.toList ++ d)) h0 := by rw [← hh]; rfl
  clear hQ
  have e : rs = keyIn (mask ((KeyRow.blocks fun x => blocks ((NX.afterEE Q
      (P.dh eI (keyIn second))).2, x.1, x.2)).stream (fun _ _ _ => 0) NX.zeros (NX.nonce 0))
      (body (HandshakeState.partS second))) := by
    rw [hrs]
    unfold staticIn
    rw [hdh]
    refine congrArg keyIn (mask_congr fun i hi => stream_row _ _ blocks (KeyRow.blocks fun x => blocks ((NX.afterEE Q
      (P.dh eI (keyIn second))).2, x.1, x.2)) _ _ _ (fun _ => rfl) ?_)
    have : (body (HandshakeState.partS second)).length ≤ 48 := by
      simp only [body, HandshakeState.partS, List.length_take, List.length_drop]; omega
    omega
  unfold clientJob at hL ⊢
  rw [Prog.log_bind] at hL
  obtain ⟨l1, hL⟩ := List.append_subset.mp hL
  obtain ⟨m1, g1, a1⟩ := hee _ l1
  rw [m1, Prog.log_bind, Prog.log_bind, ← e] at hL
  obtain ⟨l2, hL⟩ := List.append_subset.mp hL
  obtain ⟨l3, -⟩ := List.append_subset.mp hL
  obtain ⟨-, m3, g2, a2⟩ := hes _ _ l3
  rw [Prog.run_bind, m1, Prog.run_bind, hfold.1, Prog.run_bind, Prog.log_bind, m1, Prog.log_bind, Prog.log_bind, ← e, hdh, hh]
  refine ⟨fun h => ?_, g1, g2, fun hp hf hs => hfold.2.2 ?_ l2, (a1.mono fun x hx => Or.inl hx).append
    ((hfold.2.1.mono fun x hx => Or.inr hx).append ((a2.mono fun x hx => Or.inl hx).append Asks.nil))⟩
  · rw [m3 h, htr]
    rfl
  · intro d hd
    simp only [NX.parts, List.mem_cons, List.not_mem_nil, or_false] at hd
    rcases hd with rfl | rfl | rfl | rfl | rfl | rfl <;> (try simp only [List.length_take, List.length_drop]) <;> omega

end

end SV2.Noise.Veiled
