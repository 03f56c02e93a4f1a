import Verif.Spec.Oracle
import Verif.Lemmas.Oracle
import Verif.Lemmas.Impersonation
/-!
# The attack as a program

The attacker, the responders and the client as one program in the sense of `Verif/Lemmas/Oracle.lean`: where a shared
secret of the client with a server is mixed into a chaining key, the six hashes are a chain.
-/

namespace SV2.Oracle

variable {X V P R α β : Type}

def Prog.bind : Prog X V P R α → (α → Prog X V P R β) → Prog X V P R β
  | .ret a, f => f a
  | .hash x next, f => .hash x fun v => (next v).bind f
  | .row k next, f => .row k fun r => (next r).bind f
  | .mix p next, f => .mix p fun v r b => (next v r b).bind f

theorem Prog.run_bind (w : World X V P R) (m : Prog X V P R α) (f : α → Prog X V P R β) :
    (m.bind f).run w = (f (m.run w)).run w := by
  induction m with
  | ret a => rfl
  | hash x next ih => exact ih _
  | row k next ih => exact ih _
  | mix p next ih => exact ih _ _ _

theorem Prog.log_bind (w : World X V P R) (m : Prog X V P R α) (f : α → Prog X V P R β) :
    (m.bind f).log w = m.log w ++ (f (m.run w)).log w := by
  induction m with
  | ret a => rfl
  | hash x next ih => exact congrArg _ (ih _)
  | row k next ih => exact congrArg _ (ih _)
  | mix p next ih => exact congrArg _ (ih _ _ _)

open Classical in
/-- It stops where it would ask for the first hash of a chain. -/
noncomputable def Prog.guard (A : P → X) : Prog X V P R α → Prog X V P R (Option α)
  | .ret a => .ret (some a)
  | .hash x next => if ∃ p, A p = x then .ret none else .hash x fun v => (next v).guard A
  | .row k next => .row k fun r => (next r).guard A
  | .mix p next => .mix p fun v r b => (next v r b).guard A

theorem Prog.guard_never (A : P → X) (w : World X V P R) (m : Prog X V P R α) (p : P) : .hash (A p) ∉ (m.guard A).log w := by
  induction m with
  | ret a => exact List.not_mem_nil
  | hash x next ih =>
    unfold Prog.guard
    split
    · exact List.not_mem_nil
    · next h =>
      simp only [Prog.log, List.mem_cons, Event.hash.injEq, not_or]
      exact ⟨fun e => h ⟨p, e⟩, ih _⟩
  | row k next ih =>
    simp only [Prog.guard, Prog.log, List.mem_cons, reduceCtorEq, false_or]
    exact ih _
  | mix q next ih =>
    simp only [Prog.guard, Prog.log, List.mem_cons, reduceCtorEq, false_or]
    exact ih _ _ _

theorem Prog.guard_prefix (A : P → X) (w : World X V P R) (m : Prog X V P R α) : (m.guard A).log w <+: m.log w := by
  induction m with
  | ret a => exact List.prefix_rfl
  | hash x next ih =>
    unfold Prog.guard
    split
    · exact List.nil_prefix
    · exact List.cons_prefix_cons.mpr ⟨rfl, ih _⟩
  | row k next ih => exact List.cons_prefix_cons.mpr ⟨rfl, ih _⟩
  | mix q next ih => exact List.cons_prefix_cons.mpr ⟨rfl, ih _ _ _⟩

theorem Prog.guard_log (A : P → X) (w : World X V P R) (m : Prog X V P R α) (h : ∀ p, .hash (A p) ∉ m.log w) :
    (m.guard A).log w = m.log w := by
  induction m with
  | ret a => rfl
  | hash x next ih =>
    unfold Prog.guard
    split
    · next hx =>
      obtain ⟨p, rfl⟩ := hx
      exact absurd List.mem_cons_self (h p)
    · exact congrArg _ (ih _ fun p hp => h p (List.mem_cons_of_mem _ hp))
  | row k next ih => exact congrArg _ (ih _ fun p hp => h p (List.mem_cons_of_mem _ hp))
  | mix q next ih => exact congrArg _ (ih _ _ _ fun p hp => h p (List.mem_cons_of_mem _ hp))

theorem Fine.of_guard {S : Shape X V P} {m : Prog X V P R α} {H : X → V} {T : V → R} (h : Fine S (m.guard S.A) H T)
    (hA : ∀ p, .hash (S.A p) ∉ m.log (real S H T)) : Fine S m H T := by
  have e := m.guard_log S.A (real S H T) hA
  obtain ⟨h1, h2, h3, h4, h5⟩ := h
  rw [e] at h1 h2 h3 h4 h5
  exact ⟨h1, h2, h3, h4, h5⟩

end SV2.Oracle

namespace SV2.Noise
open Oracle

/-! ## The inputs of HMAC -/

abbrev Input (M : Nat) := {x : Bytes // x.length ≤ M}
/-- The blocks of a key. -/
abbrev KeyRow := Arr 12 × Fin 1025 → Arr 64
/-- A chaining key, and a shared secret of the client with a server. -/
abbrev Pair (D : List (Arr 32)) := {p : Arr 32 × Arr 32 // p.2 ∈ D}
abbrev Job (M : Nat) (D : List (Arr 32)) (α : Type) := Prog (Input M) (Arr 32) (Pair D) KeyRow α

def padded (c : UInt8) (k : Arr 32) : Bytes := (k.toList ++ List.replicate 32 0).map (· ^^^ c)

theorem padded_length (c : UInt8) (k : Arr 32) : (padded c k).length = 64 := by
  simp [padded, k.len]

theorem xor_xor (a c : UInt8) : a ^^^ c ^^^ c = a := by
  rw [UInt8.xor_assoc, UInt8.xor_self, UInt8.xor_zero]

theorem keyIn_padded (c : UInt8) (k : Arr 32) (u : Bytes) : keyIn ((padded c k ++ u).map (· ^^^ c)) = k := by
  symm
  apply eq_keyIn
  · rw [List.length_map, List.length_append, padded_length]; omega
  · rw [List.map_append, padded, List.map_map]
    have : ((· ^^^ c) ∘ (· ^^^ c) : UInt8 → UInt8) = id := by funext a; exact xor_xor a c
    rw [this, List.map_id, List.append_assoc, List.take_left' k.len]

theorem padded_at (c : UInt8) (k : Arr 32) (u : Bytes) : (padded c k ++ u).getD 32 0 = c := by
  rw [List.getD_eq_getElem?_getD, List.getElem?_append_left (by rw [padded_length]; omega), padded, List.map_append,
    List.getElem?_append_right (by rw [List.length_map, k.len]), List.length_map, k.len]
  simp

theorem drop_padded (c : UInt8) (k u : Arr 32) : keyIn ((padded c k ++ u.toList).drop 64) = u := by
  rw [List.drop_left' (padded_length c k)]
  symm
  exact eq_keyIn (by rw [u.len]) (by rw [List.take_of_length_le (by rw [u.len])])

def kindOf (x : Bytes) : Nat :=
  if x.length = 65 then 2 else if x.length = 97 then 3 else if x.getD 32 0 = 0x36 then 0 else 1

def headOf (x : Bytes) : Arr 32 := keyIn (x.map (· ^^^ if kindOf x = 1 then 0x5c else 0x36))

theorem kindOf_A (k u : Arr 32) : kindOf (padded 0x36 k ++ u.toList) = 0 := by
  have : (padded 0x36 k ++ u.toList).length = 96 := by rw [List.length_append, padded_length, u.len]
  unfold kindOf
  rw [if_neg (by omega), if_neg (by omega), if_pos (padded_at _ _ _)]

theorem kindOf_B (k u : Arr 32) : kindOf (padded 0x5c k ++ u.toList) = 1 := by
  have : (padded 0x5c k ++ u.toList).length = 96 := by rw [List.length_append, padded_length, u.len]
  unfold kindOf
  rw [if_neg (by omega), if_neg (by omega), if_neg (by rw [padded_at]; decide)]

theorem kindOf_C (k : Arr 32) : kindOf (padded 0x36 k ++ [0x01]) = 2 := by
  unfold kindOf
  rw [if_pos (by rw [List.length_append, padded_length]; rfl)]

theorem kindOf_D (k u : Arr 32) : kindOf (padded 0x36 k ++ (u.toList ++ [0x02])) = 3 := by
  have : (padded 0x36 k ++ (u.toList ++ [0x02])).length = 97 := by
    rw [List.length_append, List.length_append, padded_length, u.len]; rfl
  unfold kindOf
  rw [if_neg (by omega), if_pos this]

/-- The inputs of the six hashes of HKDF. -/
def hkdfShape {M : Nat} (hM : 97 ≤ M) (D : List (Arr 32)) : Shape (Input M) (Arr 32) (Pair D) where
  A p := ⟨padded 0x36 p.1.1 ++ p.1.2.toList, by rw [List.length_append, padded_length, p.1.2.len]; omega⟩
  B k u := ⟨padded 0x5c k ++ u.toList, by rw [List.length_append, padded_length, u.len]; omega⟩
  C k := ⟨padded 0x36 k ++ [0x01], by rw [List.length_append, padded_length]; simp; omega⟩
  D k u := ⟨padded 0x36 k ++ (u.toList ++ [0x02]), by
    rw [List.length_append, List.length_append, padded_length, u.len]; simp; omega⟩
  ck p := p.1.1
  bad := NX.zeros
  head x := some (headOf x.1)
  tail x := some (keyIn (x.1.drop 64))
  kind x := kindOf x.1
  A_inj p q h := by
    have h := congrArg Subtype.val h
    simp only at h
    have h1 := keyIn_padded 0x36 p.1.1 p.1.2.toList
    have h2 := drop_padded 0x36 p.1.1 p.1.2
    rw [h, keyIn_padded] at h1
    rw [h, drop_padded] at h2
    exact Subtype.ext (Prod.ext h1.symm h2.symm)
  head_B k u := by
    simp only [headOf, kindOf_B]
    exact congrArg some (keyIn_padded _ _ _)
  tail_B k u := congrArg some (drop_padded _ _ _)
  head_C k := by
    simp only [headOf, kindOf_C]
    exact congrArg some (keyIn_padded _ _ _)
  head_D k u := by
    simp only [headOf, kindOf_D]
    exact congrArg some (keyIn_padded _ _ _)
  kind_A p := kindOf_A _ _
  kind_B k u := kindOf_B _ _
  kind_C k := kindOf_C _
  kind_D k u := kindOf_D _ _

/-! ## Hashing and mixing -/

section
variable {M : Nat} (far : Bytes → Arr 32) (D : List (Arr 32))

def hashJob (x : Bytes) : Job M D (Arr 32) := if h : x.length ≤ M then .hash ⟨x, h⟩ .ret else .ret (far x)

def hmacJob (k : Arr 32) (data : Bytes) : Job M D (Arr 32) :=
  (hashJob far D (padded 0x36 k ++ data)).bind fun v => hashJob far D (padded 0x5c k ++ v.toList)

def hkdfJob (ck : Arr 32) (ikm : Bytes) : Job M D (Arr 32 × Arr 32) :=
  (hmacJob far D ck ikm).bind fun t => (hmacJob far D t [0x01]).bind fun o =>
    (hmacJob far D t (o.toList ++ [0x02])).bind fun k => .ret (o, k)

/-- Mixes a shared secret in: the chaining key, the blocks of the key, and whether the key is not zero. -/
def mixJob (ck d : Arr 32) : Job M D (Arr 32 × KeyRow × Bool) :=
  if h : d ∈ D then .mix ⟨(ck, d), h⟩ fun o r b => .ret (o, r, b)
  else (hkdfJob far D ck d.toList).bind fun x => .row x.2 fun r => .ret (x.1, r, x.2 ≠ NX.zeros)

/-- Mixes parts into the handshake hash. -/
def foldJob : Arr 32 → List Bytes → Job M D (Arr 32)
  | h, [] => .ret h
  | h, d :: ds => (hashJob far D (h.toList ++ d)).bind fun h' => foldJob h' ds

def nameBytes : Bytes := NX.name.toUTF8.data.toList

theorem name_length : nameBytes.length = 33 := by decide +kernel

/-! ## How often they ask -/

variable {α β : Type}

/-- At most `n` questions. -/
def Calls (n : Nat) (m : Job M D α) : Prop := ∀ w, (m.log w).length ≤ n

variable {D}

theorem Calls.bind {a b : Nat} {m : Job M D α} {f : α → Job M D β} (hm : Calls D a m) (hf : ∀ x, Calls D b (f x)) :
    Calls D (a + b) (m.bind f) := by
  intro w
  rw [Prog.log_bind, List.length_append]
  exact Nat.add_le_add (hm w) (hf _ w)

theorem Calls.mono {a b : Nat} {m : Job M D α} (h : Calls D a m) (hab : a ≤ b) : Calls D b m := fun w => (h w).trans hab

theorem Calls.ret (a : α) : Calls (M := M) D 0 (.ret a) := fun _ => Nat.le_refl _

variable (D)

theorem hashJob_calls (x : Bytes) : Calls (M := M) D 1 (hashJob far D x) := by
  intro w
  unfold hashJob
  split
  · exact Nat.le_refl _
  · exact Nat.zero_le _

theorem hmacJob_calls (k : Arr 32) (x : Bytes) : Calls (M := M) D 2 (hmacJob far D k x) :=
  (hashJob_calls far D _).bind fun _ => hashJob_calls far D _

theorem hkdfJob_calls (k : Arr 32) (x : Bytes) : Calls (M := M) D 6 (hkdfJob far D k x) :=
  ((hmacJob_calls far D _ _).bind fun _ => (hmacJob_calls far D _ _).bind fun _ => (hmacJob_calls far D _ _).bind fun _ =>
    Calls.ret _).mono (by omega)

theorem mixJob_calls (ck d : Arr 32) : Calls (M := M) D 7 (mixJob far D ck d) := by
  unfold mixJob
  split
  · intro w
    show 1 ≤ 7
    omega
  · refine ((hkdfJob_calls far D _ _).bind (b := 1) fun _ w => ?_).mono (by omega)
    exact Nat.le_refl _

theorem foldJob_calls (ds : List Bytes) (h : Arr 32) : Calls (M := M) D ds.length (foldJob far D h ds) := by
  induction ds generalizing h with
  | nil => exact Calls.ret _
  | cons d ds ih => exact ((hashJob_calls far D _).bind fun _ => ih _).mono (by simp only [List.length_cons]; omega)

end

/-! ## What they compute -/

section
variable {M : Nat} (hM : 97 ≤ M) {far : Bytes → Arr 32} {D : List (Arr 32)} (P : Prims) (H : Hashes M) (blocks : Blocks)

/-- The real world with this hash function and these blocks. -/
noncomputable def realWorld (D : List (Arr 32)) : World (Input M) (Arr 32) (Pair D) KeyRow :=
  real (hkdfShape hM D) H fun k x => blocks (k, x.1, x.2)

/-- It was asked for. -/
def Logged (L : List (Event (Input M) (Arr 32) (Pair D))) (x : Bytes) : Prop := ∃ h : x.length ≤ M, .hash ⟨x, h⟩ ∈ L

theorem at_short {x : Bytes} (h : x.length ≤ M) : H.at far x = H ⟨x, h⟩ := dif_pos h

theorem run_hashJob (x : Bytes) : (hashJob far D x).run (realWorld hM H blocks D) = H.at far x := by
  unfold hashJob Hashes.at
  split <;> rfl

theorem log_hashJob {x : Bytes} {y : Input M} (h : .hash y ∈ (hashJob far D x).log (realWorld hM H blocks D)) : y.1 = x := by
  unfold hashJob at h
  split at h
  · simp only [Prog.log, List.mem_singleton, Event.hash.injEq] at h
    rw [h]
  · cases h

theorem logged_hashJob {x : Bytes} (hx : x.length ≤ M) {L : List (Event (Input M) (Arr 32) (Pair D))}
    (hL : (hashJob far D x).log (realWorld hM H blocks D) ⊆ L) : Logged L x := by
  refine ⟨hx, hL ?_⟩
  unfold hashJob
  rw [dif_pos hx]
  exact List.mem_cons_self

theorem run_hmacJob (k : Arr 32) (x : Bytes) :
    (hmacJob far D k x).run (realWorld hM H blocks D) = NX.hmac (P.withHash (H.at far)) k x := by
  unfold hmacJob
  rw [Prog.run_bind, run_hashJob, run_hashJob]
  rfl

theorem run_hkdfJob (k : Arr 32) (x : Bytes) :
    (hkdfJob far D k x).run (realWorld hM H blocks D) = NX.hkdf (P.withHash (H.at far)) k x := by
  unfold hkdfJob
  rw [Prog.run_bind, run_hmacJob hM P, Prog.run_bind, run_hmacJob hM P, Prog.run_bind, run_hmacJob hM P]
  rfl

/-- The chain is HKDF. -/
theorem chain_hkdf (p : Pair D) : ((hkdfShape hM D).chain H p 3, (hkdfShape hM D).chain H p 5) =
    NX.hkdf (P.withHash (H.at far)) p.1.1 p.1.2.toList := by
  have hA : H.at far ((hkdfShape hM D).A p).1 = H ((hkdfShape hM D).A p) := at_short H _
  have hB : ∀ k u, H.at far ((hkdfShape hM D).B k u).1 = H ((hkdfShape hM D).B k u) := fun _ _ => at_short H _
  have hC : ∀ k, H.at far ((hkdfShape hM D).C k).1 = H ((hkdfShape hM D).C k) := fun _ => at_short H _
  have hD : ∀ k u, H.at far ((hkdfShape hM D).D k u).1 = H ((hkdfShape hM D).D k u) := fun _ _ => at_short H _
  have h1 : NX.hmac (P.withHash (H.at far)) p.1.1 p.1.2.toList = (hkdfShape hM D).chain H p 1 := by
    show H.at far (padded 0x5c p.1.1 ++ (H.at far ((hkdfShape hM D).A p).1).toList) = _
    rw [hA]
    exact hB _ _
  have h2 : NX.hmac (P.withHash (H.at far)) ((hkdfShape hM D).chain H p 1) [0x01] = (hkdfShape hM D).chain H p 3 := by
    show H.at far (padded 0x5c _ ++ (H.at far ((hkdfShape hM D).C ((hkdfShape hM D).chain H p 1)).1).toList) = _
    rw [hC]
    exact hB _ _
  have h3 : NX.hmac (P.withHash (H.at far)) ((hkdfShape hM D).chain H p 1) (((hkdfShape hM D).chain H p 3).toList ++ [0x02]) =
      (hkdfShape hM D).chain H p 5 := by
    show H.at far (padded 0x5c _ ++
      (H.at far ((hkdfShape hM D).D ((hkdfShape hM D).chain H p 1) ((hkdfShape hM D).chain H p 3)).1).toList) = _
    rw [hD]
    exact hB _ _
  unfold NX.hkdf
  simp only [h1, h2, h3]

theorem decide_any (p : Prop) (a b : Decidable p) : @decide p a = @decide p b := by rw [Subsingleton.elim a b]

theorem run_mixJob (ck d : Arr 32) :
    (mixJob far D ck d).run (realWorld hM H blocks D) =
      ((NX.hkdf (P.withHash (H.at far)) ck d.toList).1,
        (fun x => blocks ((NX.hkdf (P.withHash (H.at far)) ck d.toList).2, x.1, x.2)),
        decide ((NX.hkdf (P.withHash (H.at far)) ck d.toList).2 ≠ NX.zeros)) := by
  unfold mixJob
  split
  · next h =>
    have e := chain_hkdf (far := far) hM P H (⟨(ck, d), h⟩ : Pair D)
    simp only at e
    rw [← e]
    refine Prod.ext rfl (Prod.ext rfl ?_)
    exact decide_any _ _ _
  · rw [Prog.run_bind, run_hkdfJob hM P]
    rfl

/-- What is in the log when `d` was mixed into `ck`. -/
structure MixLogged (L : List (Event (Input M) (Arr 32) (Pair D))) (Q : Prims) (ck d : Arr 32) : Prop where
  hidden : ∀ h : d ∈ D, .mix ⟨(ck, d), h⟩ ∈ L
  inner : d ∉ D → Logged L (padded 0x36 ck ++ d.toList)
  temp : d ∉ D → Logged L (padded 0x5c ck ++ (Q.hash (padded 0x36 ck ++ d.toList)).toList)
  out : d ∉ D → Logged L (padded 0x5c (NX.hmac Q ck d.toList) ++
    (Q.hash (padded 0x36 (NX.hmac Q ck d.toList) ++ [0x01])).toList)
  row : d ∉ D → .row (NX.hkdf Q ck d.toList).2 ∈ L

theorem logged_mixJob (ck d : Arr 32) {L : List (Event (Input M) (Arr 32) (Pair D))}
    (hL : (mixJob far D ck d).log (realWorld hM H blocks D) ⊆ L) : MixLogged L (P.withHash (H.at far)) ck d := by
  have l1 : ∀ (c : UInt8) (k u : Arr 32), (padded c k ++ u.toList).length ≤ M := by
    intro c k u
    rw [List.length_append, padded_length, u.len]
    omega
  by_cases h : d ∈ D
  · refine ⟨fun _ => hL ?_, fun h' => absurd h h', fun h' => absurd h h', fun h' => absurd h h', fun h' => absurd h h'⟩
    unfold mixJob
    rw [dif_pos h]
    exact List.mem_cons_self
  · unfold mixJob at hL
    rw [dif_neg h, Prog.log_bind, run_hkdfJob hM P] at hL
    obtain ⟨g1, g2⟩ := List.append_subset.mp hL
    unfold hkdfJob at g1
    rw [Prog.log_bind, run_hmacJob hM P, Prog.log_bind, run_hmacJob hM P] at g1
    obtain ⟨g3, g4⟩ := List.append_subset.mp g1
    obtain ⟨g5, -⟩ := List.append_subset.mp g4
    unfold hmacJob at g3 g5
    rw [Prog.log_bind, run_hashJob] at g3 g5
    obtain ⟨a1, a2⟩ := List.append_subset.mp g3
    obtain ⟨-, b2⟩ := List.append_subset.mp g5
    exact ⟨fun h' => absurd h' h, fun _ => logged_hashJob hM H blocks (l1 _ _ _) a1,
      fun _ => logged_hashJob hM H blocks (l1 _ _ _) a2, fun _ => logged_hashJob hM H blocks (l1 _ _ _) b2,
      fun _ => g2 List.mem_cons_self⟩

/-- Not the first input of a chain. -/
def Unlike (D : List (Arr 32)) (x : Bytes) : Prop := ∀ ck, ∀ d ∈ D, x ≠ padded 0x36 ck ++ d.toList

theorem unlike_inner {k : Arr 32} {x : Bytes} (h : ∀ d ∈ D, x ≠ d.toList) : Unlike D (padded 0x36 k ++ x) := by
  intro ck d hd e
  exact h d hd (List.append_inj e (by rw [padded_length, padded_length])).2

theorem unlike_outer {k : Arr 32} {x : Bytes} : Unlike D (padded 0x5c k ++ x) := by
  intro ck d _ e
  have := congrArg (fun l => l.getD 32 0) e
  simp only [padded_at] at this
  exact absurd this (by decide)

theorem unlike_length {x : Bytes} (h : x.length ≠ 96) : Unlike D x := by
  intro ck d _ e
  apply h
  rw [e, List.length_append, padded_length, d.len]

/-- All that is hashed has this property. -/
def Asks (L : List (Event (Input M) (Arr 32) (Pair D))) (φ : Bytes → Prop) : Prop := ∀ y, .hash y ∈ L → φ y.1

theorem Asks.append {L L' : List (Event (Input M) (Arr 32) (Pair D))} {φ : Bytes → Prop} (h : Asks L φ) (h' : Asks L' φ) :
    Asks (L ++ L') φ := by
  intro y hy
  rcases List.mem_append.mp hy with hy | hy
  · exact h y hy
  · exact h' y hy

theorem Asks.nil {φ : Bytes → Prop} : Asks ([] : List (Event (Input M) (Arr 32) (Pair D))) φ := fun _ h => by cases h

theorem Asks.mono {L : List (Event (Input M) (Arr 32) (Pair D))} {φ ψ : Bytes → Prop} (h : Asks L φ) (hi : ∀ x, φ x → ψ x) :
    Asks L ψ := fun y hy => hi _ (h y hy)

theorem asks_hashJob {x : Bytes} {φ : Bytes → Prop} (h : φ x) : Asks ((hashJob far D x).log (realWorld hM H blocks D)) φ :=
  fun _ hy => by rw [log_hashJob hM H blocks hy]; exact h

theorem asks_hmacJob {k : Arr 32} {x : Bytes} (h : ∀ d ∈ D, x ≠ d.toList) :
    Asks ((hmacJob far D k x).log (realWorld hM H blocks D)) (Unlike D) := by
  unfold hmacJob
  rw [Prog.log_bind]
  exact (asks_hashJob hM H blocks (unlike_inner h)).append (asks_hashJob hM H blocks unlike_outer)

theorem asks_hkdfJob {k : Arr 32} {x : Bytes} (h : ∀ d ∈ D, x ≠ d.toList) :
    Asks ((hkdfJob far D k x).log (realWorld hM H blocks D)) (Unlike D) := by
  have hl : ∀ x : Bytes, x.length ≠ 32 → ∀ d ∈ D, x ≠ d.toList := fun x hx d _ e => hx (by rw [e, d.len])
  unfold hkdfJob
  rw [Prog.log_bind, Prog.log_bind, Prog.log_bind]
  refine (asks_hmacJob hM H blocks h).append ((asks_hmacJob hM H blocks (hl _ (by decide))).append
    ((asks_hmacJob hM H blocks (hl _ ?_)).append Asks.nil))
  rw [List.length_append, Arr.len]
  decide

theorem asks_mixJob (ck d : Arr 32) : Asks ((mixJob far D ck d).log (realWorld hM H blocks D)) (Unlike D) := by
  unfold mixJob
  split
  · intro y hy
    simp only [Prog.log, List.mem_cons, reduceCtorEq, List.not_mem_nil, or_false] at hy
  · next h =>
    rw [Prog.log_bind]
    refine (asks_hkdfJob hM H blocks fun d' hd' e => h ?_).append ?_
    · rw [arr_ext e]; exact hd'
    · intro y hy
      simp only [Prog.log, List.mem_cons, reduceCtorEq, List.not_mem_nil, or_false] at hy

theorem run_foldJob (ds : List Bytes) (h : Arr 32) : (foldJob far D h ds).run (realWorld hM H blocks D) =
    ds.foldl (fun h d => H.at far (h.toList ++ d)) h := by
  induction ds generalizing h with
  | nil => rfl
  | cons d ds ih =>
    unfold foldJob
    rw [Prog.run_bind, run_hashJob, ih]
    rfl

theorem asks_foldJob (ds : List Bytes) (h : Arr 32) : Asks ((foldJob far D h ds).log (realWorld hM H blocks D))
    (· ∈ NX.hashInputs (P.withHash (H.at far)) h ds) := by
  induction ds generalizing h with
  | nil => exact Asks.nil
  | cons d ds ih =>
    unfold foldJob
    rw [Prog.log_bind, run_hashJob]
    refine (asks_hashJob hM H blocks List.mem_cons_self).append ((ih _).mono fun x hx => List.mem_cons_of_mem _ hx)

theorem logged_foldJob (ds : List Bytes) (h : Arr 32) (hs : ∀ d ∈ ds, d.length + 32 ≤ M)
    {L : List (Event (Input M) (Arr 32) (Pair D))} (hL : (foldJob far D h ds).log (realWorld hM H blocks D) ⊆ L) :
    ∀ x ∈ NX.hashInputs (P.withHash (H.at far)) h ds, Logged L x := by
  induction ds generalizing h with
  | nil => intro x hx; cases hx
  | cons d ds ih =>
    unfold foldJob at hL
    rw [Prog.log_bind, run_hashJob] at hL
    obtain ⟨h1, h2⟩ := List.append_subset.mp hL
    intro x hx
    rcases List.mem_cons.mp hx with rfl | hx
    · refine logged_hashJob hM H blocks ?_ h1
      have := hs d List.mem_cons_self
      rw [List.length_append, Arr.len]
      omega
    · exact ih _ (fun d hd => hs d (List.mem_cons_of_mem _ hd)) h2 x hx

theorem hashInputs_after (Q : Prims) (h : Arr 32) (ds es : List Bytes) : NX.hashInputs Q h (ds ++ es) =
    NX.hashInputs Q h ds ++ NX.hashInputs Q (ds.foldl (fun h d => Q.hash (h.toList ++ d)) h) es := by
  induction ds generalizing h with
  | nil => rfl
  | cons d ds ih => exact congrArg _ (ih _)

end

/-! ## A row instead of a key -/

section
variable (P : Prims)

/-- The same row for all keys. -/
def KeyRow.blocks (r : KeyRow) : Blocks := fun x => r x.2

/-- Encryption with nonce 0 and these blocks. -/
def encRow (r : KeyRow) (ad p : Bytes) : Bytes := NX.enc (P.withBlocks (fun _ _ _ => 0) (KeyRow.blocks r)) NX.zeros 0 ad p

theorem stream_row (rest rest' : Arr 32 → Arr 12 → Nat → UInt8) (b b' : Blocks) (k k' : Arr 32) (n : Arr 12)
    (h : ∀ c, b (k, n, c) = b' (k', n, c)) {i : Nat} (hi : i < 65536) : b.stream rest k n i = b'.stream rest' k' n i := by
  unfold Blocks.stream
  rw [dif_pos hi, dif_pos hi, h]

theorem enc_eq_encRow (rest : Arr 32 → Arr 12 → Nat → UInt8) (b : Blocks) (k : Arr 32) (ad p : Bytes) (hp : p.length ≤ 65536) :
    NX.enc (P.withBlocks rest b) k 0 ad p = encRow P (fun x => b (k, x.1, x.2)) ad p := by
  have hm : mask (b.stream rest k (NX.nonce 0)) p =
      mask ((KeyRow.blocks fun x => b (k, x.1, x.2)).stream (fun _ _ _ => 0) NX.zeros (NX.nonce 0)) p :=
    mask_congr fun i hi => stream_row _ _ b (KeyRow.blocks fun x => b (k, x.1, x.2)) _ _ _ (fun _ => rfl) (lt_of_lt_of_le hi hp)
  have ho : b.oneTime (k, NX.nonce 0) = (KeyRow.blocks fun x => b (k, x.1, x.2)).oneTime (NX.zeros, NX.nonce 0) := rfl
  simp only [encRow, NX.enc, Prims.withBlocks, Prims.withMac, hm, ho]

/-! ## The parties -/

variable {M : Nat} (far : Bytes → Arr 32) (D : List (Arr 32))

/-- The second half of a responder's work. -/
def finishJob (c : Serving) (h : Arr 32) (a b : Arr 32 × KeyRow × Bool) : Job M D (Option Answer) :=
  (foldJob far D h [c.prologue, c.first.take 32, c.first.drop 32, (P.publicOf c.eR).toList]).bind fun t1 =>
  (foldJob far D t1 [encRow P a.2.1 t1.toList (P.publicOf c.sR).toList]).bind fun t2 =>
  (foldJob far D t2 [encRow P b.2.1 t2.toList (body (c.buf.drop 80))]).bind fun t3 =>
  (hkdfJob far D b.1 []).bind fun keys =>
  .ret (some ⟨c.prologue, c.eR, c.first, c.buf, (P.publicOf c.eR).toList ++
    encRow P a.2.1 t1.toList (P.publicOf c.sR).toList ++ encRow P b.2.1 t2.toList (body (c.buf.drop 80)),
    done false EMPTY t3 keys 1⟩)

def servingJob (c : Serving) : Job M D (Option Answer) :=
  if (48 ≤ c.first.length ∧ c.first.length ≤ 65535) ∧ c.first.take 32 ∉ forbiddenCurveValues ∧
      96 ≤ c.buf.length ∧ c.buf.length ≤ 65535 then
    (hashJob far D nameBytes).bind fun h =>
    (mixJob far D h (P.dh c.eR (keyIn c.first))).bind fun a =>
    (mixJob far D a.1 (P.dh c.sR (keyIn c.first))).bind fun b =>
    if a.2.2 = true ∧ b.2.2 = true then finishJob P far D c h a b else .ret none
  else .ret none

theorem finishJob_calls (c : Serving) (h : Arr 32) (a b : Arr 32 × KeyRow × Bool) :
    Calls (M := M) D 12 (finishJob P far D c h a b) := by
  have f1 : ∀ h (d : Bytes), Calls (M := M) D 1 (foldJob far D h [d]) := fun h d => foldJob_calls far D [d] h
  have f4 : Calls (M := M) D 4 (foldJob far D h [c.prologue, c.first.take 32, c.first.drop 32, (P.publicOf c.eR).toList]) :=
    foldJob_calls far D _ h
  exact f4.bind (b := 8) fun t1 => (f1 _ _).bind (b := 7) fun t2 => (f1 _ _).bind (b := 6) fun t3 =>
    (hkdfJob_calls far D _ _).bind (b := 0) fun keys => Calls.ret _

theorem servingJob_calls (c : Serving) : Calls (M := M) D 29 (servingJob P far D c) := by
  unfold servingJob
  split
  · refine ((hashJob_calls far D _).bind fun _ => (mixJob_calls far D _ _).bind fun a => (mixJob_calls far D _ _).bind (b := 12)
      fun b => ?_).mono (by omega)
    split
    · exact finishJob_calls P far D c _ a b
    · exact (Calls.ret _).mono (by omega)
  · exact (Calls.ret _).mono (by omega)

def attackJob {α : Type} : Curious α → Job M D (Spied α)
  | .reply a => .ret { result := a }
  | .hash x next => (hashJob far D x).bind fun y => (attackJob (next y)).bind fun p => .ret { p with hashed := x :: p.hashed }
  | .block x next => .row x.1 fun r => (attackJob (next (r x.2))).bind fun p => .ret { p with keys := x.1 :: p.keys }
  | .serve c next => (servingJob P far D c).bind fun a => (attackJob (next a)).bind fun p =>
    .ret { p with served := (a.map fun a => (c.sR, a)).toList ++ p.served }

theorem attackJob_calls {α : Type} (c : Curious α) (n : Nat) (hn : c.Within M n) :
    Calls (M := M) D (29 * n) (attackJob P far D c) := by
  induction c generalizing n with
  | reply a => exact (Calls.ret _).mono (by omega)
  | hash x next ih =>
    cases n with
    | zero => exact hn.elim
    | succ n =>
      exact ((hashJob_calls far D _).bind fun y => (ih y n (hn y)).bind fun p => Calls.ret _).mono (by omega)
  | block x next ih =>
    cases n with
    | zero => exact hn.elim
    | succ n =>
      intro w
      have := ((ih _ n (hn _)).bind fun p => Calls.ret _ : Calls D (29 * n + 0)
        ((attackJob P far D (next (w.row x.1 x.2))).bind fun p => .ret { p with keys := x.1 :: p.keys })) w
      exact Nat.succ_le_succ this |>.trans (by omega)
  | serve c next ih =>
    cases n with
    | zero => exact hn.elim
    | succ n =>
      exact ((servingJob_calls P far D _).bind fun y => (ih y n (hn.2 y)).bind fun p => Calls.ret _).mono (by omega)

/-- The client. -/
def clientJob (prologue : Bytes) (eI : Arr 32) (first second : Bytes) : Job M D Unit :=
  (hashJob far D nameBytes).bind fun h =>
  (mixJob far D h (P.dh eI (keyIn second))).bind fun a =>
  (foldJob far D h (NX.parts prologue first second)).bind fun _ =>
  (mixJob far D a.1 (P.dh eI (keyIn (mask ((KeyRow.blocks a.2.1).stream (fun _ _ _ => 0) NX.zeros (NX.nonce 0))
    (body (HandshakeState.partS second)))))).bind fun _ => .ret ()

theorem clientJob_calls (prologue : Bytes) (eI : Arr 32) (first second : Bytes) :
    Calls (M := M) D 21 (clientJob P far D prologue eI first second) :=
  ((hashJob_calls far D _).bind fun _ => (mixJob_calls far D _ _).bind fun a => (foldJob_calls far D _ _).bind fun b =>
    (mixJob_calls far D _ _).bind fun _ => Calls.ret _).mono (by simp [NX.parts])

/-- All of it. -/
def wholeJob (prologue : Bytes) (eI : Arr 32) (first : Bytes) (impostor : Curious Bytes) : Job M D (Spied Bytes) :=
  (attackJob P far D impostor).bind fun p =>
    (clientJob P far D prologue eI first p.result).bind fun _ => .ret p

theorem wholeJob_calls (prologue : Bytes) (eI : Arr 32) (first : Bytes) (impostor : Curious Bytes) (n : Nat)
    (hn : impostor.Within M n) : Calls (M := M) D (29 * n + 21) (wholeJob P far D prologue eI first impostor) :=
  (attackJob_calls P far D impostor n hn).bind fun p => (clientJob_calls P far D prologue eI first p.result).bind
    fun _ => Calls.ret p

end

/-! ## What the parties ask, and what comes of it -/

section
variable {M : Nat} (hM : 97 ≤ M) {far : Bytes → Arr 32} {D : List (Arr 32)} (P : Prims) (H : Hashes M) (blocks : Blocks)
variable (rest : Arr 32 → Arr 12 → Nat → UInt8)

/-- What is in the log of a responder's answer. -/
structure AnswerLogged (L : List (Event (Input M) (Arr 32) (Pair D))) (Q : Prims) (sR : Arr 32) (a : Answer) : Prop where
  ee : MixLogged L Q (NX.h0 Q) (Q.dh a.eR (keyIn a.first))
  es : MixLogged L Q (NX.afterEE Q (Q.dh a.eR (keyIn a.first))).1 (Q.dh sR (keyIn a.first))
  parts : ∀ x ∈ NX.hashInputs Q (NX.h0 Q) (NX.parts a.prologue a.first a.second), Logged L x

theorem finishJob_spec (hM' : 65567 ≤ M) (c : Serving) (hc : c.prologue.length + 32 ≤ M)
    {L : List (Event (Input M) (Arr 32) (Pair D))} {Q : Prims} (hQ : Q = P.withHash (H.at far))
    (ok : c.Ok (Q.withBlocks rest blocks)) {k1 k2 ck1 ck2 : Arr 32}
    (h1 : NX.afterEE Q (P.dh c.eR (keyIn c.first)) = (ck1, k1))
    (h2 : NX.afterES Q (P.dh c.eR (keyIn c.first)) (P.dh c.sR (keyIn c.first)) = (ck2, k2)) (f1 f2 : Bool)
    (hL : (finishJob P far D c (NX.h0 Q) (ck1, fun x => blocks (k1, x.1, x.2), f1)
      (ck2, fun x => blocks (k2, x.1, x.2), f2)).log (realWorld hM H blocks D) ⊆ L) :
    (finishJob P far D c (NX.h0 Q) (ck1, fun x => blocks (k1, x.1, x.2), f1)
      (ck2, fun x => blocks (k2, x.1, x.2), f2)).run (realWorld hM H blocks D) = some (c.made (Q.withBlocks rest blocks)) ∧
    (∀ x ∈ NX.hashInputs Q (NX.h0 Q) (NX.parts c.prologue c.first (c.made (Q.withBlocks rest blocks)).second), Logged L x) ∧
    Asks ((finishJob P far D c (NX.h0 Q) (ck1, fun x => blocks (k1, x.1, x.2), f1)
      (ck2, fun x => blocks (k2, x.1, x.2), f2)).log (realWorld hM H blocks D)) fun x => Unlike D x ∨
        x ∈ NX.hashInputs Q (NX.h0 Q) (NX.parts c.prologue c.first (c.made (Q.withBlocks rest blocks)).second) := by
  have hfold : ∀ ds h, (foldJob far D h ds).run (realWorld hM H blocks D) =
      ds.foldl (fun h d => Q.hash (h.toList ++ d)) h := by
    subst hQ
    exact fun ds h => run_foldJob hM H blocks ds h
  have hlog : ∀ (ds : List Bytes) (h : Arr 32), (∀ d ∈ ds, d.length + 32 ≤ M) →
      (foldJob far D h ds).log (realWorld hM H blocks D) ⊆ L → ∀ x ∈ NX.hashInputs Q h ds, Logged L x := by
    subst hQ
    exact fun ds h h1 h2 => logged_foldJob hM P H blocks ds h h1 h2
  have hask : ∀ (ds : List Bytes) (h : Arr 32), Asks ((foldJob far D h ds).log (realWorld hM H blocks D))
      (· ∈ NX.hashInputs Q h ds) := by
    subst hQ
    exact fun ds h => asks_foldJob hM P H blocks ds h
  have hkdf : ∀ k x, (hkdfJob far D k x).run (realWorld hM H blocks D) = NX.hkdf Q k x := by
    subst hQ
    exact fun k x => run_hkdfJob hM P H blocks k x
  have hdh : Q.dh = P.dh := by rw [hQ]; rfl
  have hpub : Q.publicOf = P.publicOf := by rw [hQ]; rfl
  have hrow : ∀ r ad p, encRow P r ad p = encRow Q r ad p := fun _ _ _ => rfl
  clear hQ
  obtain ⟨p1, p2, p3⟩ := c.made_parts (P := Q.withBlocks rest blocks)
  have lS := c.encS_length (P := Q.withBlocks rest blocks)
  have lP := c.encP_length (P := Q.withBlocks rest blocks)
  have lP' : (body (c.buf.drop 80)).length ≤ 65439 := by
    have := ok.buf
    simp only [body, List.length_take, List.length_drop]; omega
  have hS : encRow P (fun x => blocks (k1, x.1, x.2)) ([c.prologue, c.first.take 32, c.first.drop 32,
      (P.publicOf c.eR).toList].foldl (fun h d => Q.hash (h.toList ++ d)) (NX.h0 Q)).toList (P.publicOf c.sR).toList =
      c.encS (Q.withBlocks rest blocks) := by
    rw [hrow, ← enc_eq_encRow Q rest blocks _ _ _ (by rw [Arr.len]; omega), ← hpub]
    have : k1 = (NX.afterEE (Q.withBlocks rest blocks) ((Q.withBlocks rest blocks).dh c.eR (keyIn c.first))).2 := by
      show k1 = (NX.afterEE Q (Q.dh c.eR (keyIn c.first))).2
      rw [hdh, h1]
    rw [this]
    rfl
  generalize ht1 : [c.prologue, c.first.take 32, c.first.drop 32,
      (P.publicOf c.eR).toList].foldl (fun h d => Q.hash (h.toList ++ d)) (NX.h0 Q) = t1 at hS
  have hP : encRow P (fun x => blocks (k2, x.1, x.2))
      ([c.encS (Q.withBlocks rest blocks)].foldl (fun h d => Q.hash (h.toList ++ d)) t1).toList (body (c.buf.drop 80)) =
      c.encP (Q.withBlocks rest blocks) := by
    rw [hrow, ← enc_eq_encRow Q rest blocks _ _ _ (by omega), ← ht1, ← hpub]
    have : k2 = (NX.afterES (Q.withBlocks rest blocks) ((Q.withBlocks rest blocks).dh c.eR (keyIn c.first))
        ((Q.withBlocks rest blocks).dh c.sR (keyIn c.first))).2 := by
      show k2 = (NX.afterES Q (Q.dh c.eR (keyIn c.first)) (Q.dh c.sR (keyIn c.first))).2
      rw [hdh, h2]
    rw [this]
    rfl
  have hfin : c.made (Q.withBlocks rest blocks) = ⟨c.prologue, c.eR, c.first, c.buf, (P.publicOf c.eR).toList ++
      c.encS (Q.withBlocks rest blocks) ++ c.encP (Q.withBlocks rest blocks), done false EMPTY
      ([c.encP (Q.withBlocks rest blocks)].foldl (fun h d => Q.hash (h.toList ++ d))
        ([c.encS (Q.withBlocks rest blocks)].foldl (fun h d => Q.hash (h.toList ++ d)) t1)) (NX.hkdf Q ck2 []) 1⟩ := by
    have : NX.transportKeys (Q.withBlocks rest blocks) ((Q.withBlocks rest blocks).dh c.eR (keyIn c.first))
        ((Q.withBlocks rest blocks).dh c.sR (keyIn c.first)) = NX.hkdf Q ck2 [] := by
      show NX.hkdf Q (NX.afterES Q (Q.dh c.eR (keyIn c.first)) (Q.dh c.sR (keyIn c.first))).1 [] = _
      rw [hdh, h2]
    unfold Serving.made
    rw [this, ← ht1, ← hpub]
    rfl
  have hin : ∀ x, x ∈ NX.hashInputs Q (NX.h0 Q) (NX.parts c.prologue c.first (c.made (Q.withBlocks rest blocks)).second) ↔
      x ∈ NX.hashInputs Q (NX.h0 Q) [c.prologue, c.first.take 32, c.first.drop 32, (P.publicOf c.eR).toList] ∨
      x ∈ NX.hashInputs Q t1 [c.encS (Q.withBlocks rest blocks)] ∨
      x ∈ NX.hashInputs Q ([c.encS (Q.withBlocks rest blocks)].foldl (fun h d => Q.hash (h.toList ++ d)) t1)
        [c.encP (Q.withBlocks rest blocks)] := by
    intro x
    have e1 : NX.parts c.prologue c.first (c.made (Q.withBlocks rest blocks)).second =
        [c.prologue, c.first.take 32, c.first.drop 32, (P.publicOf c.eR).toList] ++
          ([c.encS (Q.withBlocks rest blocks)] ++ [c.encP (Q.withBlocks rest blocks)]) := by
      unfold NX.parts
      rw [p1, p2, p3]
      show [_, _, _, (Q.publicOf c.eR).toList, _, _] = _
      rw [hpub]
      rfl
    rw [e1, hashInputs_after, hashInputs_after, List.mem_append, List.mem_append, ht1]
  unfold finishJob at hL ⊢
  simp only [Prog.run_bind, Prog.log_bind, hfold, ht1, hS, hP, hkdf] at hL ⊢
  obtain ⟨l3, hL⟩ := List.append_subset.mp hL
  obtain ⟨l4, hL⟩ := List.append_subset.mp hL
  obtain ⟨l5, -⟩ := List.append_subset.mp hL
  refine ⟨?_, fun x hx => ?_, ?_⟩
  · rw [hfin]
    rfl
  · rcases (hin x).mp hx with hx | hx | hx
    · refine hlog _ _ ?_ l3 x hx
      intro d hd
      simp only [List.mem_cons, List.not_mem_nil, or_false] at hd
      rcases hd with rfl | rfl | rfl | rfl
      · exact hc
      · rw [List.length_take]; omega
      · have := ok.first
        rw [List.length_drop]; omega
      · rw [Arr.len]; omega
    · refine hlog _ _ ?_ l4 x hx
      intro d hd
      obtain rfl := List.mem_singleton.mp hd
      omega
    · refine hlog _ _ ?_ l5 x hx
      intro d hd
      obtain rfl := List.mem_singleton.mp hd
      omega
  · refine ((hask _ _).mono fun x hx => .inr ((hin x).mpr (.inl hx))).append
      (((hask _ _).mono fun x hx => .inr ((hin x).mpr (.inr (.inl hx)))).append
      (((hask _ _).mono fun x hx => .inr ((hin x).mpr (.inr (.inr hx)))).append
      (((asks_hkdfJob hM H blocks ?_).mono fun x hx => Or.inl hx).append Asks.nil)))
    intro d _ e
    have := congrArg List.length e
    rw [d.len] at this
    cases this

theorem servingJob_spec (hM' : 65567 ≤ M) (c : Serving) (hc : c.prologue.length + 32 ≤ M)
    {L : List (Event (Input M) (Arr 32) (Pair D))} {Q : Prims} (hQ : Q = P.withHash (H.at far))
    (hL : (servingJob P far D c).log (realWorld hM H blocks D) ⊆ L) :
    (servingJob P far D c).run (realWorld hM H blocks D) = c.answer (Q.withBlocks rest blocks) ∧
    (∀ a, c.answer (Q.withBlocks rest blocks) = some a → AnswerLogged L Q c.sR a) ∧
    Asks ((servingJob P far D c).log (realWorld hM H blocks D)) fun x => Unlike D x ∨
      ∃ a, c.answer (Q.withBlocks rest blocks) = some a ∧
        x ∈ NX.hashInputs Q (NX.h0 Q) (NX.parts a.prologue a.first a.second) := by
  have none : ¬ c.Ok (Q.withBlocks rest blocks) → c.answer (Q.withBlocks rest blocks) = none := by
    intro hQ
    rcases ha : c.answer (Q.withBlocks rest blocks) with _ | a
    · rfl
    · exact absurd ((c.answer_iff a).mp ha).1 hQ
  have hdh : Q.dh = P.dh := by rw [hQ]; rfl
  have hname : (hashJob far D nameBytes).run (realWorld hM H blocks D) = NX.h0 Q := by
    rw [run_hashJob, hQ]; rfl
  have hmix : ∀ ck d, (mixJob far D ck d).log (realWorld hM H blocks D) ⊆ L →
      (mixJob far D ck d).run (realWorld hM H blocks D) =
      ((NX.hkdf Q ck d.toList).1, (fun x => blocks ((NX.hkdf Q ck d.toList).2, x.1, x.2)),
        decide ((NX.hkdf Q ck d.toList).2 ≠ NX.zeros)) ∧ MixLogged L Q ck d := by
    subst hQ
    exact fun ck d h => ⟨run_mixJob hM P H blocks ck d, logged_mixJob hM P H blocks ck d h⟩
  have hfin := fun ok k1 k2 ck1 ck2 h1 h2 => finishJob_spec hM P H blocks rest hM' c hc (L := L) hQ ok (k1 := k1) (k2 := k2)
    (ck1 := ck1) (ck2 := ck2) h1 h2 true true
  clear hQ
  have base : Asks ((hashJob far D nameBytes).log (realWorld hM H blocks D)) (Unlike D) :=
    asks_hashJob hM H blocks (unlike_length (by rw [name_length]; decide))
  unfold servingJob at hL ⊢
  split at hL
  case isFalse h =>
    have hn := none fun ok => h ⟨ok.first, ok.key, ok.buf⟩
    rw [if_neg h, hn]
    exact ⟨rfl, fun a ha => (Option.some_ne_none a ha.symm).elim, Asks.nil⟩
  case isTrue h =>
    rw [if_pos h]
    rw [Prog.log_bind, hname, Prog.log_bind, Prog.log_bind] at hL
    obtain ⟨l0, hL⟩ := List.append_subset.mp hL
    obtain ⟨l1, hL⟩ := List.append_subset.mp hL
    obtain ⟨l2, hL⟩ := List.append_subset.mp hL
    obtain ⟨m1, g1⟩ := hmix _ _ l1
    rw [m1] at l2
    obtain ⟨m2, g2⟩ := hmix _ _ l2
    rw [m1, m2] at hL
    rw [Prog.run_bind, hname, Prog.run_bind, m1, Prog.run_bind, m2, Prog.log_bind, hname, Prog.log_bind, m1, Prog.log_bind, m2]
    have a1 := asks_mixJob (far := far) (D := D) hM H blocks (NX.h0 Q) (P.dh c.eR (keyIn c.first))
    have a2 := asks_mixJob (far := far) (D := D) hM H blocks (NX.hkdf Q (NX.h0 Q) (P.dh c.eR (keyIn c.first)).toList).1
      (P.dh c.sR (keyIn c.first))
    have hk1 : ∀ ok : c.Ok (Q.withBlocks rest blocks), (NX.hkdf Q (NX.h0 Q) (P.dh c.eR (keyIn c.first)).toList).2 ≠ NX.zeros := by
      intro ok
      have := ok.k1
      rw [← hdh]
      exact this
    have hk2 : ∀ ok : c.Ok (Q.withBlocks rest blocks), (NX.hkdf Q (NX.hkdf Q (NX.h0 Q)
        (P.dh c.eR (keyIn c.first)).toList).1 (P.dh c.sR (keyIn c.first)).toList).2 ≠ NX.zeros := by
      intro ok
      have := ok.k2
      rw [← hdh]
      exact this
    have hok : (NX.hkdf Q (NX.h0 Q) (P.dh c.eR (keyIn c.first)).toList).2 ≠ NX.zeros →
        (NX.hkdf Q (NX.hkdf Q (NX.h0 Q) (P.dh c.eR (keyIn c.first)).toList).1 (P.dh c.sR (keyIn c.first)).toList).2 ≠ NX.zeros →
        c.Ok (Q.withBlocks rest blocks) := by
      intro k1 k2
      rw [← hdh] at k1 k2
      exact ⟨h.1, h.2.1, h.2.2, k1, k2⟩
    have hfin := fun ok => hfin ok _ _ _ _ (show NX.afterEE Q (P.dh c.eR (keyIn c.first)) =
        ((NX.hkdf Q (NX.h0 Q) (P.dh c.eR (keyIn c.first)).toList).1, (NX.hkdf Q (NX.h0 Q) (P.dh c.eR (keyIn c.first)).toList).2) from rfl)
      (show NX.afterES Q (P.dh c.eR (keyIn c.first)) (P.dh c.sR (keyIn c.first)) =
        ((NX.hkdf Q (NX.hkdf Q (NX.h0 Q) (P.dh c.eR (keyIn c.first)).toList).1 (P.dh c.sR (keyIn c.first)).toList).1,
        (NX.hkdf Q (NX.hkdf Q (NX.h0 Q) (P.dh c.eR (keyIn c.first)).toList).1 (P.dh c.sR (keyIn c.first)).toList).2) from rfl)
    have g1' : ∀ a : Answer, a.eR = c.eR → a.first = c.first → MixLogged L Q (NX.h0 Q) (Q.dh a.eR (keyIn a.first)) := by
      intro a e1 e2
      rw [e1, e2, hdh]
      exact g1
    have g2' : ∀ a : Answer, a.eR = c.eR → a.first = c.first →
        MixLogged L Q (NX.afterEE Q (Q.dh a.eR (keyIn a.first))).1 (Q.dh c.sR (keyIn a.first)) := by
      intro a e1 e2
      rw [e1, e2, hdh]
      exact g2
    clear g1 g2 m1 m2 l1 l2
    generalize NX.hkdf Q (NX.hkdf Q (NX.h0 Q) (P.dh c.eR (keyIn c.first)).toList).1 (P.dh c.sR (keyIn c.first)).toList = kk2 at *
    generalize NX.hkdf Q (NX.h0 Q) (P.dh c.eR (keyIn c.first)).toList = kk1 at *
    by_cases hk : kk1.2 ≠ NX.zeros ∧ kk2.2 ≠ NX.zeros
    · rw [decide_eq_true hk.1, decide_eq_true hk.2] at hL ⊢
      simp only [and_self, if_true] at hL ⊢
      have ok := hok hk.1 hk.2
      have ans := (c.answer_iff _).mpr ⟨ok, rfl⟩
      obtain ⟨e1, e2, e3⟩ := hfin ok hL
      refine ⟨e1.trans ans.symm, ?_, (base.mono fun x hx => Or.inl hx).append ((a1.mono fun x hx => Or.inl hx).append
        ((a2.mono fun x hx => Or.inl hx).append (e3.mono fun x hx => ?_)))⟩
      · intro a ha
        obtain rfl := Option.some.inj (ans.symm.trans ha)
        exact ⟨g1' _ rfl rfl, g2' _ rfl rfl, e2⟩
      · rcases hx with hx | hx
        · exact .inl hx
        · exact .inr ⟨_, ans, hx⟩
    · have hn := none fun ok => hk ⟨hk1 ok, hk2 ok⟩
      have hk' : ¬ (decide (kk1.2 ≠ NX.zeros) = true ∧ decide (kk2.2 ≠ NX.zeros) = true) := by
        rw [decide_eq_true_iff, decide_eq_true_iff]; exact hk
      rw [if_neg hk']
      refine ⟨hn.symm, fun a ha => ?_, (base.mono fun x hx => Or.inl hx).append ((a1.mono fun x hx => Or.inl hx).append
        ((a2.mono fun x hx => Or.inl hx).append Asks.nil))⟩
      rw [hn] at ha
      exact (Option.some_ne_none a ha.symm).elim

theorem attackJob_spec {α : Type} (hM' : 65567 ≤ M) (c : Curious α) (n : Nat) (hc : c.Within M n)
    {L : List (Event (Input M) (Arr 32) (Pair D))} {Q : Prims} (hQ : Q = P.withHash (H.at far))
    (hL : (attackJob P far D c).log (realWorld hM H blocks D) ⊆ L) :
    (attackJob P far D c).run (realWorld hM H blocks D) = c.play Q rest blocks ∧
    (∀ k ∈ (c.play Q rest blocks).keys, .row k ∈ L) ∧
    (∀ s ∈ (c.play Q rest blocks).served, AnswerLogged L Q s.1 s.2) ∧
    Asks ((attackJob P far D c).log (realWorld hM H blocks D)) fun x => Unlike D x ∨ x ∈ (c.play Q rest blocks).hashed ∨
      ∃ s ∈ (c.play Q rest blocks).served, x ∈ NX.hashInputs Q (NX.h0 Q) (NX.parts s.2.prologue s.2.first s.2.second) := by
  induction c generalizing n with
  | reply a => exact ⟨rfl, fun k hk => (List.not_mem_nil hk).elim, fun s hs => (List.not_mem_nil hs).elim, Asks.nil⟩
  | hash x next ih =>
    cases n with
    | zero => exact hc.elim
    | succ n =>
      have hr : (hashJob far D x).run (realWorld hM H blocks D) = Q.hash x := by rw [run_hashJob, hQ]; rfl
      simp only [attackJob, Prog.log_bind, Prog.run_bind, hr] at hL ⊢
      obtain ⟨l1, l2⟩ := List.append_subset.mp hL
      obtain ⟨l2, -⟩ := List.append_subset.mp l2
      obtain ⟨e1, e2, e3, e4⟩ := ih _ n (hc _) l2
      rw [e1]
      refine ⟨rfl, e2, e3, ?_⟩
      refine (asks_hashJob hM H blocks (.inr (.inl List.mem_cons_self))).append ((e4.mono ?_).append Asks.nil)
      rintro y (h | h | h)
      · exact .inl h
      · exact .inr (.inl (List.mem_cons_of_mem _ h))
      · exact .inr (.inr h)
  | block x next ih =>
    cases n with
    | zero => exact hc.elim
    | succ n =>
      simp only [attackJob, Prog.log, Prog.run, Prog.log_bind, Prog.run_bind] at hL ⊢
      obtain ⟨l1, l2⟩ := List.cons_subset.mp hL
      obtain ⟨l2, -⟩ := List.append_subset.mp l2
      obtain ⟨e1, e2, e3, e4⟩ := ih ((realWorld hM H blocks D).row x.1 x.2) n (hc _) l2
      rw [e1]
      refine ⟨rfl, ?_, e3, ?_⟩
      · intro k hk
        rcases List.mem_cons.mp hk with rfl | hk
        · exact l1
        · exact e2 k hk
      · intro y hy
        simp only [List.mem_cons, reduceCtorEq, false_or, List.append_nil] at hy
        exact e4 y hy
  | serve c next ih =>
    cases n with
    | zero => exact hc.elim
    | succ n =>
      simp only [attackJob, Prog.log_bind, Prog.run_bind] at hL ⊢
      obtain ⟨l1, l2⟩ := List.append_subset.mp hL
      obtain ⟨l2, -⟩ := List.append_subset.mp l2
      obtain ⟨s1, s2, s3⟩ := servingJob_spec hM P H blocks rest hM' c hc.1 hQ l1
      rw [s1] at l2 ⊢
      obtain ⟨e1, e2, e3, e4⟩ := ih _ n (hc.2 _) l2
      rw [e1]
      refine ⟨rfl, e2, ?_, ?_⟩
      · intro s hs
        simp only [Curious.play, List.mem_append, Option.mem_toList, Option.map_eq_some_iff] at hs
        rcases hs with ⟨a, ha, rfl⟩ | hs
        · exact s2 a ha
        · exact e3 s hs
      · refine (s3.mono ?_).append ((e4.mono ?_).append Asks.nil)
        · rintro y (h | ⟨a, ha, h⟩)
          · exact .inl h
          · refine .inr (.inr ⟨(c.sR, a), ?_, h⟩)
            simp only [Curious.play, ha, Option.map_some, Option.toList_some]
            exact List.mem_append_left _ List.mem_cons_self
        · rintro y (h | h | ⟨s, hs, h⟩)
          · exact .inl h
          · exact .inr (.inl h)
          · exact .inr (.inr ⟨s, List.mem_append_right _ hs, h⟩)

theorem clientJob_spec (hM' : 65567 ≤ M) (prologue : Bytes) (eI : Arr 32) (first second : Bytes)
    (hp : prologue.length + 32 ≤ M) (hf : first.length ≤ 65535) (hs : second.length ≤ 65535)
    {L : List (Event (Input M) (Arr 32) (Pair D))} {Q : Prims} (hQ : Q = P.withHash (H.at far))
    (hL : (clientJob P far D prologue eI first second).log (realWorld hM H blocks D) ⊆ L) :
    Logged L nameBytes ∧ MixLogged L Q (NX.h0 Q) (Q.dh eI (keyIn second)) ∧
    MixLogged L Q (NX.afterEE Q (Q.dh eI (keyIn second))).1 (Q.dh eI (staticIn Q (blocks.stream rest) eI second)) ∧
    ∀ x ∈ NX.hashInputs Q (NX.h0 Q) (NX.parts prologue first second), Logged L x := by
  have hdh : Q.dh = P.dh := by rw [hQ]; rfl
  have hname : (hashJob far D nameBytes).run (realWorld hM H blocks D) = NX.h0 Q := by
    rw [run_hashJob, hQ]; rfl
  have hmix : ∀ ck d, (mixJob far D ck d).log (realWorld hM H blocks D) ⊆ L →
      (mixJob far D ck d).run (realWorld hM H blocks D) =
      ((NX.hkdf Q ck d.toList).1, (fun x => blocks ((NX.hkdf Q ck d.toList).2, x.1, x.2)),
        decide ((NX.hkdf Q ck d.toList).2 ≠ NX.zeros)) ∧ MixLogged L Q ck d := by
    subst hQ
    exact fun ck d h => ⟨run_mixJob hM P H blocks ck d, logged_mixJob hM P H blocks ck d h⟩
  have hlog : ∀ (ds : List Bytes) (h : Arr 32), (∀ d ∈ ds, d.length + 32 ≤ M) →
      (foldJob far D h ds).log (realWorld hM H blocks D) ⊆ L → ∀ x ∈ NX.hashInputs Q h ds, Logged L x := by
    subst hQ
    exact fun ds h h1 h2 => logged_foldJob hM P H blocks ds h h1 h2
  clear hQ
  unfold clientJob at hL
  rw [Prog.log_bind, hname, Prog.log_bind] at hL
  obtain ⟨l0, hL⟩ := List.append_subset.mp hL
  obtain ⟨l1, hL⟩ := List.append_subset.mp hL
  obtain ⟨m1, g1⟩ := hmix _ _ l1
  rw [m1, Prog.log_bind, Prog.log_bind] at hL
  obtain ⟨l2, hL⟩ := List.append_subset.mp hL
  obtain ⟨l3, -⟩ := List.append_subset.mp hL
  obtain ⟨-, g2⟩ := hmix _ _ l3
  refine ⟨logged_hashJob hM H blocks (by rw [name_length]; omega) l0, by rw [hdh]; exact g1, ?_, hlog _ _ ?_ l2⟩
  · have e : staticIn Q (blocks.stream rest) eI second = keyIn (mask ((KeyRow.blocks fun x => blocks ((NX.hkdf Q (NX.h0 Q)
        (P.dh eI (keyIn second)).toList).2, x.1, x.2)).stream (fun _ _ _ => 0) NX.zeros (NX.nonce 0))
        (body (HandshakeState.partS second))) := by
      unfold staticIn
      rw [hdh]
      refine congrArg keyIn (mask_congr fun i hi => stream_row _ _ blocks (KeyRow.blocks fun x => blocks ((NX.hkdf Q (NX.h0 Q)
        (P.dh eI (keyIn second)).toList).2, x.1, x.2)) _ _ _ (fun _ => rfl) ?_)
      have : (body (HandshakeState.partS second)).length ≤ 48 := by
        simp only [body, HandshakeState.partS, List.length_take, List.length_drop]; omega
      omega
    rw [e, hdh]
    exact g2
  · intro d hd
    simp only [NX.parts, List.mem_cons, List.not_mem_nil, or_false] at hd
    rcases hd with rfl | rfl | rfl | rfl | rfl | rfl <;> (try simp only [List.length_take, List.length_drop]) <;> omega

theorem asks_clientJob (prologue : Bytes) (eI : Arr 32) (first second : Bytes) {Q : Prims} (hQ : Q = P.withHash (H.at far)) :
    Asks ((clientJob P far D prologue eI first second).log (realWorld hM H blocks D)) fun x => Unlike D x ∨
      x ∈ NX.hashInputs Q (NX.h0 Q) (NX.parts prologue first second) := by
  have hname : (hashJob far D nameBytes).run (realWorld hM H blocks D) = NX.h0 Q := by
    rw [run_hashJob, hQ]; rfl
  have hask : ∀ (ds : List Bytes) (h : Arr 32), Asks ((foldJob far D h ds).log (realWorld hM H blocks D))
      (· ∈ NX.hashInputs Q h ds) := by
    subst hQ
    exact fun ds h => asks_foldJob hM P H blocks ds h
  unfold clientJob
  rw [Prog.log_bind, hname, Prog.log_bind, Prog.log_bind, Prog.log_bind]
  exact (asks_hashJob hM H blocks (.inl (unlike_length (by rw [name_length]; decide)))).append
    (((asks_mixJob hM H blocks _ _).mono fun x hx => Or.inl hx).append (((hask _ _).mono fun x hx => Or.inr hx).append
    (((asks_mixJob hM H blocks _ _).mono fun x hx => Or.inl hx).append Asks.nil)))

/-! ## Nothing happens by chance -/

section
variable {α : Type} {m : Job M D α} (F : Fine (hkdfShape hM D) m H fun k x => blocks (k, x.1, x.2)) {Q : Prims}
variable (hQ : Q = P.withHash (H.at far))
include F hQ

theorem same_input {x y : Bytes} (hx : Logged (m.log (realWorld hM H blocks D)) x)
    (hy : Logged (m.log (realWorld hM H blocks D)) y) (h : Q.hash x = Q.hash y) : x = y := by
  obtain ⟨lx, hx⟩ := hx
  obtain ⟨ly, hy⟩ := hy
  have e : ∀ x, Q.hash x = H.at far x := by rw [hQ]; exact fun _ => rfl
  rw [e, e, at_short H lx, at_short H ly] at h
  exact congrArg Subtype.val (F.hash _ _ hx hy h)

theorem not_chain {x : Bytes} (hx : Logged (m.log (realWorld hM H blocks D)) x) {p : Pair D}
    (hp : .mix p ∈ m.log (realWorld hM H blocks D)) : Q.hash x ≠ (hkdfShape hM D).chain H p 3 := by
  obtain ⟨lx, hx⟩ := hx
  have e : ∀ x, Q.hash x = H.at far x := by rw [hQ]; exact fun _ => rfl
  rw [e, at_short H lx]
  exact F.hash_mix _ _ hx hp

theorem not_name {ck d : Arr 32} (hn : Logged (m.log (realWorld hM H blocks D)) nameBytes)
    (hd : MixLogged (m.log (realWorld hM H blocks D)) Q ck d) : (NX.hkdf Q ck d.toList).1 ≠ NX.h0 Q := by
  intro h
  by_cases hD : d ∈ D
  · have e := chain_hkdf (far := far) hM P H (⟨(ck, d), hD⟩ : Pair D)
    rw [← hQ] at e
    have e := congrArg Prod.fst e
    simp only at e
    exact not_chain hM P H blocks F hQ hn (hd.hidden hD) (h.symm.trans e.symm)
  · have := same_input hM P H blocks F hQ (hd.out hD) hn h
    have := congrArg List.length this
    rw [name_length, List.length_append, padded_length, Arr.len] at this
    omega

theorem same_secret {ck d d' : Arr 32} (hd : MixLogged (m.log (realWorld hM H blocks D)) Q ck d)
    (hd' : MixLogged (m.log (realWorld hM H blocks D)) Q ck d')
    (h : (NX.hkdf Q ck d.toList).1 = (NX.hkdf Q ck d'.toList).1) : d = d' := by
  have e : ∀ d (hD : d ∈ D), (hkdfShape hM D).chain H ⟨(ck, d), hD⟩ 3 = (NX.hkdf Q ck d.toList).1 := by
    intro d hD
    have e := chain_hkdf (far := far) hM P H (⟨(ck, d), hD⟩ : Pair D)
    rw [← hQ] at e
    exact congrArg Prod.fst e
  by_cases hD : d ∈ D <;> by_cases hD' : d' ∈ D
  · rw [← e d hD, ← e d' hD'] at h
    have := F.mix _ _ (hd.hidden hD) (hd'.hidden hD') h
    exact congrArg (fun p => p.1.2) this
  · rw [← e d hD] at h
    exact absurd h.symm (not_chain hM P H blocks F hQ (hd'.out hD') (hd.hidden hD))
  · rw [← e d' hD'] at h
    exact absurd h (not_chain hM P H blocks F hQ (hd.out hD) (hd'.hidden hD'))
  · have h1 := same_input hM P H blocks F hQ (hd.out hD) (hd'.out hD') h
    have h2 : NX.hmac Q ck d.toList = NX.hmac Q ck d'.toList := by
      have := congrArg (fun l => keyIn (l.map (· ^^^ 0x5c))) h1
      simp only [keyIn_padded] at this
      exact this
    have h3 := same_input hM P H blocks F hQ (hd.temp hD) (hd'.temp hD') h2
    have h4 : Q.hash (padded 0x36 ck ++ d.toList) = Q.hash (padded 0x36 ck ++ d'.toList) := by
      have := congrArg (fun l => keyIn (l.drop 64)) h3
      simp only [drop_padded] at this
      exact this
    have h5 := same_input hM P H blocks F hQ (hd.inner hD) (hd'.inner hD') h4
    have := congrArg (fun l => keyIn (l.drop 64)) h5
    simp only [drop_padded] at this
    exact this

/-- Keys at the end of chains, and other keys. -/
theorem same_key {ck ck' d d' : Arr 32} (hD : d ∈ D) (hd : MixLogged (m.log (realWorld hM H blocks D)) Q ck d)
    (hd' : MixLogged (m.log (realWorld hM H blocks D)) Q ck' d')
    (h : (NX.hkdf Q ck' d'.toList).2 = (NX.hkdf Q ck d.toList).2) : ck' = ck ∧ d' = d := by
  have e : ∀ ck d (hD : d ∈ D), (hkdfShape hM D).chain H ⟨(ck, d), hD⟩ 5 = (NX.hkdf Q ck d.toList).2 := by
    intro ck d hD
    have e := chain_hkdf (far := far) hM P H (⟨(ck, d), hD⟩ : Pair D)
    rw [← hQ] at e
    exact congrArg Prod.snd e
  by_cases hD' : d' ∈ D
  · rw [← e ck d hD, ← e ck' d' hD'] at h
    have := F.key _ _ (hd'.hidden hD') (hd.hidden hD) h
    have := congrArg (fun p => p.1) this
    exact Prod.mk.inj this
  · rw [← e ck d hD] at h
    exact absurd h.symm (F.row _ _ (hd.hidden hD) (hd'.row hD'))

end

end

end SV2.Noise
