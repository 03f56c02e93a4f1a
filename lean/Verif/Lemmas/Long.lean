import Verif.Lemmas.Oracle
/-!
# Chains of eighteen hashes

As in `Verif/Lemmas/Veil.lean`, but a chain has six more places, and a program that asks for a chain gets four rows.
-/

namespace SV2.Long
open Function

/-! ## Programs -/

inductive Prog (X V P R α : Type) where
  | ret (a : α)
  | hash (x : X) (next : V → Prog X V P R α)
  | row (k : V) (next : R → Prog X V P R α)
  | mix (p : P) (next : (Fin 4 → R) → Prog X V P R α)

inductive Event (X V P : Type) where
  | hash (x : X)
  | row (k : V)
  | mix (p : P)

/-- Who answers. -/
structure World (X V P R : Type) where
  hash : X → V
  row : V → R
  mix : P → Fin 4 → R

variable {X V P R α β : Type}

def Prog.run (w : World X V P R) : Prog X V P R α → α
  | .ret a => a
  | .hash x next => (next (w.hash x)).run w
  | .row k next => (next (w.row k)).run w
  | .mix p next => (next (w.mix p)).run w

def Prog.log (w : World X V P R) : Prog X V P R α → List (Event X V P)
  | .ret _ => []
  | .hash x next => .hash x :: (next (w.hash x)).log w
  | .row k next => .row k :: (next (w.row k)).log w
  | .mix p next => .mix p :: (next (w.mix p)).log w

def World.Agree (w w' : World X V P R) : Event X V P → Prop
  | .hash x => w'.hash x = w.hash x
  | .row k => w'.row k = w.row k
  | .mix p => w'.mix p = w.mix p

theorem Prog.congr (w w' : World X V P R) (m : Prog X V P R α) (h : ∀ e ∈ m.log w, w.Agree w' e) :
    m.run w' = m.run w ∧ m.log w' = m.log w := by
  induction m with
  | ret a => exact ⟨rfl, rfl⟩
  | hash x next ih =>
    have h0 : w'.hash x = w.hash x := h _ List.mem_cons_self
    obtain ⟨h1, h2⟩ := ih (w.hash x) fun e he => h e (List.mem_cons_of_mem _ he)
    simp only [Prog.run, Prog.log, h0]
    exact ⟨h1, by rw [h2]⟩
  | row k next ih =>
    have h0 : w'.row k = w.row k := h _ List.mem_cons_self
    obtain ⟨h1, h2⟩ := ih (w.row k) fun e he => h e (List.mem_cons_of_mem _ he)
    simp only [Prog.run, Prog.log, h0]
    exact ⟨h1, by rw [h2]⟩
  | mix p next ih =>
    have h0 : w'.mix p = w.mix p := h _ List.mem_cons_self
    obtain ⟨h1, h2⟩ := ih (w.mix p) fun e he => h e (List.mem_cons_of_mem _ he)
    simp only [Prog.run, Prog.log, h0]
    exact ⟨h1, by rw [h2]⟩

def Prog.bind : Prog X V P R α → (α → Prog X V P R β) → Prog X V P R β
  | .ret a, f => f a
  | .hash x next, f => .hash x fun v => (next v).bind f
  | .row k next, f => .row k fun r => (next r).bind f
  | .mix p next, f => .mix p fun r => (next r).bind f

theorem Prog.run_bind (w : World X V P R) (m : Prog X V P R α) (f : α → Prog X V P R β) :
    (m.bind f).run w = (f (m.run w)).run w := by
  induction m with
  | ret a => rfl
  | hash x next ih => exact ih _
  | row k next ih => exact ih _
  | mix p next ih => exact ih _

theorem Prog.log_bind (w : World X V P R) (m : Prog X V P R α) (f : α → Prog X V P R β) :
    (m.bind f).log w = m.log w ++ (f (m.run w)).log w := by
  induction m with
  | ret a => rfl
  | hash x next ih => exact congrArg _ (ih _)
  | row k next ih => exact congrArg _ (ih _)
  | mix p next ih => exact congrArg _ (ih _)

open Classical in
/-- It stops where it would ask for the first hash of a chain. -/
noncomputable def Prog.guard (A : P → X) : Prog X V P R α → Prog X V P R (Option α)
  | .ret a => .ret (some a)
  | .hash x next => if ∃ p, A p = x then .ret none else .hash x fun v => (next v).guard A
  | .row k next => .row k fun r => (next r).guard A
  | .mix p next => .mix p fun r => (next r).guard A

theorem Prog.guard_never (A : P → X) (w : World X V P R) (m : Prog X V P R α) (p : P) : .hash (A p) ∉ (m.guard A).log w := by
  induction m with
  | ret a => exact List.not_mem_nil
  | hash x next ih =>
    unfold Prog.guard
    split
    · exact List.not_mem_nil
    · next h =>
      simp only [Prog.log, List.mem_cons, not_or]
      exact ⟨fun e => h ⟨p, Event.hash.inj e⟩, ih _⟩
  | row k next ih =>
    simp only [Prog.guard, Prog.log, List.mem_cons, reduceCtorEq, false_or]
    exact ih _
  | mix q next ih =>
    simp only [Prog.guard, Prog.log, List.mem_cons, reduceCtorEq, false_or]
    exact ih _

theorem Prog.guard_prefix (A : P → X) (w : World X V P R) (m : Prog X V P R α) : (m.guard A).log w <+: m.log w := by
  induction m with
  | ret a => exact List.prefix_rfl
  | hash x next ih =>
    unfold Prog.guard
    split
    · exact List.nil_prefix
    · exact List.cons_prefix_cons.mpr ⟨rfl, ih _⟩
  | row k next ih => exact List.cons_prefix_cons.mpr ⟨rfl, ih _⟩
  | mix q next ih => exact List.cons_prefix_cons.mpr ⟨rfl, ih _⟩

theorem Prog.guard_log (A : P → X) (w : World X V P R) (m : Prog X V P R α) (h : ∀ p, .hash (A p) ∉ m.log w) :
    (m.guard A).log w = m.log w := by
  induction m with
  | ret a => rfl
  | hash x next ih =>
    unfold Prog.guard
    split
    · next hx =>
      obtain ⟨p, rfl⟩ := hx
      exact absurd List.mem_cons_self (h p)
    · exact congrArg _ (ih _ fun p hp => h p (List.mem_cons_of_mem _ hp))
  | row k next ih => exact congrArg _ (ih _ fun p hp => h p (List.mem_cons_of_mem _ hp))
  | mix q next ih => exact congrArg _ (ih _ fun p hp => h p (List.mem_cons_of_mem _ hp))

/-- It does not stop before the end of the first part. -/
theorem Prog.guard_bind (A : P → X) (w : World X V P R) (m : Prog X V P R α) (f : α → Prog X V P R β)
    (h : ∀ p, .hash (A p) ∉ m.log w) : m.log w ⊆ ((m.bind f).guard A).log w := by
  induction m with
  | ret a => exact List.nil_subset _
  | hash x next ih =>
    unfold Prog.bind Prog.guard
    split
    · next hx =>
      obtain ⟨p, rfl⟩ := hx
      exact absurd List.mem_cons_self (h p)
    · exact List.cons_subset_cons _ (ih _ fun p hp => h p (List.mem_cons_of_mem _ hp))
  | row k next ih => exact List.cons_subset_cons _ (ih _ fun p hp => h p (List.mem_cons_of_mem _ hp))
  | mix q next ih => exact List.cons_subset_cons _ (ih _ fun p hp => h p (List.mem_cons_of_mem _ hp))

/-! ## Programs that stop -/

theorem Prog.guard_run (A : P → X) (w : World X V P R) (m : Prog X V P R α) (h : ∀ p, .hash (A p) ∉ m.log w) :
    (m.guard A).run w = some (m.run w) := by
  induction m with
  | ret a => rfl
  | hash x next ih =>
    unfold Prog.guard
    split
    · next hx =>
      obtain ⟨p, rfl⟩ := hx
      exact absurd List.mem_cons_self (h p)
    · exact ih _ fun p hp => h p (List.mem_cons_of_mem _ hp)
  | row k next ih => exact ih _ fun p hp => h p (List.mem_cons_of_mem _ hp)
  | mix q next ih => exact ih _ fun p hp => h p (List.mem_cons_of_mem _ hp)

theorem Prog.guard_some (A : P → X) (w : World X V P R) (m : Prog X V P R α) (a : α) (h : (m.guard A).run w = some a) (p : P) :
    .hash (A p) ∉ m.log w := by
  induction m with
  | ret a => exact List.not_mem_nil
  | hash x next ih =>
    unfold Prog.guard at h
    split at h
    · cases h
    · next hx =>
      simp only [Prog.log, List.mem_cons, not_or]
      exact ⟨fun e => hx ⟨p, Event.hash.inj e⟩, ih _ h⟩
  | row k next ih =>
    simp only [Prog.log, List.mem_cons, reduceCtorEq, false_or]
    exact ih _ h
  | mix q next ih =>
    simp only [Prog.log, List.mem_cons, reduceCtorEq, false_or]
    exact ih _ h

theorem Prog.guard_log_bind (A : P → X) (w : World X V P R) (m : Prog X V P R α) (f : α → Prog X V P R β)
    (h : ∀ p, .hash (A p) ∉ m.log w) :
    ((m.bind f).guard A).log w = m.log w ++ ((f (m.run w)).guard A).log w := by
  induction m with
  | ret a => rfl
  | hash x next ih =>
    have hx : ¬ ∃ p, A p = x := by
      rintro ⟨p, rfl⟩
      exact h p List.mem_cons_self
    have e : ((Prog.hash x next).bind f).guard A = .hash x fun v => ((next v).bind f).guard A := if_neg hx
    rw [e]
    exact congrArg _ (ih _ fun p hp => h p (List.mem_cons_of_mem _ hp))
  | row k next ih => exact congrArg _ (ih _ fun p hp => h p (List.mem_cons_of_mem _ hp))
  | mix q next ih => exact congrArg _ (ih _ fun p hp => h p (List.mem_cons_of_mem _ hp))

theorem Prog.guard_run_bind (A : P → X) (w : World X V P R) (m : Prog X V P R α) (f : α → Prog X V P R β) :
    ((m.bind f).guard A).run w = ((m.guard A).run w).bind fun a => ((f a).guard A).run w := by
  induction m with
  | ret a => rfl
  | hash x next ih =>
    by_cases hx : ∃ p, A p = x
    · have e : ((Prog.hash x next).guard A) = .ret none := if_pos hx
      have e' : ((Prog.hash x fun v => (next v).bind f).guard A) = .ret none := if_pos hx
      rw [e, Prog.bind, e']
      rfl
    · have e : ((Prog.hash x next).guard A) = .hash x fun v => (next v).guard A := if_neg hx
      have e' : ((Prog.hash x fun v => (next v).bind f).guard A) = .hash x fun v => ((next v).bind f).guard A := if_neg hx
      rw [e, Prog.bind, e']
      exact ih _
  | row k next ih => exact ih _
  | mix q next ih => exact ih _

/-! ## The ideal world -/

/-- A chain has eighteen places. -/
abbrev Place (X P : Type) := X ⊕ P × Fin 18

def Event.points : Event X V P → List (Place X P)
  | .hash x => [.inl x]
  | .row _ => []
  | .mix p => (List.finRange 18).map fun j => .inr (p, j)

theorem Event.points_mix (p : P) : ((.mix p : Event X V P)).points.length = 18 := by simp [Event.points]

/-- The rows are as good as any. -/
def ideal (Z : Place X P → V) (W : V ⊕ P × Fin 4 → R) : World X V P R where
  hash x := Z (.inl x)
  row k := W (.inl k)
  mix p j := W (.inr (p, j))

def Prog.points (m : Prog X V P R α) (Z : Place X P → V) (W : V ⊕ P × Fin 4 → R) : List (Place X P) :=
  (m.log (ideal Z W)).flatMap Event.points

theorem Prog.points_take (m : Prog X V P R α) (Z Z' : Place X P → V) (W : V ⊕ P × Fin 4 → R) (k : Nat)
    (h : ∀ i ∈ (m.points Z W).take k, Z' i = Z i) : (m.points Z' W).take (k + 1) = (m.points Z W).take (k + 1) := by
  induction m generalizing k with
  | ret a => rfl
  | hash x next ih =>
    have e : ∀ Z, (Prog.hash x next).points Z W = .inl x :: (next (Z (.inl x))).points Z W := fun _ => rfl
    rw [e, e]
    rw [e] at h
    cases k with
    | zero => rfl
    | succ k =>
      have h0 : Z' (.inl x) = Z (.inl x) := h _ (by rw [List.take_succ_cons]; exact List.mem_cons_self)
      rw [h0, List.take_succ_cons, List.take_succ_cons, ih _ k fun i hi => h i (by
        rw [List.take_succ_cons]; exact List.mem_cons_of_mem _ hi)]
  | row y next ih => exact ih _ k h
  | mix p next ih =>
    have e : ∀ Z, (Prog.mix p next).points Z W = Event.points (V := V) (.mix p) ++
      (next fun j => W (.inr (p, j))).points Z W := fun _ => rfl
    rw [e, e]
    rw [e] at h
    have l := Event.points_mix (X := X) (V := V) p
    by_cases hk : k < 18
    · rw [List.take_append_of_le_length (by omega), List.take_append_of_le_length (by omega)]
    · rw [List.take_append, List.take_append, l, Nat.sub_add_comm (by omega), ih _ (k - 18) fun i hi => h i (by
        rw [List.take_append, l]; exact List.mem_append_right _ hi)]

theorem Prog.points_length (m : Prog X V P R α) {n : Nat} (Z : Place X P → V) (W : V ⊕ P × Fin 4 → R)
    (hn : (m.log (ideal Z W)).length ≤ n) : (m.points Z W).length ≤ 18 * n := by
  refine le_trans ?_ (Nat.mul_le_mul_left 18 hn)
  unfold Prog.points
  generalize m.log (ideal Z W) = L
  induction L with
  | nil => exact Nat.le_refl _
  | cons e L ih =>
    rw [List.flatMap_cons, List.length_append, List.length_cons]
    have : (Event.points e).length ≤ 18 := by cases e <;> simp [Event.points]
    omega

theorem mem_points {Z : Place X P → V} {W : V ⊕ P × Fin 4 → R} {m : Prog X V P R α} {e : Event X V P} {i : Place X P}
    (h : e ∈ m.log (ideal Z W)) (hi : i ∈ e.points) : i ∈ m.points Z W := List.mem_flatMap.mpr ⟨e, h, hi⟩

theorem mem_points_mix {Z : Place X P → V} {W : V ⊕ P × Fin 4 → R} {m : Prog X V P R α} {p : P}
    (h : .mix p ∈ m.log (ideal Z W)) (j : Fin 18) : .inr (p, j) ∈ m.points Z W :=
  mem_points h (List.mem_map.mpr ⟨j, List.mem_finRange _, rfl⟩)

theorem mem_points_hash {Z : Place X P → V} {W : V ⊕ P × Fin 4 → R} {m : Prog X V P R α} {x : X}
    (h : .hash x ∈ m.log (ideal Z W)) : .inl x ∈ m.points Z W := mem_points h List.mem_cons_self

/-! ## The places of a chain -/

/-- The inputs of a chain: `A p`, then `B`, `C`, `B`, `D`, `B`, then `F`, `B`, `C`, `B`, `D`, `B`, then `E`,
`B`, `C`, `B`, `D`, `B`.  `head` and `tail` are the
two parts of an input.  The four keys of a chain are not to be `bad`, and no hash is to be `start`. -/
structure Shape (X V P : Type) where
  A : P → X
  B : V → V → X
  C : V → X
  D : V → V → X
  E : V → X
  F : V → X
  ck : P → V
  bad : V
  start : V
  head : X → Option V
  tail : X → Option V
  kind : X → Nat
  A_inj : ∀ p q, A p = A q → p = q
  head_B : ∀ k u, head (B k u) = some k
  tail_B : ∀ k u, tail (B k u) = some u
  head_C : ∀ k, head (C k) = some k
  head_D : ∀ k u, head (D k u) = some k
  head_E : ∀ k, head (E k) = some k
  head_F : ∀ k, head (F k) = some k
  kind_A : ∀ p, kind (A p) = 0
  kind_B : ∀ k u, kind (B k u) = 1
  kind_C : ∀ k, kind (C k) = 2
  kind_D : ∀ k u, kind (D k u) = 3
  kind_E : ∀ k, kind (E k) = 4
  kind_F : ∀ k, kind (F k) = 0
  A_F : ∀ p k, A p = F k → k = ck p

variable (S : Shape X V P)

def Shape.addr (p : P) (s : Fin 18 → V) : Fin 18 → X
  | 0 => S.A p
  | 1 => S.B (S.ck p) (s 0)
  | 2 => S.C (s 1)
  | 3 => S.B (s 1) (s 2)
  | 4 => S.D (s 1) (s 3)
  | 5 => S.B (s 1) (s 4)
  | 6 => S.F (s 3)
  | 7 => S.B (s 3) (s 6)
  | 8 => S.C (s 7)
  | 9 => S.B (s 7) (s 8)
  | 10 => S.D (s 7) (s 9)
  | 11 => S.B (s 7) (s 10)
  | 12 => S.E (s 9)
  | 13 => S.B (s 9) (s 12)
  | 14 => S.C (s 13)
  | 15 => S.B (s 13) (s 14)
  | 16 => S.D (s 13) (s 15)
  | _ => S.B (s 13) (s 16)

/-- The four keys. -/
def keyAt : Fin 4 → Fin 18
  | 0 => 5
  | 1 => 11
  | 2 => 15
  | 3 => 17

theorem keyAt_inj {a b : Fin 4} (h : keyAt a = keyAt b) : a = b := by
  revert a b
  decide

/-- The chain. -/
def Shape.chain (H : X → V) (p : P) : Fin 18 → V :=
  let v := H (S.A p)
  let t := H (S.B (S.ck p) v)
  let u := H (S.C t)
  let o := H (S.B t u)
  let u' := H (S.D t o)
  let v2 := H (S.F o)
  let t2 := H (S.B o v2)
  let u2 := H (S.C t2)
  let o2 := H (S.B t2 u2)
  let u2' := H (S.D t2 o2)
  let v3 := H (S.E o2)
  let t3 := H (S.B o2 v3)
  let u3 := H (S.C t3)
  let o3 := H (S.B t3 u3)
  let u3' := H (S.D t3 o3)
  fun
    | 0 => v
    | 1 => t
    | 2 => u
    | 3 => o
    | 4 => u'
    | 5 => H (S.B t u')
    | 6 => v2
    | 7 => t2
    | 8 => u2
    | 9 => o2
    | 10 => u2'
    | 11 => H (S.B t2 u2')
    | 12 => v3
    | 13 => t3
    | 14 => u3
    | 15 => o3
    | 16 => u3'
    | _ => H (S.B t3 u3')

theorem Shape.chain_eq {H : X → V} {p : P} {s : Fin 18 → V} (h : ∀ j, H (S.addr p s j) = s j) : S.chain H p = s := by
  have h0 : H (S.A p) = s 0 := h 0
  have h1 : H (S.B (S.ck p) (s 0)) = s 1 := h 1
  have h2 : H (S.C (s 1)) = s 2 := h 2
  have h3 : H (S.B (s 1) (s 2)) = s 3 := h 3
  have h4 : H (S.D (s 1) (s 3)) = s 4 := h 4
  have h5 : H (S.B (s 1) (s 4)) = s 5 := h 5
  have h6 : H (S.F (s 3)) = s 6 := h 6
  have h7 : H (S.B (s 3) (s 6)) = s 7 := h 7
  have h8 : H (S.C (s 7)) = s 8 := h 8
  have h9 : H (S.B (s 7) (s 8)) = s 9 := h 9
  have h10 : H (S.D (s 7) (s 9)) = s 10 := h 10
  have h11 : H (S.B (s 7) (s 10)) = s 11 := h 11
  have h12 : H (S.E (s 9)) = s 12 := h 12
  have h13 : H (S.B (s 9) (s 12)) = s 13 := h 13
  have h14 : H (S.C (s 13)) = s 14 := h 14
  have h15 : H (S.B (s 13) (s 14)) = s 15 := h 15
  have h16 : H (S.D (s 13) (s 15)) = s 16 := h 16
  have h17 : H (S.B (s 13) (s 16)) = s 17 := h 17
  unfold Shape.chain
  simp only [h0, h1, h2, h3, h4, h5, h6, h7, h8, h9, h10, h11, h12, h13, h14, h15, h16, h17]
  funext j
  fin_cases j <;> rfl

/-- The chain is computed. -/
def real (H : X → V) (T : V → R) : World X V P R where
  hash := H
  row := T
  mix p j := T (S.chain H p (keyAt j))

/-- Values that a place of a chain is not to have. -/
def Shape.avoid : Event X V P → Fin 18 → Option V
  | .hash x, 0 => S.tail x
  | .hash x, 1 => S.head x
  | .hash x, 3 => S.head x
  | .hash x, 7 => S.head x
  | .hash x, 9 => S.head x
  | .hash x, 13 => S.head x
  | .row k, 5 => some k
  | .row k, 11 => some k
  | .row k, 15 => some k
  | .row k, 17 => some k
  | .mix p, 3 => some (S.ck p)
  | .mix _, 5 => some S.bad
  | .mix _, 11 => some S.bad
  | .mix _, 15 => some S.bad
  | .mix _, 17 => some S.bad
  | _, _ => none

structure Good (m : Prog X V P R α) (Z : Place X P → V) (W : V ⊕ P × Fin 4 → R) : Prop where
  inj : ∀ i ∈ m.points Z W, ∀ i' ∈ m.points Z W, Z i = Z i' → i = i'
  start : ∀ i ∈ m.points Z W, Z i ≠ S.start
  apart : ∀ p, .mix p ∈ m.log (ideal Z W) → ∀ e ∈ m.log (ideal Z W), ∀ j, S.avoid e j ≠ some (Z (.inr (p, j)))

/-- Nothing happens by chance among these questions. -/
structure Fine (L : List (Event X V P)) (H : X → V) : Prop where
  hash : ∀ x x', .hash x ∈ L → .hash x' ∈ L → H x = H x' → x = x'
  start : ∀ x, .hash x ∈ L → H x ≠ S.start
  key : ∀ p q, .mix p ∈ L → .mix q ∈ L → ∀ j j', S.chain H p (keyAt j) = S.chain H q (keyAt j') → p = q ∧ j = j'
  row : ∀ p k, .mix p ∈ L → .row k ∈ L → ∀ j, S.chain H p (keyAt j) ≠ k
  bad : ∀ p, .mix p ∈ L → ∀ j, S.chain H p (keyAt j) ≠ S.bad

theorem Fine.subset {S : Shape X V P} {L L' : List (Event X V P)} {H : X → V} (h : Fine S L H) (hs : L' ⊆ L) : Fine S L' H where
  hash x x' hx hx' := h.hash x x' (hs hx) (hs hx')
  start x hx := h.start x (hs hx)
  key p q hp hq := h.key p q (hs hp) (hs hq)
  row p k hp hk := h.row p k (hs hp) (hs hk)
  bad p hp := h.bad p (hs hp)

/-! ## Most tables are good -/

open Classical in
/-- A place that is asked for late has a value that does not depend on it: few tables. -/
theorem few_late [Finite X] [Finite V] [Finite P] (m : Prog X V P R α) (W : V ⊕ P × Fin 4 → R) (k : Nat)
    (val : (Place X P → V) → Option V)
    (hval : ∀ Z i y, i ∉ (m.points Z W).take k → val (update Z i y) = val Z) :
    Nat.card V * Nat.card {Z : Place X P → V // ∃ i, (m.points Z W)[k]? = some i ∧ i ∉ (m.points Z W).take k ∧
      val Z = some (Z i)} ≤ Nat.card (Place X P → V) := by
  let place : (Place X P → V) → Option (Place X P) := fun Z =>
    (m.points Z W)[k]?.bind fun i => if i ∈ (m.points Z W).take k then none else some i
  have hplace : ∀ Z i, place Z = some i ↔ (m.points Z W)[k]? = some i ∧ i ∉ (m.points Z W).take k := by
    intro Z i
    simp only [place, Option.bind_eq_some_iff, Option.ite_none_left_eq_some, Option.some.injEq]
    constructor
    · rintro ⟨_, h1, h2, rfl⟩; exact ⟨h1, h2⟩
    · rintro ⟨h1, h2⟩; exact ⟨i, h1, h2, rfl⟩
  refine le_trans (Nat.mul_le_mul_left _ ?_) (Oracle.few_at place val ?_)
  · refine Nat.card_le_card_of_injective (fun Z => ⟨Z.1, ?_⟩) fun a b h => Subtype.ext (congrArg (fun x => x.1) h)
    obtain ⟨Z, i, h1, h2, h3⟩ := Z
    exact ⟨i, (hplace _ _).mpr ⟨h1, h2⟩, h3⟩
  · intro Z i y hi
    obtain ⟨h1, h2⟩ := (hplace _ _).mp hi
    have hag : ∀ a ∈ (m.points Z W).take k, update Z i y a = Z a := by
      intro a ha
      refine update_of_ne (fun e : a = i => h2 ?_) _ _
      rw [← e]
      exact ha
    have ht := m.points_take Z (update Z i y) W k hag
    refine ⟨?_, hval Z i y h2⟩
    rw [hplace, Oracle.getElem?_take_eq ht (Nat.le_refl k), Oracle.take_take_eq ht]
    exact ⟨h1, h2⟩

open Classical in
theorem few_equal [Finite X] [Finite V] [Finite P] (m : Prog X V P R α) (W : V ⊕ P × Fin 4 → R) (j k : Nat) (hjk : j < k) :
    Nat.card V * Nat.card {Z : Place X P → V // ∃ i, (m.points Z W)[k]? = some i ∧ i ∉ (m.points Z W).take k ∧
      (m.points Z W)[j]?.map Z = some (Z i)} ≤ Nat.card (Place X P → V) := by
  refine few_late m W k (fun Z => (m.points Z W)[j]?.map Z) fun Z i y h2 => ?_
  have hag : ∀ a ∈ (m.points Z W).take k, update Z i y a = Z a := by
    intro a ha
    refine update_of_ne (fun e : a = i => h2 ?_) _ _
    rw [← e]
    exact ha
  have ht := m.points_take Z (update Z i y) W k hag
  show Option.map _ _ = Option.map _ _
  rw [Oracle.getElem?_take_eq ht (by omega)]
  cases hl : (m.points Z W)[j]? with
  | none => rfl
  | some a =>
    rw [Option.map_some, Option.map_some, hag a]
    exact List.mem_iff_getElem?.mpr ⟨j, by rw [List.getElem?_take, if_pos hjk]; exact hl⟩

theorem few_start [Finite X] [Finite V] [Finite P] (m : Prog X V P R α) (W : V ⊕ P × Fin 4 → R) (k : Nat) (c : V) :
    Nat.card V * Nat.card {Z : Place X P → V // ∃ i, (m.points Z W)[k]? = some i ∧ i ∉ (m.points Z W).take k ∧
      some c = some (Z i)} ≤ Nat.card (Place X P → V) :=
  few_late m W k (fun _ => some c) fun _ _ _ _ => rfl

theorem Prog.log_hidden [DecidableEq X] [DecidableEq P] (m : Prog X V P R α) (Z : Place X P → V) (W : V ⊕ P × Fin 4 → R)
    (p : P) (j : Fin 18) (y : V) : m.log (ideal (update Z (.inr (p, j)) y) W) = m.log (ideal Z W) := by
  refine (m.congr (ideal Z W) (ideal (update Z (.inr (p, j)) y) W) ?_).2
  rintro (x | k | q) -
  · show update Z (.inr (p, j)) y (.inl x) = Z (.inl x)
    exact update_of_ne (by intro e; cases e) _ _
  · rfl
  · rfl

open Classical in
theorem few_avoid [Finite X] [Finite V] [Finite P] (m : Prog X V P R α) (W : V ⊕ P × Fin 4 → R) (a b : Nat) (j : Fin 18) :
    Nat.card V * Nat.card {Z : Place X P → V // ∃ p e, (m.log (ideal Z W))[a]? = some (.mix p) ∧
      (m.log (ideal Z W))[b]? = some e ∧ S.avoid e j = some (Z (.inr (p, j)))} ≤ Nat.card (Place X P → V) := by
  let place : (Place X P → V) → Option (Place X P) := fun Z =>
    match (m.log (ideal Z W))[a]? with
    | some (.mix p) => some (.inr (p, j))
    | _ => none
  let val : (Place X P → V) → Option V := fun Z => (m.log (ideal Z W))[b]?.bind fun e => S.avoid e j
  have hplace : ∀ Z i, place Z = some i ↔ ∃ p, (m.log (ideal Z W))[a]? = some (.mix p) ∧ i = .inr (p, j) := by
    intro Z i
    simp only [place]
    split
    · next p h =>
      rw [h]
      constructor
      · intro h; exact ⟨p, rfl, (Option.some.inj h).symm⟩
      · rintro ⟨q, h1, rfl⟩
        cases h1
        rfl
    · next h =>
      constructor
      · intro h; cases h
      · rintro ⟨q, h1, rfl⟩; exact absurd h1 (h q)
  refine le_trans (Nat.mul_le_mul_left _ ?_) (Oracle.few_at place val ?_)
  · refine Nat.card_le_card_of_injective (fun Z => ⟨Z.1, ?_⟩) fun a b h => Subtype.ext (congrArg (fun x => x.1) h)
    obtain ⟨Z, p, e, h1, h2, h3⟩ := Z
    refine ⟨.inr (p, j), (hplace _ _).mpr ⟨p, h1, rfl⟩, ?_⟩
    simp only [val, h2, Option.bind_some, h3]
  · intro Z i y hi
    obtain ⟨p, h1, rfl⟩ := (hplace _ _).mp hi
    have hl := m.log_hidden Z W p j y
    simp only [hplace, val, hl]
    exact ⟨⟨p, h1, rfl⟩, trivial⟩

theorem few_not_good [Finite X] [Finite V] [Finite P] (m : Prog X V P R α) (n : Nat)
    (hn : ∀ w, (m.log w).length ≤ n) (W : V ⊕ P × Fin 4 → R) :
    Nat.card V * Nat.card {Z : Place X P → V // ¬ Good S m Z W} ≤ 360 * n ^ 2 * Nat.card (Place X P → V) := by
  classical
  let hit1 : Fin (18 * n) × Fin (18 * n) → (Place X P → V) → Prop := fun c Z => c.1 < c.2 ∧
    ∃ i, (m.points Z W)[c.2.1]? = some i ∧ i ∉ (m.points Z W).take c.2 ∧ (m.points Z W)[c.1.1]?.map Z = some (Z i)
  let hit2 : Fin n × Fin n × Fin 18 → (Place X P → V) → Prop := fun c Z =>
    ∃ p e, (m.log (ideal Z W))[c.1.1]? = some (.mix p) ∧ (m.log (ideal Z W))[c.2.1.1]? = some e ∧
      S.avoid e c.2.2 = some (Z (.inr (p, c.2.2)))
  let hit3 : Fin (18 * n) → (Place X P → V) → Prop := fun c Z =>
    ∃ i, (m.points Z W)[c.1]? = some i ∧ i ∉ (m.points Z W).take c.1 ∧ some S.start = some (Z i)
  have b1 := Oracle.union_le (Nat.card V) (Nat.card (Place X P → V)) hit1 (by
    rintro ⟨j, k⟩
    by_cases hjk : j < k
    · refine le_trans (Nat.mul_le_mul_left _ ?_) (few_equal m W j.1 k.1 hjk)
      exact Nat.card_le_card_of_injective (fun Z => ⟨Z.1, Z.2.2⟩) fun a b h => Subtype.ext (congrArg (fun x => x.1) h)
    · have : IsEmpty {Z // hit1 (j, k) Z} := ⟨fun Z => hjk Z.2.1⟩
      rw [Nat.card_of_isEmpty (α := {Z // hit1 (j, k) Z}), Nat.mul_zero]
      exact Nat.zero_le _)
  have b2 := Oracle.union_le (Nat.card V) (Nat.card (Place X P → V)) hit2 fun c => few_avoid S m W c.1.1 c.2.1.1 c.2.2
  have b3 := Oracle.union_le (Nat.card V) (Nat.card (Place X P → V)) hit3 fun c => few_start m W c.1 S.start
  have hsub : ∀ Z, ¬ Good S m Z W → (∃ c, hit1 c Z) ∨ (∃ c, hit2 c Z) ∨ ∃ c, hit3 c Z := by
    intro Z hbad
    by_contra hno
    rw [not_or, not_or] at hno
    obtain ⟨n1, n2, n3⟩ := hno
    apply hbad
    have hlen := m.points_length Z W (hn _)
    constructor
    · intro i hi i' hi' he
      obtain ⟨k, hk, hk'⟩ := Oracle.first_index hi
      obtain ⟨j, hj, hj'⟩ := Oracle.first_index hi'
      have lk := (List.getElem?_eq_some_iff.mp hk).1
      have lj := (List.getElem?_eq_some_iff.mp hj).1
      rcases Nat.lt_trichotomy j k with h | h | h
      · exact absurd ⟨(⟨j, by omega⟩, ⟨k, by omega⟩), h, i, hk, hk', by rw [hj, Option.map_some, he]⟩ n1
      · rw [h, hk] at hj
        exact Option.some.inj hj
      · exact absurd ⟨(⟨k, by omega⟩, ⟨j, by omega⟩), h, i', hj, hj', by rw [hk, Option.map_some, he]⟩ n1
    · intro i hi he
      obtain ⟨k, hk, hk'⟩ := Oracle.first_index hi
      have lk := (List.getElem?_eq_some_iff.mp hk).1
      exact n3 ⟨⟨k, by omega⟩, i, hk, hk', congrArg some he.symm⟩
    · intro p hp e he j hav
      obtain ⟨a, ha⟩ := List.mem_iff_getElem?.mp hp
      obtain ⟨b, hb⟩ := List.mem_iff_getElem?.mp he
      have la := (List.getElem?_eq_some_iff.mp ha).1
      have lb := (List.getElem?_eq_some_iff.mp hb).1
      have := hn (ideal Z W)
      exact n2 ⟨(⟨a, by omega⟩, ⟨b, by omega⟩, j), p, e, ha, hb, hav⟩
  have b4 : Nat.card {Z : Place X P → V // ¬ Good S m Z W} ≤
      Nat.card {Z // (∃ c, hit1 c Z) ∨ (∃ c, hit2 c Z) ∨ ∃ c, hit3 c Z} :=
    Nat.card_le_card_of_injective (fun Z => ⟨Z.1, hsub _ Z.2⟩) fun a b h => Subtype.ext (congrArg (fun x => x.1) h)
  refine (Nat.mul_le_mul_left _ (b4.trans ((Oracle.card_or_le _ _).trans
    (Nat.add_le_add_left (Oracle.card_or_le _ _) _)))).trans ?_
  rw [Nat.mul_add, Nat.mul_add]
  refine (Nat.add_le_add b1 (Nat.add_le_add b2 b3)).trans ?_
  simp only [Fintype.card_prod, Fintype.card_fin]
  rw [← Nat.add_mul, ← Nat.add_mul]
  refine Nat.mul_le_mul_right _ ?_
  have h1 : n ≤ n ^ 2 := Nat.le_self_pow (by decide) n
  have h2 : 18 * n * (18 * n) + (n * (n * 18) + 18 * n) = 342 * n ^ 2 + 18 * n := by ring
  omega

/-! ## From the ideal to the real world -/

variable {S} {m : Prog X V P R α} {Z : Place X P → V} {W : V ⊕ P × Fin 4 → R}

/-- The values of a chain in the ideal world. -/
def slot (Z : Place X P → V) (p : P) : Fin 18 → V := fun j => Z (.inr (p, j))

theorem Good.slot_inj (g : Good S m Z W) {p q : P} (hp : .mix p ∈ m.log (ideal Z W)) (hq : .mix q ∈ m.log (ideal Z W))
    {j j' : Fin 18} (h : slot Z p j = slot Z q j') : p = q ∧ j = j' := by
  have := Sum.inr.inj (g.inj _ (mem_points_mix hp j) _ (mem_points_mix hq j') h)
  exact Prod.mk.inj this

/-- What is in the two parts of an address. -/
theorem Shape.addr_parts (p : P) (s : Fin 18 → V) (j : Fin 18) :
    (j = 0 ∧ S.addr p s j = S.A p) ∨
    (∃ i k, S.addr p s j = S.B k (s i) ∧ (j, i) ∈ [((1 : Fin 18), (0 : Fin 18)), (3, 2), (5, 4), (7, 6), (9, 8), (11, 10), (13, 12), (15, 14), (17, 16)]) ∨
    (∃ i, S.addr p s j = S.C (s i) ∧ (j, i) ∈ [((2 : Fin 18), (1 : Fin 18)), (8, 7), (14, 13)]) ∨
    (∃ i k, S.addr p s j = S.D (s i) k ∧ (j, i) ∈ [((4 : Fin 18), (1 : Fin 18)), (10, 7), (16, 13)]) ∨
    (j = 12 ∧ S.addr p s j = S.E (s 9)) ∨
    (j = 6 ∧ S.addr p s j = S.F (s 3)) := by
  fin_cases j
  · exact .inl ⟨rfl, rfl⟩
  · exact .inr (.inl ⟨0, _, rfl, by decide⟩)
  · exact .inr (.inr (.inl ⟨1, rfl, by decide⟩))
  · exact .inr (.inl ⟨2, _, rfl, by decide⟩)
  · exact .inr (.inr (.inr (.inl ⟨1, _, rfl, by decide⟩)))
  · exact .inr (.inl ⟨4, _, rfl, by decide⟩)
  · exact .inr (.inr (.inr (.inr (.inr ⟨rfl, rfl⟩))))
  · exact .inr (.inl ⟨6, _, rfl, by decide⟩)
  · exact .inr (.inr (.inl ⟨7, rfl, by decide⟩))
  · exact .inr (.inl ⟨8, _, rfl, by decide⟩)
  · exact .inr (.inr (.inr (.inl ⟨7, _, rfl, by decide⟩)))
  · exact .inr (.inl ⟨10, _, rfl, by decide⟩)
  · exact .inr (.inr (.inr (.inr (.inl ⟨rfl, rfl⟩))))
  · exact .inr (.inl ⟨12, _, rfl, by decide⟩)
  · exact .inr (.inr (.inl ⟨13, rfl, by decide⟩))
  · exact .inr (.inl ⟨14, _, rfl, by decide⟩)
  · exact .inr (.inr (.inr (.inl ⟨13, _, rfl, by decide⟩)))
  · exact .inr (.inl ⟨16, _, rfl, by decide⟩)

theorem Good.addr_inj (g : Good S m Z W) {p q : P} (hp : .mix p ∈ m.log (ideal Z W)) (hq : .mix q ∈ m.log (ideal Z W))
    (j j' : Fin 18) (h : S.addr p (slot Z p) j = S.addr q (slot Z q) j') : p = q ∧ j = j' := by
  have u1 : ∀ j j' i : Fin 18, (j, i) ∈ [((1 : Fin 18), (0 : Fin 18)), (3, 2), (5, 4), (7, 6), (9, 8), (11, 10), (13, 12), (15, 14), (17, 16)] →
      (j', i) ∈ [((1 : Fin 18), (0 : Fin 18)), (3, 2), (5, 4), (7, 6), (9, 8), (11, 10), (13, 12), (15, 14), (17, 16)] → j = j' := by decide
  have u2 : ∀ j j' i : Fin 18, (j, i) ∈ [((2 : Fin 18), (1 : Fin 18)), (8, 7), (14, 13)] → (j', i) ∈ [((2 : Fin 18), (1 : Fin 18)), (8, 7), (14, 13)] → j = j' := by decide
  have u3 : ∀ j j' i : Fin 18, (j, i) ∈ [((4 : Fin 18), (1 : Fin 18)), (10, 7), (16, 13)] → (j', i) ∈ [((4 : Fin 18), (1 : Fin 18)), (10, 7), (16, 13)] → j = j' := by decide
  have far : ∀ p q, .mix p ∈ m.log (ideal Z W) → .mix q ∈ m.log (ideal Z W) → S.A p ≠ S.F (slot Z q 3) := fun p q hp hq e =>
    g.apart q hq _ hp 3 (congrArg some (S.A_F _ _ e).symm)
  rcases S.addr_parts p (slot Z p) j with ⟨a2, a1⟩ | ⟨i, k, a1, a2⟩ | ⟨i, a1, a2⟩ | ⟨i, k, a1, a2⟩ | ⟨a2, a1⟩ | ⟨a2, a1⟩ <;>
    rcases S.addr_parts q (slot Z q) j' with ⟨b2, b1⟩ | ⟨i', k', b1, b2⟩ | ⟨i', b1, b2⟩ | ⟨i', k', b1, b2⟩ | ⟨b2, b1⟩ | ⟨b2, b1⟩ <;>
    rw [a1, b1] at h <;>
    first
    | (exfalso
       have hk := congrArg S.kind h
       simp only [S.kind_A, S.kind_B, S.kind_C, S.kind_D, S.kind_E, S.kind_F] at hk
       exact absurd hk (by decide))
    | skip
  · exact ⟨S.A_inj _ _ h, a2.trans b2.symm⟩
  · exact absurd h (far _ _ hp hq)
  · have h' := congrArg S.tail h
    rw [S.tail_B, S.tail_B] at h'
    obtain ⟨h1, h2⟩ := g.slot_inj hp hq (Option.some.inj h')
    exact ⟨h1, u1 _ _ _ a2 (h2 ▸ b2)⟩
  · have h' := congrArg S.head h
    rw [S.head_C, S.head_C] at h'
    obtain ⟨h1, h2⟩ := g.slot_inj hp hq (Option.some.inj h')
    exact ⟨h1, u2 _ _ _ a2 (h2 ▸ b2)⟩
  · have h' := congrArg S.head h
    rw [S.head_D, S.head_D] at h'
    obtain ⟨h1, h2⟩ := g.slot_inj hp hq (Option.some.inj h')
    exact ⟨h1, u3 _ _ _ a2 (h2 ▸ b2)⟩
  · have h' := congrArg S.head h
    rw [S.head_E, S.head_E] at h'
    obtain ⟨h1, h2⟩ := g.slot_inj hp hq (Option.some.inj h')
    exact ⟨h1, a2.trans b2.symm⟩
  · exact absurd h.symm (far _ _ hq hp)
  · have h' := congrArg S.head h
    rw [S.head_F, S.head_F] at h'
    obtain ⟨h1, h2⟩ := g.slot_inj hp hq (Option.some.inj h')
    exact ⟨h1, a2.trans b2.symm⟩

theorem Good.addr_new (g : Good S m Z W) (hA : ∀ w p, .hash (S.A p) ∉ m.log w) {p : P} (hp : .mix p ∈ m.log (ideal Z W))
    (j : Fin 18) : .hash (S.addr p (slot Z p) j) ∉ m.log (ideal Z W) := by
  intro h
  have h0 := g.apart p hp _ h 0
  have h1 := g.apart p hp _ h 1
  have h3 := g.apart p hp _ h 3
  have h7 := g.apart p hp _ h 7
  have h9 := g.apart p hp _ h 9
  have h13 := g.apart p hp _ h 13
  fin_cases j
  · exact hA _ _ h
  · exact h0 (S.tail_B _ _)
  · exact h1 (S.head_C _)
  · exact h1 (S.head_B _ _)
  · exact h1 (S.head_D _ _)
  · exact h1 (S.head_B _ _)
  · exact h3 (S.head_F _)
  · exact h3 (S.head_B _ _)
  · exact h7 (S.head_C _)
  · exact h7 (S.head_B _ _)
  · exact h7 (S.head_D _ _)
  · exact h7 (S.head_B _ _)
  · exact h9 (S.head_E _)
  · exact h9 (S.head_B _ _)
  · exact h13 (S.head_C _)
  · exact h13 (S.head_B _ _)
  · exact h13 (S.head_D _ _)
  · exact h13 (S.head_B _ _)

theorem Good.key_ne_row (g : Good S m Z W) {p : P} (hp : .mix p ∈ m.log (ideal Z W)) {k : V}
    (hk : .row k ∈ m.log (ideal Z W)) (j : Fin 4) : slot Z p (keyAt j) ≠ k := by
  intro e
  fin_cases j
  · exact g.apart p hp _ hk 5 (congrArg some e.symm)
  · exact g.apart p hp _ hk 11 (congrArg some e.symm)
  · exact g.apart p hp _ hk 15 (congrArg some e.symm)
  · exact g.apart p hp _ hk 17 (congrArg some e.symm)

theorem Good.key_ne_bad (g : Good S m Z W) {p : P} (hp : .mix p ∈ m.log (ideal Z W)) (j : Fin 4) :
    slot Z p (keyAt j) ≠ S.bad := by
  intro e
  fin_cases j
  · exact g.apart p hp _ hp 5 (congrArg some e.symm)
  · exact g.apart p hp _ hp 11 (congrArg some e.symm)
  · exact g.apart p hp _ hp 15 (congrArg some e.symm)
  · exact g.apart p hp _ hp 17 (congrArg some e.symm)

open Classical in
/-- The values of the chains are moved to the hash function, and what was there takes their places. -/
noncomputable def movedZ (S : Shape X V P) (m : Prog X V P R α) (Z : Place X P → V) (W : V ⊕ P × Fin 4 → R) : Place X P → V
  | .inl x => if h : ∃ q : P × Fin 18, .mix q.1 ∈ m.log (ideal Z W) ∧ S.addr q.1 (slot Z q.1) q.2 = x then
      Z (.inr h.choose) else Z (.inl x)
  | .inr q => if .mix q.1 ∈ m.log (ideal Z W) then Z (.inl (S.addr q.1 (slot Z q.1) q.2)) else Z (.inr q)

open Classical in
noncomputable def movedW (m : Prog X V P R α) (Z : Place X P → V) (W : V ⊕ P × Fin 4 → R) : V ⊕ P × Fin 4 → R
  | .inl k => if h : ∃ q : P × Fin 4, .mix q.1 ∈ m.log (ideal Z W) ∧ slot Z q.1 (keyAt q.2) = k then W (.inr h.choose)
      else W (.inl k)
  | .inr q => if .mix q.1 ∈ m.log (ideal Z W) then W (.inl (slot Z q.1 (keyAt q.2))) else W (.inr q)

theorem Good.movedZ_addr (g : Good S m Z W) {p : P} (hp : .mix p ∈ m.log (ideal Z W)) (j : Fin 18) :
    movedZ S m Z W (.inl (S.addr p (slot Z p) j)) = slot Z p j := by
  have hex : ∃ q : P × Fin 18, .mix q.1 ∈ m.log (ideal Z W) ∧ S.addr q.1 (slot Z q.1) q.2 = S.addr p (slot Z p) j :=
    ⟨(p, j), hp, rfl⟩
  simp only [movedZ]
  rw [dif_pos hex]
  obtain ⟨h1, h2⟩ := g.addr_inj hex.choose_spec.1 hp _ _ hex.choose_spec.2
  have : hex.choose = (p, j) := Prod.ext h1 h2
  rw [this]
  rfl

theorem Good.movedW_key (g : Good S m Z W) {p : P} (hp : .mix p ∈ m.log (ideal Z W)) (j : Fin 4) :
    movedW m Z W (.inl (slot Z p (keyAt j))) = W (.inr (p, j)) := by
  have hex : ∃ q : P × Fin 4, .mix q.1 ∈ m.log (ideal Z W) ∧ slot Z q.1 (keyAt q.2) = slot Z p (keyAt j) := ⟨(p, j), hp, rfl⟩
  simp only [movedW]
  rw [dif_pos hex]
  obtain ⟨h1, h2⟩ := g.slot_inj hex.choose_spec.1 hp hex.choose_spec.2
  have : hex.choose = (p, j) := Prod.ext h1 (keyAt_inj h2)
  rw [this]

theorem Good.chain_moved (g : Good S m Z W) {p : P} (hp : .mix p ∈ m.log (ideal Z W)) :
    S.chain (fun x => movedZ S m Z W (.inl x)) p = slot Z p :=
  S.chain_eq fun j => g.movedZ_addr hp j

theorem Good.hash_moved (g : Good S m Z W) (hA : ∀ w p, .hash (S.A p) ∉ m.log w) {x : X}
    (hx : .hash x ∈ m.log (ideal Z W)) : movedZ S m Z W (.inl x) = Z (.inl x) := by
  simp only [movedZ]
  rw [dif_neg]
  rintro ⟨q, hq, rfl⟩
  exact g.addr_new hA hq _ hx

theorem Good.log_moved (g : Good S m Z W) (hA : ∀ w p, .hash (S.A p) ∉ m.log w) :
    m.log (real S (fun x => movedZ S m Z W (.inl x)) (fun k => movedW m Z W (.inl k))) = m.log (ideal Z W) := by
  refine (m.congr (ideal Z W) _ ?_).2
  rintro (x | k | p) he
  · exact g.hash_moved hA he
  · show movedW m Z W (.inl k) = W (.inl k)
    simp only [movedW]
    rw [dif_neg]
    rintro ⟨q, hq, e⟩
    exact g.key_ne_row hq he q.2 e
  · funext j
    show movedW m Z W (.inl (S.chain _ p (keyAt j))) = _
    rw [g.chain_moved he]
    exact g.movedW_key he j

theorem Good.fine (g : Good S m Z W) (hA : ∀ w p, .hash (S.A p) ∉ m.log w) :
    Fine S (m.log (real S (fun x => movedZ S m Z W (.inl x)) (fun k => movedW m Z W (.inl k))))
      (fun x => movedZ S m Z W (.inl x)) := by
  have hl := g.log_moved hA
  constructor
  · intro x x' hx hx'
    rw [hl] at hx hx'
    rw [g.hash_moved hA hx, g.hash_moved hA hx']
    intro h
    exact Sum.inl.inj (g.inj _ (mem_points_hash hx) _ (mem_points_hash hx') h)
  · intro x hx
    rw [hl] at hx
    rw [g.hash_moved hA hx]
    exact g.start _ (mem_points_hash hx)
  · intro p q hp hq j j'
    rw [hl] at hp hq
    rw [g.chain_moved hp, g.chain_moved hq]
    intro h
    obtain ⟨h1, h2⟩ := g.slot_inj hp hq h
    exact ⟨h1, keyAt_inj h2⟩
  · intro p k hp hk j
    rw [hl] at hp hk
    rw [g.chain_moved hp]
    exact g.key_ne_row hp hk j
  · intro p hp j
    rw [hl] at hp
    rw [g.chain_moved hp]
    exact g.key_ne_bad hp j

theorem moved_inj {Z' : Place X P → V} {W' : V ⊕ P × Fin 4 → R} (hA : ∀ w p, .hash (S.A p) ∉ m.log w) (g : Good S m Z W)
    (g' : Good S m Z' W') (hZ : movedZ S m Z W = movedZ S m Z' W') (hW : movedW m Z W = movedW m Z' W') :
    Z = Z' ∧ W = W' := by
  have hl : m.log (ideal Z' W') = m.log (ideal Z W) := by
    rw [← g.log_moved hA, ← g'.log_moved hA, hZ, hW]
  have hs : ∀ p, .mix p ∈ m.log (ideal Z W) → slot Z' p = slot Z p := by
    intro p hp
    rw [← g.chain_moved hp, ← g'.chain_moved (by rw [hl]; exact hp), hZ]
  constructor
  · funext i
    rcases i with x | q
    · by_cases hx : ∃ q : P × Fin 18, .mix q.1 ∈ m.log (ideal Z W) ∧ S.addr q.1 (slot Z q.1) q.2 = x
      · obtain ⟨q, hq, rfl⟩ := hx
        have h := congrFun hZ (.inr q)
        simp only [movedZ] at h
        rw [if_pos hq, hl, if_pos hq, hs _ hq] at h
        exact h
      · have h := congrFun hZ (.inl x)
        simp only [movedZ] at h
        rw [dif_neg hx, dif_neg] at h
        · exact h
        · rintro ⟨q, hq, e⟩
          rw [hl] at hq
          rw [hs _ hq] at e
          exact hx ⟨q, hq, e⟩
    · by_cases hq : .mix q.1 ∈ m.log (ideal Z W)
      · exact (congrFun (hs _ hq) q.2).symm
      · have h := congrFun hZ (.inr q)
        simp only [movedZ] at h
        rwa [if_neg hq, hl, if_neg hq] at h
  · funext i
    rcases i with k | q
    · by_cases hk : ∃ q : P × Fin 4, .mix q.1 ∈ m.log (ideal Z W) ∧ slot Z q.1 (keyAt q.2) = k
      · obtain ⟨q, hq, rfl⟩ := hk
        have h := congrFun hW (.inr q)
        simp only [movedW] at h
        rw [if_pos hq, hl, if_pos hq, hs _ hq] at h
        exact h
      · have h := congrFun hW (.inl k)
        simp only [movedW] at h
        rw [dif_neg hk, dif_neg] at h
        · exact h
        · rintro ⟨q, hq, e⟩
          rw [hl] at hq
          rw [hs _ hq] at e
          exact hk ⟨q, hq, e⟩
    · by_cases hq : .mix q.1 ∈ m.log (ideal Z W)
      · have h := congrFun hW (.inl (slot Z q.1 (keyAt q.2)))
        rw [g.movedW_key hq] at h
        rw [← hs _ hq, g'.movedW_key (by rw [hl]; exact hq)] at h
        exact h
      · have h := congrFun hW (.inr q)
        simp only [movedW] at h
        rwa [if_neg hq, hl, if_neg hq] at h

/-! ## The real world -/

section
variable {S : Shape X V P} {m : Prog X V P R α} {Z : Place X P → V} {W : V ⊕ P × Fin 4 → R}

theorem Good.run_moved (g : Good S m Z W) (hA : ∀ w p, .hash (S.A p) ∉ m.log w) :
    m.run (real S (fun x => movedZ S m Z W (.inl x)) (fun k => movedW m Z W (.inl k))) = m.run (ideal Z W) := by
  refine (m.congr (ideal Z W) _ ?_).1
  rintro (x | k | p) he
  · exact g.hash_moved hA he
  · show movedW m Z W (.inl k) = W (.inl k)
    simp only [movedW]
    rw [dif_neg]
    rintro ⟨q, hq, e⟩
    exact g.key_ne_row hq he q.2 e
  · funext j
    show movedW m Z W (.inl (S.chain _ p (keyAt j))) = _
    rw [g.chain_moved he]
    exact g.movedW_key he j

end

variable (S : Shape X V P)

private theorem card_compl {Y : Type} [Finite Y] (p : Y → Prop) : Nat.card {x // p x} + Nat.card {x // ¬ p x} = Nat.card Y := by
  classical
  rw [← Nat.card_sum]
  exact Nat.card_congr (Equiv.sumCompl p)

private theorem card_le_two {Y : Type} [Finite Y] {p q r : Y → Prop} (h : ∀ x, p x → q x ∨ r x) :
    Nat.card {x // p x} ≤ Nat.card {x // q x} + Nat.card {x // r x} := by
  classical
  rw [← Nat.card_sum]
  refine Nat.card_le_card_of_injective (fun x => if hq : q x.1 then .inl ⟨x.1, hq⟩ else .inr ⟨x.1, (h x.1 x.2).resolve_left hq⟩) ?_
  intro a b hab
  simp only at hab
  split at hab <;> split at hab
  · exact Subtype.ext (congrArg (fun y => y.1) (Sum.inl.inj hab))
  · cases hab
  · cases hab
  · exact Subtype.ext (congrArg (fun y => y.1) (Sum.inr.inj hab))

/-- How many more worlds there are with the chains on their own. -/
abbrev Extra (V P R : Type) := (P × Fin 18 → V) × (P × Fin 4 → R)

/-- A good ideal world is a fine real world. -/
theorem card_good [Finite X] [Finite V] [Finite P] [Finite R] (m : Prog X V P R α) (hA : ∀ w p, .hash (S.A p) ∉ m.log w)
    (φ : α → Prop) :
    Nat.card {z : (Place X P → V) × (V ⊕ P × Fin 4 → R) // Good S m z.1 z.2 ∧ φ (m.run (ideal z.1 z.2))} ≤
      Nat.card {x : (X → V) × (V → R) // Fine S (m.log (real S x.1 x.2)) x.1 ∧ φ (m.run (real S x.1 x.2))} *
        Nat.card (Extra V P R) := by
  let A := (Place X P → V) × (V ⊕ P × Fin 4 → R)
  let B := (X → V) × (V → R)
  let e : A ≃ B × Extra V P R :=
    { toFun := fun z => ((fun x => z.1 (.inl x), fun k => z.2 (.inl k)), (fun q => z.1 (.inr q), fun p => z.2 (.inr p)))
      invFun := fun y => (Sum.elim y.1.1 y.2.1, Sum.elim y.1.2 y.2.2)
      left_inv := fun z => by
        refine Prod.ext ?_ ?_ <;> funext i <;> cases i <;> rfl
      right_inv := fun y => rfl }
  rw [← Nat.card_prod]
  refine Nat.card_le_card_of_injective (fun z => (⟨(e (movedZ S m z.1.1 z.1.2, movedW m z.1.1 z.1.2)).1, z.2.1.fine hA, ?_⟩,
    (e (movedZ S m z.1.1 z.1.2, movedW m z.1.1 z.1.2)).2)) ?_
  · have : m.run (real S (e (movedZ S m z.1.1 z.1.2, movedW m z.1.1 z.1.2)).1.1
        (e (movedZ S m z.1.1 z.1.2, movedW m z.1.1 z.1.2)).1.2) = m.run (ideal z.1.1 z.1.2) := z.2.1.run_moved hA
    rw [this]
    exact z.2.2
  · intro a b hab
    have h1 := congrArg (fun y => y.1.1) hab
    have h2 := congrArg (fun y => y.2) hab
    have h3 := e.injective (Prod.ext h1 h2)
    obtain ⟨h4, h5⟩ := moved_inj hA a.2.1 b.2.1 (congrArg Prod.fst h3) (congrArg Prod.snd h3)
    exact Subtype.ext (Prod.ext h4 h5)

theorem card_worlds [Finite X] [Finite V] [Finite P] [Finite R] :
    Nat.card ((Place X P → V) × (V ⊕ P × Fin 4 → R)) = Nat.card ((X → V) × (V → R)) * Nat.card (Extra V P R) := by
  rw [← Nat.card_prod]
  exact Nat.card_congr
    { toFun := fun z => ((fun x => z.1 (.inl x), fun k => z.2 (.inl k)), (fun q => z.1 (.inr q), fun p => z.2 (.inr p)))
      invFun := fun y => (Sum.elim y.1.1 y.2.1, Sum.elim y.1.2 y.2.2)
      left_inv := fun z => by
        refine Prod.ext ?_ ?_ <;> funext i <;> cases i <;> rfl
      right_inv := fun y => rfl }

theorem few_not_good_all [Finite X] [Finite V] [Finite P] [Finite R] (m : Prog X V P R α) (n : Nat)
    (hn : ∀ w, (m.log w).length ≤ n) :
    Nat.card V * Nat.card {z : (Place X P → V) × (V ⊕ P × Fin 4 → R) // ¬ Good S m z.1 z.2} ≤
      360 * n ^ 2 * Nat.card ((Place X P → V) × (V ⊕ P × Fin 4 → R)) := by
  have := Fintype.ofFinite (V ⊕ P × Fin 4 → R)
  have e' : {z : (Place X P → V) × (V ⊕ P × Fin 4 → R) // ¬ Good S m z.1 z.2} ≃
      Σ W : V ⊕ P × Fin 4 → R, {Z : Place X P → V // ¬ Good S m Z W} :=
    { toFun := fun z => ⟨z.1.2, z.1.1, z.2⟩
      invFun := fun y => ⟨(y.2.1, y.1), y.2.2⟩
      left_inv := fun _ => rfl
      right_inv := fun _ => rfl }
  rw [Nat.card_congr e', Nat.card_sigma, Finset.mul_sum, Nat.card_prod]
  refine (Finset.sum_le_sum fun W _ => few_not_good S m n hn W).trans ?_
  rw [Finset.sum_const, Finset.card_univ, Nat.card_eq_fintype_card (α := V ⊕ P × Fin 4 → R)]
  refine le_of_eq ?_
  show _ * _ = _
  ring

/-- If two programs say yes in equally many ideal worlds, then in about equally many real ones. -/
theorem card_real [Finite X] [Finite V] [Finite P] [Finite R] [Nonempty V] [Nonempty R] (S' : Shape X V P)
    (m m' : Prog X V P R α) (n : Nat)
    (hn : ∀ w, (m.log w).length ≤ n) (hn' : ∀ w, (m'.log w).length ≤ n) (hA : ∀ w p, .hash (S.A p) ∉ m.log w)
    (hA' : ∀ w p, .hash (S'.A p) ∉ m'.log w) (φ : α → Prop)
    (heq : Nat.card {z : (Place X P → V) × (V ⊕ P × Fin 4 → R) // φ (m.run (ideal z.1 z.2))} =
      Nat.card {z : (Place X P → V) × (V ⊕ P × Fin 4 → R) // φ (m'.run (ideal z.1 z.2))}) :
    Nat.card V * Nat.card {x : (X → V) × (V → R) // Fine S (m.log (real S x.1 x.2)) x.1 → φ (m.run (real S x.1 x.2))} ≤
      Nat.card V * Nat.card {x : (X → V) × (V → R) // Fine S' (m'.log (real S' x.1 x.2)) x.1 ∧ φ (m'.run (real S' x.1 x.2))} +
        720 * n ^ 2 * Nat.card ((X → V) × (V → R)) := by
  have hE : 0 < Nat.card (Extra V P R) := Nat.card_pos
  have g1 := card_good S m hA (fun a => ¬ φ a)
  have g2 := card_good S' m' hA' φ
  have b1 := few_not_good_all S m n hn
  have b2 := few_not_good_all S' m' n hn'
  have hw := card_worlds (X := X) (V := V) (P := P) (R := R)
  -- the first program
  have c1 := card_compl (fun x : (X → V) × (V → R) => Fine S (m.log (real S x.1 x.2)) x.1 ∧ ¬ φ (m.run (real S x.1 x.2)))
  have c1' : Nat.card {x : (X → V) × (V → R) // ¬ (Fine S (m.log (real S x.1 x.2)) x.1 ∧ ¬ φ (m.run (real S x.1 x.2)))} =
      Nat.card {x : (X → V) × (V → R) // Fine S (m.log (real S x.1 x.2)) x.1 → φ (m.run (real S x.1 x.2))} :=
    Nat.card_congr (Equiv.subtypeEquivRight fun x => by tauto)
  have c2 := card_compl (fun z : (Place X P → V) × (V ⊕ P × Fin 4 → R) => Good S m z.1 z.2 ∧ ¬ φ (m.run (ideal z.1 z.2)))
  have c3 : Nat.card {z : (Place X P → V) × (V ⊕ P × Fin 4 → R) // ¬ (Good S m z.1 z.2 ∧ ¬ φ (m.run (ideal z.1 z.2)))} ≤
      Nat.card {z : (Place X P → V) × (V ⊕ P × Fin 4 → R) // ¬ Good S m z.1 z.2} +
      Nat.card {z : (Place X P → V) × (V ⊕ P × Fin 4 → R) // φ (m.run (ideal z.1 z.2))} :=
    card_le_two fun z h => by tauto
  have c4 : Nat.card {z : (Place X P → V) × (V ⊕ P × Fin 4 → R) // φ (m'.run (ideal z.1 z.2))} ≤
      Nat.card {z : (Place X P → V) × (V ⊕ P × Fin 4 → R) // ¬ Good S' m' z.1 z.2} +
      Nat.card {z : (Place X P → V) × (V ⊕ P × Fin 4 → R) // Good S' m' z.1 z.2 ∧ φ (m'.run (ideal z.1 z.2))} :=
    card_le_two fun z h => by tauto
  generalize Nat.card (Extra V P R) = e at *
  generalize Nat.card ((X → V) × (V → R)) = b at *
  rw [c1'] at c1
  generalize Nat.card {x : (X → V) × (V → R) // Fine S (m.log (real S x.1 x.2)) x.1 → φ (m.run (real S x.1 x.2))} = r at *
  generalize Nat.card {x : (X → V) × (V → R) // Fine S' (m'.log (real S' x.1 x.2)) x.1 ∧ φ (m'.run (real S' x.1 x.2))} = r' at *
  rw [hw] at c2 b1 b2
  have h1 : r * e ≤ Nat.card {z : (Place X P → V) × (V ⊕ P × Fin 4 → R) // ¬ Good S m z.1 z.2} +
      Nat.card {z : (Place X P → V) × (V ⊕ P × Fin 4 → R) // ¬ Good S' m' z.1 z.2} + r' * e := by
    have := congrArg (· * e) c1
    simp only [Nat.add_mul] at this
    omega
  have h2 := Nat.mul_le_mul_left (Nat.card V) h1
  refine Nat.le_of_mul_le_mul_right ?_ hE
  simp only [Nat.mul_add] at h2
  have e1 : Nat.card V * r * e = Nat.card V * (r * e) := by ring
  have e2 : (Nat.card V * r' + 720 * n ^ 2 * b) * e = Nat.card V * (r' * e) + 2 * (360 * n ^ 2 * (b * e)) := by ring
  rw [e1, e2]
  omega

end SV2.Long
