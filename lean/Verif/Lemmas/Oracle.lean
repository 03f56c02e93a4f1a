import Verif.Lemmas.Rows
import Mathlib.Data.Finite.Sum
import Mathlib.Data.Finite.Prod
import Mathlib.Tactic.FinCases
import Mathlib.Tactic.Ring
/-!
# A chain of hashes that nobody else computes

A program asks a random function for hashes and for the rows of a random table.  For some inputs it asks for a chain of six
hashes, of which it sees only the fourth, the row of the table that the sixth one names, and whether the sixth one is a
certain bad value.  If it never asks for the first hash of such a chain itself, then nearly always what it sees is as good as
chosen apart from the function: no key at the end of a chain is the key of a row that it asked for, and no two of the values
it sees agree by chance.
-/

namespace SV2.Oracle
open Function

/-! ## Programs -/

inductive Prog (X V P R α : Type) where
  | ret (a : α)
  | hash (x : X) (next : V → Prog X V P R α)
  | row (k : V) (next : R → Prog X V P R α)
  | mix (p : P) (next : V → R → Bool → Prog X V P R α)

inductive Event (X V P : Type) where
  | hash (x : X)
  | row (k : V)
  | mix (p : P)

/-- Who answers. -/
structure World (X V P R : Type) where
  hash : X → V
  row : V → R
  mix : P → V × R × Bool

variable {X V P R α β : Type}

def Prog.run (w : World X V P R) : Prog X V P R α → α
  | .ret a => a
  | .hash x next => (next (w.hash x)).run w
  | .row k next => (next (w.row k)).run w
  | .mix p next => (next (w.mix p).1 (w.mix p).2.1 (w.mix p).2.2).run w

def Prog.log (w : World X V P R) : Prog X V P R α → List (Event X V P)
  | .ret _ => []
  | .hash x next => .hash x :: (next (w.hash x)).log w
  | .row k next => .row k :: (next (w.row k)).log w
  | .mix p next => .mix p :: (next (w.mix p).1 (w.mix p).2.1 (w.mix p).2.2).log w

def World.Agree (w w' : World X V P R) : Event X V P → Prop
  | .hash x => w'.hash x = w.hash x
  | .row k => w'.row k = w.row k
  | .mix p => w'.mix p = w.mix p

theorem Prog.congr (w w' : World X V P R) (m : Prog X V P R α) (h : ∀ e ∈ m.log w, w.Agree w' e) :
    m.run w' = m.run w ∧ m.log w' = m.log w := by
  induction m with
  | ret a => exact ⟨rfl, rfl⟩
  | hash x next ih =>
    have h0 : w'.hash x = w.hash x := h _ List.mem_cons_self
    obtain ⟨h1, h2⟩ := ih (w.hash x) fun e he => h e (List.mem_cons_of_mem _ he)
    simp only [Prog.run, Prog.log, h0]
    exact ⟨h1, by rw [h2]⟩
  | row k next ih =>
    have h0 : w'.row k = w.row k := h _ List.mem_cons_self
    obtain ⟨h1, h2⟩ := ih (w.row k) fun e he => h e (List.mem_cons_of_mem _ he)
    simp only [Prog.run, Prog.log, h0]
    exact ⟨h1, by rw [h2]⟩
  | mix p next ih =>
    have h0 : w'.mix p = w.mix p := h _ List.mem_cons_self
    obtain ⟨h1, h2⟩ := ih (w.mix p).1 (w.mix p).2.1 (w.mix p).2.2 fun e he => h e (List.mem_cons_of_mem _ he)
    simp only [Prog.run, Prog.log, h0]
    exact ⟨h1, by rw [h2]⟩

/-! ## Counting -/

/-- Where a place of a table and a value do not depend on what is in the place: few tables have the value there. -/
theorem few_at {ι K : Type} [DecidableEq ι] [Finite ι] [Finite K] (place : (ι → K) → Option ι) (val : (ι → K) → Option K)
    (h : ∀ Z i y, place Z = some i → place (update Z i y) = some i ∧ val (update Z i y) = val Z) :
    Nat.card K * Nat.card {Z : ι → K // ∃ i, place Z = some i ∧ val Z = some (Z i)} ≤ Nat.card (ι → K) := by
  rw [← Nat.card_prod]
  choose f hf using fun Z : {Z : ι → K // ∃ i, place Z = some i ∧ val Z = some (Z i)} => Z.2
  refine Nat.card_le_card_of_injective (fun y => update y.2.1 (f y.2) y.1) ?_
  rintro ⟨y, Z⟩ ⟨y', Z'⟩ e
  simp only at e
  obtain ⟨h1, h2⟩ := h Z.1 (f Z) y (hf Z).1
  obtain ⟨h1', h2'⟩ := h Z'.1 (f Z') y' (hf Z').1
  have hi : f Z = f Z' := Option.some.inj (h1.symm.trans ((congrArg place e).trans h1'))
  have hy : y = y' := by
    have := congrFun e (f Z)
    rw [update_self, hi, update_self] at this
    exact this
  have hv : Z.1 (f Z) = Z'.1 (f Z') := by
    have := h2.symm.trans ((congrArg val e).trans h2')
    rw [(hf Z).2, (hf Z').2] at this
    exact Option.some.inj this
  have hZ : Z = Z' := by
    apply Subtype.ext
    funext i
    by_cases hk : i = f Z
    · subst hk
      rw [hv, hi]
    · have := congrFun e i
      rwa [update_of_ne hk, update_of_ne (by rw [← hi]; exact hk)] at this
  rw [hy, hZ]

theorem union_le {J Y : Type} [Fintype J] [Finite Y] (D C : Nat) (hit : J → Y → Prop)
    (h : ∀ j, D * Nat.card {x // hit j x} ≤ C) : D * Nat.card {x // ∃ j, hit j x} ≤ Fintype.card J * C := by
  classical
  have := Fintype.ofFinite Y
  have c : ∀ (p : Y → Prop) [DecidablePred p], Nat.card {x // p x} = (Finset.univ.filter p).card := by
    intro p _; rw [Nat.card_eq_fintype_card, Fintype.card_subtype]
  have h1 : Nat.card {x // ∃ j, hit j x} ≤ ∑ j : J, Nat.card {x // hit j x} := by
    rw [c]
    have : (Finset.univ.filter fun x => ∃ j, hit j x) ⊆ (Finset.univ : Finset J).biUnion fun j => Finset.univ.filter (hit j) := by
      intro x hx
      obtain ⟨j, hx⟩ := (Finset.mem_filter.mp hx).2
      exact Finset.mem_biUnion.mpr ⟨j, Finset.mem_univ _, Finset.mem_filter.mpr ⟨Finset.mem_univ _, hx⟩⟩
    refine (Finset.card_le_card this).trans (Finset.card_biUnion_le.trans ?_)
    exact Finset.sum_le_sum fun j _ => by rw [c]
  refine (Nat.mul_le_mul_left _ h1).trans ?_
  rw [Finset.mul_sum]
  refine (Finset.sum_le_sum fun j _ => h j).trans ?_
  rw [Finset.sum_const, Finset.card_univ]
  exact Nat.le_refl _

theorem card_or_le {Y : Type} [Finite Y] (p q : Y → Prop) :
    Nat.card {x // p x ∨ q x} ≤ Nat.card {x // p x} + Nat.card {x // q x} := by
  classical
  have := Fintype.ofFinite Y
  have c : ∀ (p : Y → Prop) [DecidablePred p], Nat.card {x // p x} = (Finset.univ.filter p).card := by
    intro p _; rw [Nat.card_eq_fintype_card, Fintype.card_subtype]
  rw [c, c, c, Finset.filter_or]
  exact Finset.card_union_le _ _

/-! ## The ideal world -/

/-- A chain has six places. -/
abbrev Place (X P : Type) := X ⊕ P × Fin 6

def Event.points : Event X V P → List (Place X P)
  | .hash x => [.inl x]
  | .row _ => []
  | .mix p => (List.finRange 6).map fun j => .inr (p, j)

theorem Event.points_mix (p : P) : ((.mix p : Event X V P)).points.length = 6 := by simp [Event.points]

/-- The fourth value of a chain and the row are as good as anything. -/
def ideal (Z : Place X P → V) (W : V ⊕ P → R) : World X V P R where
  hash x := Z (.inl x)
  row k := W (.inl k)
  mix p := (Z (.inr (p, 3)), W (.inr p), true)

def Prog.points (m : Prog X V P R α) (Z : Place X P → V) (W : V ⊕ P → R) : List (Place X P) :=
  (m.log (ideal Z W)).flatMap Event.points

theorem Prog.points_take (m : Prog X V P R α) (Z Z' : Place X P → V) (W : V ⊕ P → R) (k : Nat)
    (h : ∀ i ∈ (m.points Z W).take k, Z' i = Z i) : (m.points Z' W).take (k + 1) = (m.points Z W).take (k + 1) := by
  induction m generalizing k with
  | ret a => rfl
  | hash x next ih =>
    have e : ∀ Z, (Prog.hash x next).points Z W = .inl x :: (next (Z (.inl x))).points Z W := fun _ => rfl
    rw [e, e]
    rw [e] at h
    cases k with
    | zero => rfl
    | succ k =>
      have h0 : Z' (.inl x) = Z (.inl x) := h _ (by rw [List.take_succ_cons]; exact List.mem_cons_self)
      rw [h0, List.take_succ_cons, List.take_succ_cons, ih _ k fun i hi => h i (by
        rw [List.take_succ_cons]; exact List.mem_cons_of_mem _ hi)]
  | row y next ih => exact ih _ k h
  | mix p next ih =>
    have e : ∀ Z, (Prog.mix p next).points Z W = Event.points (V := V) (.mix p) ++
      (next (Z (.inr (p, 3))) (W (.inr p)) true).points Z W := fun _ => rfl
    rw [e, e]
    rw [e] at h
    have l := Event.points_mix (X := X) (V := V) p
    by_cases hk : k < 6
    · rw [List.take_append_of_le_length (by omega), List.take_append_of_le_length (by omega)]
    · have h0 : Z' (.inr (p, 3)) = Z (.inr (p, 3)) := h _ (by
        rw [List.take_append]
        refine List.mem_append_left _ ?_
        rw [List.take_of_length_le (by omega)]
        exact List.mem_map.mpr ⟨3, List.mem_finRange _, rfl⟩)
      rw [h0, List.take_append, List.take_append, l, Nat.sub_add_comm (by omega), ih _ _ _ (k - 6) fun i hi => h i (by
        rw [List.take_append, l]; exact List.mem_append_right _ hi)]

theorem Prog.points_length (m : Prog X V P R α) {n : Nat} (Z : Place X P → V) (W : V ⊕ P → R)
    (hn : (m.log (ideal Z W)).length ≤ n) : (m.points Z W).length ≤ 6 * n := by
  refine le_trans ?_ (Nat.mul_le_mul_left 6 hn)
  unfold Prog.points
  generalize m.log (ideal Z W) = L
  induction L with
  | nil => exact Nat.le_refl _
  | cons e L ih =>
    rw [List.flatMap_cons, List.length_append, List.length_cons]
    have : (Event.points e).length ≤ 6 := by cases e <;> simp [Event.points]
    omega

theorem mem_points {Z : Place X P → V} {W : V ⊕ P → R} {m : Prog X V P R α} {e : Event X V P} {i : Place X P}
    (h : e ∈ m.log (ideal Z W)) (hi : i ∈ e.points) : i ∈ m.points Z W := List.mem_flatMap.mpr ⟨e, h, hi⟩

theorem mem_points_mix {Z : Place X P → V} {W : V ⊕ P → R} {m : Prog X V P R α} {p : P}
    (h : .mix p ∈ m.log (ideal Z W)) (j : Fin 6) : .inr (p, j) ∈ m.points Z W :=
  mem_points h (List.mem_map.mpr ⟨j, List.mem_finRange _, rfl⟩)

theorem mem_points_hash {Z : Place X P → V} {W : V ⊕ P → R} {m : Prog X V P R α} {x : X}
    (h : .hash x ∈ m.log (ideal Z W)) : .inl x ∈ m.points Z W := mem_points h List.mem_cons_self

/-! ## The places of a chain -/

/-- The inputs of a chain: `A p`, then `B`, `C`, `B`, `D`, `B`.  `head` and `tail` are the two parts of an input.
A chain is not to end with `bad`. -/
structure Shape (X V P : Type) where
  A : P → X
  B : V → V → X
  C : V → X
  D : V → V → X
  ck : P → V
  bad : V
  head : X → Option V
  tail : X → Option V
  kind : X → Nat
  A_inj : ∀ p q, A p = A q → p = q
  head_B : ∀ k u, head (B k u) = some k
  tail_B : ∀ k u, tail (B k u) = some u
  head_C : ∀ k, head (C k) = some k
  head_D : ∀ k u, head (D k u) = some k
  kind_A : ∀ p, kind (A p) = 0
  kind_B : ∀ k u, kind (B k u) = 1
  kind_C : ∀ k, kind (C k) = 2
  kind_D : ∀ k u, kind (D k u) = 3

variable (S : Shape X V P)

def Shape.addr (p : P) (s : Fin 6 → V) : Fin 6 → X
  | 0 => S.A p
  | 1 => S.B (S.ck p) (s 0)
  | 2 => S.C (s 1)
  | 3 => S.B (s 1) (s 2)
  | 4 => S.D (s 1) (s 3)
  | 5 => S.B (s 1) (s 4)

/-- The chain. -/
def Shape.chain (H : X → V) (p : P) : Fin 6 → V :=
  let v := H (S.A p)
  let t := H (S.B (S.ck p) v)
  let u := H (S.C t)
  let o := H (S.B t u)
  let u' := H (S.D t o)
  fun
    | 0 => v
    | 1 => t
    | 2 => u
    | 3 => o
    | 4 => u'
    | 5 => H (S.B t u')

theorem Shape.chain_eq {H : X → V} {p : P} {s : Fin 6 → V} (h : ∀ j, H (S.addr p s j) = s j) : S.chain H p = s := by
  have h0 : H (S.A p) = s 0 := h 0
  have h1 : H (S.B (S.ck p) (s 0)) = s 1 := h 1
  have h2 : H (S.C (s 1)) = s 2 := h 2
  have h3 : H (S.B (s 1) (s 2)) = s 3 := h 3
  have h4 : H (S.D (s 1) (s 3)) = s 4 := h 4
  have h5 : H (S.B (s 1) (s 4)) = s 5 := h 5
  unfold Shape.chain
  simp only [h0, h1, h2, h3, h4, h5]
  funext j
  fin_cases j <;> rfl

open Classical in
/-- The chain is computed. -/
noncomputable def real (H : X → V) (T : V → R) : World X V P R where
  hash := H
  row := T
  mix p := (S.chain H p 3, T (S.chain H p 5), decide (S.chain H p 5 ≠ S.bad))

/-- Values that a place of a chain is not to have. -/
def Shape.avoid : Event X V P → Fin 6 → Option V
  | .hash x, 0 => S.tail x
  | .hash x, 1 => S.head x
  | .row k, 5 => some k
  | .mix q, 1 => some (S.ck q)
  | .mix _, 5 => some S.bad
  | _, _ => none

structure Good (m : Prog X V P R α) (Z : Place X P → V) (W : V ⊕ P → R) : Prop where
  inj : ∀ i ∈ m.points Z W, ∀ i' ∈ m.points Z W, Z i = Z i' → i = i'
  apart : ∀ p, .mix p ∈ m.log (ideal Z W) → ∀ e ∈ m.log (ideal Z W), ∀ j, S.avoid e j ≠ some (Z (.inr (p, j)))

/-- Nothing happens by chance in the real world. -/
structure Fine (m : Prog X V P R α) (H : X → V) (T : V → R) : Prop where
  hash : ∀ x x', .hash x ∈ m.log (real S H T) → .hash x' ∈ m.log (real S H T) → H x = H x' → x = x'
  hash_mix : ∀ x p, .hash x ∈ m.log (real S H T) → .mix p ∈ m.log (real S H T) → H x ≠ S.chain H p 3
  mix : ∀ p q, .mix p ∈ m.log (real S H T) → .mix q ∈ m.log (real S H T) → S.chain H p 3 = S.chain H q 3 → p = q
  key : ∀ p q, .mix p ∈ m.log (real S H T) → .mix q ∈ m.log (real S H T) → S.chain H p 5 = S.chain H q 5 → p = q
  row : ∀ p k, .mix p ∈ m.log (real S H T) → .row k ∈ m.log (real S H T) → S.chain H p 5 ≠ k

/-! ## Most tables are good -/

theorem getElem?_take_eq {l l' : List β} {k j : Nat} (h : l.take (k + 1) = l'.take (k + 1)) (hj : j ≤ k) : l[j]? = l'[j]? := by
  have := congrArg (fun l => l[j]?) h
  simpa [List.getElem?_take, show j < k + 1 by omega] using this

theorem take_take_eq {l l' : List β} {k : Nat} (h : l.take (k + 1) = l'.take (k + 1)) : l.take k = l'.take k := by
  have := congrArg (List.take k) h
  simpa [List.take_take] using this

open Classical in
theorem few_equal [Finite X] [Finite V] [Finite P] (m : Prog X V P R α) (W : V ⊕ P → R) (j k : Nat) (hjk : j < k) :
    Nat.card V * Nat.card {Z : Place X P → V // ∃ i i', (m.points Z W)[k]? = some i ∧ i ∉ (m.points Z W).take k ∧
      (m.points Z W)[j]? = some i' ∧ Z i = Z i'} ≤ Nat.card (Place X P → V) := by
  let place : (Place X P → V) → Option (Place X P) := fun Z =>
    (m.points Z W)[k]?.bind fun i => if i ∈ (m.points Z W).take k then none else some i
  let val : (Place X P → V) → Option V := fun Z => (m.points Z W)[j]?.map Z
  have hplace : ∀ Z i, place Z = some i ↔ (m.points Z W)[k]? = some i ∧ i ∉ (m.points Z W).take k := by
    intro Z i
    simp only [place, Option.bind_eq_some_iff, Option.ite_none_left_eq_some, Option.some.injEq]
    constructor
    · rintro ⟨_, h1, h2, rfl⟩; exact ⟨h1, h2⟩
    · rintro ⟨h1, h2⟩; exact ⟨i, h1, h2, rfl⟩
  refine le_trans (Nat.mul_le_mul_left _ ?_) (few_at place val ?_)
  · refine Nat.card_le_card_of_injective (fun Z => ⟨Z.1, ?_⟩) fun a b h => Subtype.ext (congrArg (fun x => x.1) h)
    obtain ⟨Z, i, i', h1, h2, h3, h4⟩ := Z
    refine ⟨i, (hplace _ _).mpr ⟨h1, h2⟩, ?_⟩
    simp only [val, h3, Option.map_some, h4]
  · intro Z i y hi
    obtain ⟨h1, h2⟩ := (hplace _ _).mp hi
    have hag : ∀ a ∈ (m.points Z W).take k, update Z i y a = Z a := by
      intro a ha
      refine update_of_ne (fun e : a = i => h2 ?_) _ _
      rw [← e]
      exact ha
    have ht := m.points_take Z (update Z i y) W k hag
    constructor
    · rw [hplace, getElem?_take_eq ht (Nat.le_refl k), take_take_eq ht]
      exact ⟨h1, h2⟩
    · simp only [val]
      rw [getElem?_take_eq ht (by omega)]
      cases hl : (m.points Z W)[j]? with
      | none => rfl
      | some a =>
        rw [Option.map_some, Option.map_some, hag a]
        exact List.mem_iff_getElem?.mpr ⟨j, by rw [List.getElem?_take, if_pos hjk]; exact hl⟩

theorem Prog.log_hidden [DecidableEq X] [DecidableEq P] (m : Prog X V P R α) (Z : Place X P → V) (W : V ⊕ P → R) (p : P)
    (j : Fin 6) (hj : j ≠ 3) (y : V) : m.log (ideal (update Z (.inr (p, j)) y) W) = m.log (ideal Z W) := by
  refine (m.congr (ideal Z W) (ideal (update Z (.inr (p, j)) y) W) ?_).2
  rintro (x | k | q) -
  · show update Z (.inr (p, j)) y (.inl x) = Z (.inl x)
    exact update_of_ne (by intro e; cases e) _ _
  · rfl
  · show (_, _) = (_, _)
    rw [update_of_ne]
    intro e
    exact hj (by have := Sum.inr.inj e; exact (Prod.mk.inj this).2.symm)

open Classical in
theorem few_avoid [Finite X] [Finite V] [Finite P] (m : Prog X V P R α) (W : V ⊕ P → R) (a b : Nat) (j : Fin 6) :
    Nat.card V * Nat.card {Z : Place X P → V // ∃ p e, (m.log (ideal Z W))[a]? = some (.mix p) ∧
      (m.log (ideal Z W))[b]? = some e ∧ S.avoid e j = some (Z (.inr (p, j)))} ≤ Nat.card (Place X P → V) := by
  by_cases hj : j = 3
  · have : IsEmpty {Z : Place X P → V // ∃ p e, (m.log (ideal Z W))[a]? = some (.mix p) ∧
        (m.log (ideal Z W))[b]? = some e ∧ S.avoid e j = some (Z (.inr (p, j)))} := by
      refine ⟨fun Z => ?_⟩
      obtain ⟨p, e, _, _, h⟩ := Z.2
      subst hj
      cases e <;> cases h
    rw [Nat.card_of_isEmpty (α := {_Z // _}), Nat.mul_zero]
    exact Nat.zero_le _
  let place : (Place X P → V) → Option (Place X P) := fun Z =>
    match (m.log (ideal Z W))[a]? with
    | some (.mix p) => some (.inr (p, j))
    | _ => none
  let val : (Place X P → V) → Option V := fun Z => (m.log (ideal Z W))[b]?.bind fun e => S.avoid e j
  have hplace : ∀ Z i, place Z = some i ↔ ∃ p, (m.log (ideal Z W))[a]? = some (.mix p) ∧ i = .inr (p, j) := by
    intro Z i
    simp only [place]
    split
    · next p h =>
      rw [h]
      constructor
      · intro h; exact ⟨p, rfl, (Option.some.inj h).symm⟩
      · rintro ⟨q, h1, rfl⟩
        cases h1
        rfl
    · next h =>
      constructor
      · intro h; cases h
      · rintro ⟨q, h1, rfl⟩; exact absurd h1 (h q)
  refine le_trans (Nat.mul_le_mul_left _ ?_) (few_at place val ?_)
  · refine Nat.card_le_card_of_injective (fun Z => ⟨Z.1, ?_⟩) fun a b h => Subtype.ext (congrArg (fun x => x.1) h)
    obtain ⟨Z, p, e, h1, h2, h3⟩ := Z
    refine ⟨.inr (p, j), (hplace _ _).mpr ⟨p, h1, rfl⟩, ?_⟩
    simp only [val, h2, Option.bind_some, h3]
  · intro Z i y hi
    obtain ⟨p, h1, rfl⟩ := (hplace _ _).mp hi
    have hl := m.log_hidden Z W p j hj y
    simp only [hplace, val, hl]
    exact ⟨⟨p, h1, rfl⟩, trivial⟩

theorem first_index {l : List β} {i : β} (h : i ∈ l) : ∃ k, l[k]? = some i ∧ i ∉ l.take k := by
  classical
  have hex : ∃ k, l[k]? = some i := List.mem_iff_getElem?.mp h
  refine ⟨Nat.find hex, Nat.find_spec hex, fun hm => ?_⟩
  obtain ⟨a, ha⟩ := List.mem_iff_getElem?.mp hm
  rw [List.getElem?_take] at ha
  split at ha
  · next hlt => exact Nat.find_min hex hlt ha
  · cases ha

theorem few_not_good [Finite X] [Finite V] [Finite P] (m : Prog X V P R α) (n : Nat)
    (hn : ∀ w, (m.log w).length ≤ n) (W : V ⊕ P → R) :
    Nat.card V * Nat.card {Z : Place X P → V // ¬ Good S m Z W} ≤ 42 * n ^ 2 * Nat.card (Place X P → V) := by
  classical
  let hit1 : Fin (6 * n) × Fin (6 * n) → (Place X P → V) → Prop := fun c Z => c.1 < c.2 ∧
    ∃ i i', (m.points Z W)[c.2.1]? = some i ∧ i ∉ (m.points Z W).take c.2 ∧ (m.points Z W)[c.1.1]? = some i' ∧ Z i = Z i'
  let hit2 : Fin n × Fin n × Fin 6 → (Place X P → V) → Prop := fun c Z =>
    ∃ p e, (m.log (ideal Z W))[c.1.1]? = some (.mix p) ∧ (m.log (ideal Z W))[c.2.1.1]? = some e ∧
      S.avoid e c.2.2 = some (Z (.inr (p, c.2.2)))
  have b1 := union_le (Nat.card V) (Nat.card (Place X P → V)) hit1 (by
    rintro ⟨j, k⟩
    by_cases hjk : j < k
    · refine le_trans (Nat.mul_le_mul_left _ ?_) (few_equal m W j.1 k.1 hjk)
      exact Nat.card_le_card_of_injective (fun Z => ⟨Z.1, Z.2.2⟩) fun a b h => Subtype.ext (congrArg (fun x => x.1) h)
    · have : IsEmpty {Z // hit1 (j, k) Z} := ⟨fun Z => hjk Z.2.1⟩
      rw [Nat.card_of_isEmpty (α := {Z // hit1 (j, k) Z}), Nat.mul_zero]
      exact Nat.zero_le _)
  have b2 := union_le (Nat.card V) (Nat.card (Place X P → V)) hit2 fun c => few_avoid S m W c.1.1 c.2.1.1 c.2.2
  have hsub : ∀ Z, ¬ Good S m Z W → (∃ c, hit1 c Z) ∨ ∃ c, hit2 c Z := by
    intro Z hbad
    by_contra hno
    rw [not_or] at hno
    obtain ⟨n1, n2⟩ := hno
    apply hbad
    have hlen := m.points_length Z W (hn _)
    constructor
    · intro i hi i' hi' he
      obtain ⟨k, hk, hk'⟩ := first_index hi
      obtain ⟨j, hj, hj'⟩ := first_index hi'
      have lk := (List.getElem?_eq_some_iff.mp hk).1
      have lj := (List.getElem?_eq_some_iff.mp hj).1
      rcases Nat.lt_trichotomy j k with h | h | h
      · exact absurd ⟨(⟨j, by omega⟩, ⟨k, by omega⟩), h, i, i', hk, hk', hj, he⟩ n1
      · rw [h, hk] at hj
        exact Option.some.inj hj
      · exact absurd ⟨(⟨k, by omega⟩, ⟨j, by omega⟩), h, i', i, hj, hj', hk, he.symm⟩ n1
    · intro p hp e he j hav
      obtain ⟨a, ha⟩ := List.mem_iff_getElem?.mp hp
      obtain ⟨b, hb⟩ := List.mem_iff_getElem?.mp he
      have la := (List.getElem?_eq_some_iff.mp ha).1
      have lb := (List.getElem?_eq_some_iff.mp hb).1
      have := hn (ideal Z W)
      exact n2 ⟨(⟨a, by omega⟩, ⟨b, by omega⟩, j), p, e, ha, hb, hav⟩
  have b3 : Nat.card {Z : Place X P → V // ¬ Good S m Z W} ≤
      Nat.card {Z // (∃ c, hit1 c Z) ∨ ∃ c, hit2 c Z} :=
    Nat.card_le_card_of_injective (fun Z => ⟨Z.1, hsub _ Z.2⟩) fun a b h => Subtype.ext (congrArg (fun x => x.1) h)
  refine (Nat.mul_le_mul_left _ (b3.trans (card_or_le _ _))).trans ?_
  rw [Nat.mul_add]
  refine (Nat.add_le_add b1 b2).trans (le_of_eq ?_)
  simp only [Fintype.card_prod, Fintype.card_fin]
  ring

/-! ## From the ideal to the real world -/

variable {S} {m : Prog X V P R α} {Z : Place X P → V} {W : V ⊕ P → R}

/-- The values of a chain in the ideal world. -/
def slot (Z : Place X P → V) (p : P) : Fin 6 → V := fun j => Z (.inr (p, j))

theorem Good.slot_inj (g : Good S m Z W) {p q : P} (hp : .mix p ∈ m.log (ideal Z W)) (hq : .mix q ∈ m.log (ideal Z W))
    {j j' : Fin 6} (h : slot Z p j = slot Z q j') : p = q ∧ j = j' := by
  have := Sum.inr.inj (g.inj _ (mem_points_mix hp j) _ (mem_points_mix hq j') h)
  exact Prod.mk.inj this

theorem Good.addr_inj (g : Good S m Z W) {p q : P} (hp : .mix p ∈ m.log (ideal Z W)) (hq : .mix q ∈ m.log (ideal Z W))
    (j j' : Fin 6) (h : S.addr p (slot Z p) j = S.addr q (slot Z q) j') : p = q ∧ j = j' := by
  have hk := congrArg S.kind h
  have hh := congrArg S.head h
  have ht := congrArg S.tail h
  have n1 : ∀ p q, .mix p ∈ m.log (ideal Z W) → .mix q ∈ m.log (ideal Z W) → S.ck p ≠ slot Z q 1 := by
    intro p q hp hq e
    exact g.apart q hq _ hp 1 (congrArg some e)
  fin_cases j <;> fin_cases j' <;>
    simp only [Shape.addr, S.kind_A, S.kind_B, S.kind_C, S.kind_D, S.head_B, S.tail_B, S.head_C, S.head_D, Option.some.injEq,
      OfNat.ofNat_ne_zero, OfNat.zero_ne_ofNat, Nat.succ_ne_self, Nat.reduceEqDiff, Nat.zero_ne_one] at h hk hh ht
  · exact ⟨S.A_inj _ _ h, rfl⟩
  · exact ⟨(g.slot_inj hp hq ht).1, rfl⟩
  · exact absurd hh (n1 _ _ hp hq)
  · exact absurd hh (n1 _ _ hp hq)
  · exact ⟨(g.slot_inj hp hq hh).1, rfl⟩
  · exact absurd hh.symm (n1 _ _ hq hp)
  · exact ⟨(g.slot_inj hp hq hh).1, rfl⟩
  · exact absurd (g.slot_inj hp hq ht).2 (by decide)
  · exact ⟨(g.slot_inj hp hq hh).1, rfl⟩
  · exact absurd hh.symm (n1 _ _ hq hp)
  · exact absurd (g.slot_inj hp hq ht).2 (by decide)
  · exact ⟨(g.slot_inj hp hq hh).1, rfl⟩

theorem Good.addr_new (g : Good S m Z W) (hA : ∀ w p, .hash (S.A p) ∉ m.log w) {p : P} (hp : .mix p ∈ m.log (ideal Z W))
    (j : Fin 6) : .hash (S.addr p (slot Z p) j) ∉ m.log (ideal Z W) := by
  intro h
  have h0 := g.apart p hp _ h 0
  have h1 := g.apart p hp _ h 1
  fin_cases j
  · exact hA _ _ h
  · exact h0 (S.tail_B _ _)
  · exact h1 (S.head_C _)
  · exact h1 (S.head_B _ _)
  · exact h1 (S.head_D _ _)
  · exact h1 (S.head_B _ _)

open Classical in
/-- The values of the chains are moved to the hash function, and what was there takes their places. -/
noncomputable def movedZ (S : Shape X V P) (m : Prog X V P R α) (Z : Place X P → V) (W : V ⊕ P → R) : Place X P → V
  | .inl x => if h : ∃ q : P × Fin 6, .mix q.1 ∈ m.log (ideal Z W) ∧ S.addr q.1 (slot Z q.1) q.2 = x then
      Z (.inr h.choose) else Z (.inl x)
  | .inr q => if .mix q.1 ∈ m.log (ideal Z W) then Z (.inl (S.addr q.1 (slot Z q.1) q.2)) else Z (.inr q)

open Classical in
noncomputable def movedW (m : Prog X V P R α) (Z : Place X P → V) (W : V ⊕ P → R) : V ⊕ P → R
  | .inl k => if h : ∃ p, .mix p ∈ m.log (ideal Z W) ∧ slot Z p 5 = k then W (.inr h.choose) else W (.inl k)
  | .inr p => if .mix p ∈ m.log (ideal Z W) then W (.inl (slot Z p 5)) else W (.inr p)

theorem Good.movedZ_addr (g : Good S m Z W) {p : P} (hp : .mix p ∈ m.log (ideal Z W)) (j : Fin 6) :
    movedZ S m Z W (.inl (S.addr p (slot Z p) j)) = slot Z p j := by
  have hex : ∃ q : P × Fin 6, .mix q.1 ∈ m.log (ideal Z W) ∧ S.addr q.1 (slot Z q.1) q.2 = S.addr p (slot Z p) j :=
    ⟨(p, j), hp, rfl⟩
  simp only [movedZ]
  rw [dif_pos hex]
  obtain ⟨h1, h2⟩ := g.addr_inj hex.choose_spec.1 hp _ _ hex.choose_spec.2
  have : hex.choose = (p, j) := Prod.ext h1 h2
  rw [this]
  rfl

theorem Good.movedW_key (g : Good S m Z W) {p : P} (hp : .mix p ∈ m.log (ideal Z W)) :
    movedW m Z W (.inl (slot Z p 5)) = W (.inr p) := by
  have hex : ∃ q, .mix q ∈ m.log (ideal Z W) ∧ slot Z q 5 = slot Z p 5 := ⟨p, hp, rfl⟩
  simp only [movedW]
  rw [dif_pos hex, (g.slot_inj hex.choose_spec.1 hp hex.choose_spec.2).1]

theorem Good.chain_moved (g : Good S m Z W) {p : P} (hp : .mix p ∈ m.log (ideal Z W)) :
    S.chain (fun x => movedZ S m Z W (.inl x)) p = slot Z p :=
  S.chain_eq fun j => g.movedZ_addr hp j

theorem Good.hash_moved (g : Good S m Z W) (hA : ∀ w p, .hash (S.A p) ∉ m.log w) {x : X}
    (hx : .hash x ∈ m.log (ideal Z W)) : movedZ S m Z W (.inl x) = Z (.inl x) := by
  simp only [movedZ]
  rw [dif_neg]
  rintro ⟨q, hq, rfl⟩
  exact g.addr_new hA hq _ hx

theorem Good.log_moved (g : Good S m Z W) (hA : ∀ w p, .hash (S.A p) ∉ m.log w) :
    m.log (real S (fun x => movedZ S m Z W (.inl x)) (fun k => movedW m Z W (.inl k))) = m.log (ideal Z W) := by
  refine (m.congr (ideal Z W) _ ?_).2
  rintro (x | k | p) he
  · exact g.hash_moved hA he
  · show movedW m Z W (.inl k) = W (.inl k)
    simp only [movedW]
    rw [dif_neg]
    rintro ⟨q, hq, rfl⟩
    exact g.apart q hq _ he 5 rfl
  · show (_, _, _) = (_, _, _)
    rw [g.chain_moved he]
    have hk : slot Z p 5 ≠ S.bad := fun h => g.apart p he _ he 5 (congrArg some h.symm)
    refine congrArg (Prod.mk _) (Prod.ext (g.movedW_key he) ?_)
    simp only [hk, ne_eq, not_false_eq_true, decide_true]

theorem Good.fine (g : Good S m Z W) (hA : ∀ w p, .hash (S.A p) ∉ m.log w) :
    Fine S m (fun x => movedZ S m Z W (.inl x)) (fun k => movedW m Z W (.inl k)) := by
  have hl := g.log_moved hA
  constructor
  · intro x x' hx hx'
    rw [hl] at hx hx'
    rw [g.hash_moved hA hx, g.hash_moved hA hx']
    intro h
    exact Sum.inl.inj (g.inj _ (mem_points_hash hx) _ (mem_points_hash hx') h)
  · intro x p hx hp
    rw [hl] at hx hp
    rw [g.hash_moved hA hx, g.chain_moved hp]
    intro h
    cases g.inj _ (mem_points_hash hx) _ (mem_points_mix hp 3) h
  · intro p q hp hq
    rw [hl] at hp hq
    rw [g.chain_moved hp, g.chain_moved hq]
    intro h
    exact (g.slot_inj hp hq h).1
  · intro p q hp hq
    rw [hl] at hp hq
    rw [g.chain_moved hp, g.chain_moved hq]
    intro h
    exact (g.slot_inj hp hq h).1
  · intro p k hp hk
    rw [hl] at hp hk
    rw [g.chain_moved hp]
    intro h
    exact g.apart p hp _ hk 5 (congrArg some h.symm)

theorem moved_inj {Z' : Place X P → V} {W' : V ⊕ P → R} (hA : ∀ w p, .hash (S.A p) ∉ m.log w) (g : Good S m Z W)
    (g' : Good S m Z' W') (hZ : movedZ S m Z W = movedZ S m Z' W') (hW : movedW m Z W = movedW m Z' W') :
    Z = Z' ∧ W = W' := by
  have hl : m.log (ideal Z' W') = m.log (ideal Z W) := by
    rw [← g.log_moved hA, ← g'.log_moved hA, hZ, hW]
  have hs : ∀ p, .mix p ∈ m.log (ideal Z W) → slot Z' p = slot Z p := by
    intro p hp
    rw [← g.chain_moved hp, ← g'.chain_moved (by rw [hl]; exact hp), hZ]
  constructor
  · funext i
    rcases i with x | q
    · by_cases hx : ∃ q : P × Fin 6, .mix q.1 ∈ m.log (ideal Z W) ∧ S.addr q.1 (slot Z q.1) q.2 = x
      · obtain ⟨q, hq, rfl⟩ := hx
        have h := congrFun hZ (.inr q)
        simp only [movedZ] at h
        rw [if_pos hq, hl, if_pos hq, hs _ hq] at h
        exact h
      · have h := congrFun hZ (.inl x)
        simp only [movedZ] at h
        rw [dif_neg hx, dif_neg] at h
        · exact h
        · rintro ⟨q, hq, e⟩
          rw [hl] at hq
          rw [hs _ hq] at e
          exact hx ⟨q, hq, e⟩
    · by_cases hq : .mix q.1 ∈ m.log (ideal Z W)
      · exact (congrFun (hs _ hq) q.2).symm
      · have h := congrFun hZ (.inr q)
        simp only [movedZ] at h
        rwa [if_neg hq, hl, if_neg hq] at h
  · funext i
    rcases i with k | q
    · by_cases hk : ∃ p, .mix p ∈ m.log (ideal Z W) ∧ slot Z p 5 = k
      · obtain ⟨q, hq, rfl⟩ := hk
        have h := congrFun hW (.inr q)
        simp only [movedW] at h
        rw [if_pos hq, hl, if_pos hq, hs _ hq] at h
        exact h
      · have h := congrFun hW (.inl k)
        simp only [movedW] at h
        rw [dif_neg hk, dif_neg] at h
        · exact h
        · rintro ⟨q, hq, e⟩
          rw [hl] at hq
          rw [hs _ hq] at e
          exact hk ⟨q, hq, e⟩
    · by_cases hq : .mix q ∈ m.log (ideal Z W)
      · have h := congrFun hW (.inl (slot Z q 5))
        rw [g.movedW_key hq] at h
        rw [← hs _ hq, g'.movedW_key (by rw [hl]; exact hq)] at h
        exact h
      · have h := congrFun hW (.inr q)
        simp only [movedW] at h
        rwa [if_neg hq, hl, if_neg hq] at h

/-! ## The bound -/

variable (S) in
/-- In all but few real worlds nothing happens by chance. -/
theorem few_not_fine [Finite X] [Finite V] [Finite P] [Finite R] [Nonempty V] [Nonempty R] (m : Prog X V P R α) (n : Nat)
    (hn : ∀ w, (m.log w).length ≤ n) (hA : ∀ w p, .hash (S.A p) ∉ m.log w) :
    Nat.card V * Nat.card {x : (X → V) × (V → R) // ¬ Fine S m x.1 x.2} ≤
      42 * n ^ 2 * Nat.card ((X → V) × (V → R)) := by
  classical
  let A := (Place X P → V) × (V ⊕ P → R)
  let B := (X → V) × (V → R)
  let E := (P × Fin 6 → V) × (P → R)
  let e : A ≃ B × E :=
    { toFun := fun z => ((fun x => z.1 (.inl x), fun k => z.2 (.inl k)), (fun q => z.1 (.inr q), fun p => z.2 (.inr p)))
      invFun := fun y => (Sum.elim y.1.1 y.2.1, Sum.elim y.1.2 y.2.2)
      left_inv := fun z => by
        refine Prod.ext ?_ ?_ <;> funext i <;> cases i <;> rfl
      right_inv := fun y => rfl }
  have : Finite E := inferInstance
  have hcE : 0 < Nat.card E := Nat.card_pos
  have hcA : Nat.card A = Nat.card B * Nat.card E := by rw [Nat.card_congr e, Nat.card_prod]
  have compl : ∀ {Y : Type} [Finite Y] (p : Y → Prop), Nat.card {x // p x} + Nat.card {x // ¬ p x} = Nat.card Y := by
    intro Y _ p
    rw [← Nat.card_sum]
    exact Nat.card_congr (Equiv.sumCompl p)
  have hgood : Nat.card {z : A // Good S m z.1 z.2} ≤ Nat.card {x : B // Fine S m x.1 x.2} * Nat.card E := by
    rw [← Nat.card_prod]
    refine Nat.card_le_card_of_injective (fun z => (⟨(e (movedZ S m z.1.1 z.1.2, movedW m z.1.1 z.1.2)).1, z.2.fine hA⟩,
      (e (movedZ S m z.1.1 z.1.2, movedW m z.1.1 z.1.2)).2)) ?_
    intro a b hab
    have h1 := congrArg (fun y => y.1.1) hab
    have h2 := congrArg (fun y => y.2) hab
    have h3 := e.injective (Prod.ext h1 h2)
    obtain ⟨h4, h5⟩ := moved_inj hA a.2 b.2 (congrArg Prod.fst h3) (congrArg Prod.snd h3)
    exact Subtype.ext (Prod.ext h4 h5)
  have hbad : Nat.card V * Nat.card {z : A // ¬ Good S m z.1 z.2} ≤ 42 * n ^ 2 * Nat.card A := by
    have := Fintype.ofFinite (V ⊕ P → R)
    have e' : {z : A // ¬ Good S m z.1 z.2} ≃ Σ W : V ⊕ P → R, {Z : Place X P → V // ¬ Good S m Z W} :=
      { toFun := fun z => ⟨z.1.2, z.1.1, z.2⟩
        invFun := fun y => ⟨(y.2.1, y.1), y.2.2⟩
        left_inv := fun _ => rfl
        right_inv := fun _ => rfl }
    rw [Nat.card_congr e', Nat.card_sigma, Finset.mul_sum, Nat.card_prod]
    refine (Finset.sum_le_sum fun W _ => few_not_good S m n hn W).trans ?_
    rw [Finset.sum_const, Finset.card_univ, Nat.card_eq_fintype_card (α := V ⊕ P → R)]
    refine le_of_eq ?_
    show _ * _ = _
    ring
  have c1 := compl (fun z : A => Good S m z.1 z.2)
  have c2 := compl (fun x : B => Fine S m x.1 x.2)
  have h1 : Nat.card {x : B // ¬ Fine S m x.1 x.2} * Nat.card E ≤ Nat.card {z : A // ¬ Good S m z.1 z.2} := by
    have : Nat.card {x : B // Fine S m x.1 x.2} * Nat.card E + Nat.card {x : B // ¬ Fine S m x.1 x.2} * Nat.card E =
        Nat.card B * Nat.card E := by rw [← Nat.add_mul, c2]
    omega
  have h2 := (Nat.mul_le_mul_left (Nat.card V) h1).trans hbad
  rw [hcA, ← Nat.mul_assoc, ← Nat.mul_assoc] at h2
  exact Nat.le_of_mul_le_mul_right h2 hcE

end SV2.Oracle
