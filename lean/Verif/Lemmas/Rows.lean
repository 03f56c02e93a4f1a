import Mathlib.SetTheory.Cardinal.Finite
import Mathlib.Data.Fintype.BigOperators
import Mathlib.Algebra.BigOperators.Ring.Finset
import Mathlib.Algebra.Order.BigOperators.Group.Finset
/-!
# Counting tables by changing one row

A table has a value in every row; `row` picks a row of it, and every value of a set `S` can be put there without changing
the picked row, the set, a set `Bad`, or whether a condition `G` holds.  If few values of `S` are bad, and none where `G`
does not hold, then few of the tables with `G` have a bad value in their row.
-/

namespace SV2.Rows
open Function

open Classical in
theorem few {ι K : Type} [DecidableEq ι] [Finite ι] [Finite K] (D : Nat) (row : (ι → K) → ι)
    (S Bad : (ι → K) → Set K) (hmem : ∀ x, x (row x) ∈ S x)
    (hrow : ∀ x, ∀ y ∈ S x, row (update x (row x) y) = row x)
    (hS : ∀ x, ∀ y ∈ S x, S (update x (row x) y) = S x)
    (hBad : ∀ x, ∀ y ∈ S x, Bad (update x (row x) y) = Bad x)
    (G : (ι → K) → Prop) (hG : ∀ x, ∀ y ∈ S x, (G (update x (row x) y) ↔ G x)) (hBG : ∀ x, ∀ y ∈ Bad x, G x)
    (hcard : ∀ x, D * Nat.card {y // y ∈ S x ∧ y ∈ Bad x} ≤ Nat.card {y // y ∈ S x}) :
    D * Nat.card {x : ι → K // x (row x) ∈ Bad x} ≤ Nat.card {x : ι → K // G x} := by
  have := Fintype.ofFinite (ι → K)
  let rep : (ι → K) → (ι → K) := fun x => update x (row x) (Set.Nonempty.some ⟨_, hmem x⟩ : K)
  have hsome : ∀ x, (Set.Nonempty.some ⟨_, hmem x⟩ : K) ∈ S x := fun x => Set.Nonempty.some_mem _
  have rrow : ∀ x, row (rep x) = row x := fun x => hrow x _ (hsome x)
  have rS : ∀ x, S (rep x) = S x := fun x => hS x _ (hsome x)
  have rBad : ∀ x, Bad (rep x) = Bad x := fun x => hBad x _ (hsome x)
  have rG : ∀ x, G (rep x) ↔ G x := fun x => hG x _ (hsome x)
  have same : ∀ x, ∀ y ∈ S x, rep (update x (row x) y) = rep x := by
    intro x y hy
    have e1 := hrow x y hy
    have e2 := hS x y hy
    have hany : ∀ (T T' : Set K) (h : T.Nonempty) (h' : T'.Nonempty), T = T' → h.some = h'.some := by
      intro T T' h h' e; subst e; rfl
    show update (update x (row x) y) (row (update x (row x) y)) _ = update x (row x) _
    generalize hv : (Set.Nonempty.some ⟨_, hmem (update x (row x) y)⟩ : K) = v
    rw [e1, update_idem, ← hv]
    exact congrArg _ (hany _ _ _ _ e2)
  have fiber : ∀ z, D * (Finset.univ.filter fun x => rep x = z ∧ x (row x) ∈ Bad x).card ≤
      (Finset.univ.filter fun x => rep x = z ∧ G x).card := by
    intro z
    by_cases hz : ∃ x0, rep x0 = z ∧ G x0
    · obtain ⟨x0, rfl, hg0⟩ := hz
      have hr : ∀ x, rep x = rep x0 → row x = row x0 := fun x h => by rw [← rrow x, ← rrow x0, h]
      have hs : ∀ x, rep x = rep x0 → S x = S x0 := fun x h => by rw [← rS x, ← rS x0, h]
      have hb : ∀ x, rep x = rep x0 → Bad x = Bad x0 := fun x h => by rw [← rBad x, ← rBad x0, h]
      have h1 : (Finset.univ.filter fun x => rep x = rep x0 ∧ x (row x) ∈ Bad x).card ≤
          Nat.card {y // y ∈ S x0 ∧ y ∈ Bad x0} := by
        rw [← Fintype.card_coe, ← Nat.card_eq_fintype_card]
        refine Nat.card_le_card_of_injective
          (fun x => ⟨x.1 (row x0), ?_, ?_⟩ : _ → {y // y ∈ S x0 ∧ y ∈ Bad x0}) ?_
        · have hx := (Finset.mem_filter.mp x.2).2.1
          rw [← hs _ hx, ← hr _ hx]; exact hmem _
        · have hx := (Finset.mem_filter.mp x.2).2
          rw [← hb _ hx.1, ← hr _ hx.1]; exact hx.2
        · intro x x' h
          have hx := (Finset.mem_filter.mp x.2).2.1
          have hx' := (Finset.mem_filter.mp x'.2).2.1
          have h' : x.1 (row x0) = x'.1 (row x0) := congrArg Subtype.val h
          apply Subtype.ext
          funext i
          by_cases hi : i = row x0
          · rw [hi]; exact h'
          · have g : ∀ w, rep w = rep x0 → w i = rep x0 i := by
              intro w hw
              rw [← hw]
              show w i = update w (row w) _ i
              rw [update_of_ne (by rw [hr w hw]; exact hi)]
            rw [g _ hx, g _ hx']
      have h2 : Nat.card {y // y ∈ S x0} ≤ (Finset.univ.filter fun x => rep x = rep x0 ∧ G x).card := by
        rw [← Fintype.card_coe, ← Nat.card_eq_fintype_card]
        refine Nat.card_le_card_of_injective (fun y => ⟨update x0 (row x0) y.1, ?_⟩) ?_
        · exact Finset.mem_filter.mpr ⟨Finset.mem_univ _, same x0 y.1 y.2, (hG x0 y.1 y.2).mpr hg0⟩
        · intro y y' h
          have h' := congrFun (congrArg Subtype.val h) (row x0)
          simp only [update_self] at h'
          exact Subtype.ext h'
      exact (Nat.mul_le_mul_left D h1).trans ((hcard x0).trans h2)
    · have : (Finset.univ.filter fun x => rep x = z ∧ x (row x) ∈ Bad x) = ∅ := by
        apply Finset.filter_eq_empty_iff.mpr
        intro x _ h
        exact hz ⟨x, h.1, hBG x _ h.2⟩
      rw [this]
      simp
  have e : ∀ p : (ι → K) → Prop, Nat.card {x : ι → K // p x} =
      ∑ z, (Finset.univ.filter fun x => rep x = z ∧ p x).card := by
    intro p
    rw [Nat.card_eq_fintype_card, Fintype.card_subtype,
      Finset.card_eq_sum_card_fiberwise (f := rep) (t := Finset.univ) (fun _ _ => Finset.mem_coe.mpr (Finset.mem_univ _))]
    refine Finset.sum_congr rfl fun z _ => ?_
    rw [Finset.filter_filter]
    congr 1
    ext x
    simp only [Finset.mem_filter]
    tauto
  rw [e, e, Finset.mul_sum]
  exact Finset.sum_le_sum fun z _ => fiber z

/-- Where in each of `n` rounds at most `1 / D` of the cases with `G` are hits, and no case has `G` in more than `q`
rounds: at most `q / D` of all cases have a hit in any round. -/
theorem union {X : Type} [Finite X] (D q n : Nat) (hit G : Nat → X → Prop)
    (h : ∀ j, D * Nat.card {x // hit j x} ≤ Nat.card {x // G j x})
    (hq : ∀ x, ∀ s : Finset Nat, (∀ j ∈ s, j < n ∧ G j x) → s.card ≤ q) :
    D * Nat.card {x // ∃ j < n, hit j x} ≤ q * Nat.card X := by
  classical
  have := Fintype.ofFinite X
  have c : ∀ (p : X → Prop) [DecidablePred p], Nat.card {x // p x} = (Finset.univ.filter p).card := by
    intro p _; rw [Nat.card_eq_fintype_card, Fintype.card_subtype]
  have h1 : Nat.card {x // ∃ j < n, hit j x} ≤ ∑ j ∈ Finset.range n, Nat.card {x // hit j x} := by
    rw [c]
    have : (Finset.univ.filter fun x => ∃ j < n, hit j x) ⊆
        (Finset.range n).biUnion fun j => Finset.univ.filter (hit j) := by
      intro x hx
      obtain ⟨j, hj, hx⟩ := (Finset.mem_filter.mp hx).2
      exact Finset.mem_biUnion.mpr ⟨j, Finset.mem_range.mpr hj, Finset.mem_filter.mpr ⟨Finset.mem_univ _, hx⟩⟩
    refine (Finset.card_le_card this).trans (Finset.card_biUnion_le.trans ?_)
    exact Finset.sum_le_sum fun j _ => by rw [c]
  have h2 : ∑ j ∈ Finset.range n, Nat.card {x // G j x} ≤ q * Nat.card X := by
    have e : ∀ j, Nat.card {x // G j x} = ∑ x : X, if G j x then 1 else 0 := by
      intro j; rw [c, Finset.card_filter]
    simp only [e]
    rw [Finset.sum_comm]
    have : ∀ x : X, (∑ j ∈ Finset.range n, if G j x then 1 else 0) ≤ q := by
      intro x
      rw [← Finset.card_filter]
      apply hq x
      intro j hj
      exact ⟨Finset.mem_range.mp (Finset.mem_filter.mp hj).1, (Finset.mem_filter.mp hj).2⟩
    refine (Finset.sum_le_sum fun x _ => this x).trans ?_
    rw [Finset.sum_const, Finset.card_univ, Nat.card_eq_fintype_card, nsmul_eq_mul, Nat.mul_comm]
    exact Nat.le_refl _
  refine (Nat.mul_le_mul_left D h1).trans ?_
  rw [Finset.mul_sum]
  exact (Finset.sum_le_sum fun j _ => h j).trans h2

end SV2.Rows
