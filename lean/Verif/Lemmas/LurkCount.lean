import Verif.Lemmas.VeilSame
import Verif.Props.Eavesdrop
/-!
# Two programs that use hidden rows, and say yes about equally often

As `Verif/Lemmas/VeilSame.lean`, for programs that say yes in about equally many ideal worlds.
-/

namespace SV2.Veil
open Function

variable {X V P R α β γ : Type}

/-- The ideal world without the last two rows of the chains. -/
def calm (r0 : R) (Z : Place X P → V) (U : P → R) (C : V → R) : World X V P R := ideal Z (glue (Sum.elim C U) fun _ => r0)

/-- What a program with two hidden rows does. -/
def behind (A : P → X) (r0 : R) (pre : Prog X V P R γ) (sel : γ → Option P) (post : γ → R → R → Prog X V P R Bool)
    (u : (Place X P → V) × (P → R)) (y : (R × R) × (V → R)) : Prop :=
  (((pre.guard A).run (calm r0 u.1 u.2 y.2)).bind fun x => if (sel x).isSome then
    ((post x y.1.1 y.1.2).guard A).run (calm r0 u.1 u.2 y.2) else some false) = some true

/-- The parts of an ideal world. -/
def dealt : (Place X P → V) × (V ⊕ P × Fin 3 → R) ≃ ((Place X P → V) × (P → R) × (V → R)) × (P × Bool → R) where
  toFun z := ((z.1, fun p => z.2 (.inr (p, 0)), fun k => z.2 (.inl k)), fun q => z.2 (.inr (q.1, if q.2 then 2 else 1)))
  invFun y := (y.1.1, glue (Sum.elim y.1.2.2 y.1.2.1) y.2)
  left_inv z := by
    refine Prod.ext rfl ?_
    funext i
    rcases i with k | ⟨p, j⟩
    · rfl
    · fin_cases j <;> rfl
  right_inv y := by
    refine Prod.ext rfl ?_
    funext ⟨p, b⟩
    cases b <;> rfl

theorem card_behind [Finite X] [Finite V] [Finite P] [Finite R] [Nonempty R] (A : P → X) (r0 : R) (pre : Prog X V P R γ) (hpre : pre.Modest)
    (sel : γ → Option P) (post : γ → R → R → Prog X V P R Bool) (hp : ∀ x a b, (post x a b).Modest) :
    Nat.card {z : (Place X P → V) × (V ⊕ P × Fin 3 → R) //
      ((pre.bind (withRows sel post)).guard A).run (ideal z.1 z.2) = some true} * Nat.card (R × R) =
    Nat.card {y : ((Place X P → V) × (P → R)) × ((R × R) × (V → R)) // behind A r0 pre sel post y.1 y.2} * Nat.card (P × Bool → R) := by
  classical
  let φ : (Place X P → V) × (P → R) × (V → R) → (P × Bool → R) → Prop := fun u f =>
    ((pre.bind (withRows sel post)).guard A).run (ideal u.1 (glue (Sum.elim u.2.2 u.2.1) f)) = some true
  let ψ : (Place X P → V) × (P → R) × (V → R) → R × R → Prop := fun u y => behind A r0 pre sel post (u.1, u.2.1) (y, u.2.2)
  have e1 : Nat.card {z : (Place X P → V) × (V ⊕ P × Fin 3 → R) //
      ((pre.bind (withRows sel post)).guard A).run (ideal z.1 z.2) = some true} =
      Nat.card {y : ((Place X P → V) × (P → R) × (V → R)) × (P × Bool → R) // φ y.1 y.2} :=
    Nat.card_congr (dealt.subtypeEquiv fun z => by
      show _ ↔ ((pre.bind (withRows sel post)).guard A).run (ideal (dealt.symm (dealt z)).1 (dealt.symm (dealt z)).2) = some true
      rw [Equiv.symm_apply_apply])
  have e2 : Nat.card {y : ((Place X P → V) × (P → R)) × ((R × R) × (V → R)) // behind A r0 pre sel post y.1 y.2} =
      Nat.card {y : ((Place X P → V) × (P → R) × (V → R)) × (R × R) // ψ y.1 y.2} :=
    Nat.card_congr ⟨fun y => ⟨((y.1.1.1, y.1.1.2, y.1.2.2), y.1.2.1), y.2⟩, fun y => ⟨((y.1.1.1, y.1.1.2.1), (y.1.2, y.1.1.2.2)), y.2⟩,
      fun _ => rfl, fun _ => rfl⟩
  rw [e1, e2]
  have := Fintype.ofFinite ((Place X P → V) × (P → R) × (V → R))
  rw [Nat.card_congr (Equiv.subtypeProdEquivSigmaSubtype φ), Nat.card_congr (Equiv.subtypeProdEquivSigmaSubtype ψ), Nat.card_sigma,
    Nat.card_sigma, Finset.sum_mul, Finset.sum_mul]
  refine Finset.sum_congr rfl fun u _ => ?_
  obtain ⟨Z, U, C⟩ := u
  have hlike : ∀ f, (ideal Z (glue (Sum.elim C U) f)).Like (calm r0 Z U C) := fun f => ideal_like Z _ f _
  have hrun : ∀ f, φ (Z, U, C) f ↔ (((pre.guard A).run (calm r0 Z U C)).bind fun x => match sel x with
      | none => some false
      | some p => ((post x (f (p, false)) (f (p, true))).guard A).run (calm r0 Z U C)) = some true := by
    intro f
    show ((pre.bind (withRows sel post)).guard A).run (ideal Z (glue (Sum.elim C U) f)) = some true ↔ _
    rw [Prog.guard_run_bind, (hpre.guard A).run (hlike f)]
    refine Eq.congr_left (congrArg (Option.bind _) (funext fun x => ?_))
    unfold withRows
    rcases hx : sel x with _ | p <;> simp only
    · rfl
    · exact ((hp _ _ _).guard A).run (hlike f)
  simp only [hrun, ψ, behind]
  rcases (pre.guard A).run (calm r0 Z U C) with _ | x
  · simp
  · simp only [Option.bind_some]
    rcases sel x with _ | p
    · simp
    · simp only [Option.isSome_some, if_true]
      exact card_two (i := (p, false)) (j := (p, true)) (fun e => Bool.false_ne_true (Prod.mk.inj e).2)
        fun a b => ((post x a b).guard A).run (calm r0 Z U C) = some true

theorem card_behind_near [Finite X] [Finite V] [Finite P] [Finite R] [Nonempty R] (A : P → X) (r0 : R) (pre : Prog X V P R γ) (hpre : pre.Modest)
    (sel : γ → Option P) (post post' : γ → R → R → Prog X V P R Bool) (hp : ∀ x a b, (post x a b).Modest)
    (hp' : ∀ x a b, (post' x a b).Modest) (c k : Nat)
    (h : ∀ u, c * Nat.card {y : (R × R) × (V → R) // behind A r0 pre sel post u y} ≤
      c * Nat.card {y : (R × R) × (V → R) // behind A r0 pre sel post' u y} + k * Nat.card ((R × R) × (V → R))) :
    c * Nat.card {z : (Place X P → V) × (V ⊕ P × Fin 3 → R) //
      ((pre.bind (withRows sel post)).guard A).run (ideal z.1 z.2) = some true} ≤
    c * Nat.card {z : (Place X P → V) × (V ⊕ P × Fin 3 → R) //
      ((pre.bind (withRows sel post')).guard A).run (ideal z.1 z.2) = some true} +
      k * Nat.card ((Place X P → V) × (V ⊕ P × Fin 3 → R)) := by
  have h1 := card_behind A r0 pre hpre sel post hp
  have h2 := card_behind A r0 pre hpre sel post' hp'
  have h3 := SV2.Noise.card_prod_diff c k (behind A r0 pre sel post) (behind A r0 pre sel post') h
  have h4 : Nat.card ((Place X P → V) × (V ⊕ P × Fin 3 → R)) * Nat.card (R × R) =
      Nat.card (((Place X P → V) × (P → R)) × ((R × R) × (V → R))) * Nat.card (P × Bool → R) := by
    rw [Nat.card_congr (dealt (X := X) (V := V) (P := P) (R := R))]
    simp only [Nat.card_prod]
    ring
  have hR : 0 < Nat.card (R × R) := Nat.card_pos
  refine Nat.le_of_mul_le_mul_right ?_ hR
  have h5 := Nat.mul_le_mul_right (Nat.card (P × Bool → R)) h3
  rw [Nat.add_mul, Nat.mul_assoc, Nat.mul_assoc, Nat.mul_assoc, ← h1, ← h2, ← h4] at h5
  rw [Nat.add_mul, Nat.mul_assoc, Nat.mul_assoc, Nat.mul_assoc]
  exact h5

/-- As `card_real`, for two programs that say yes in about equally many ideal worlds. -/
theorem card_real_near [Finite X] [Finite V] [Finite P] [Finite R] [Nonempty V] [Nonempty R] (S : Shape X V P) (m m' : Prog X V P R α)
    (n D : Nat) (hn : ∀ w, (m.log w).length ≤ n) (hn' : ∀ w, (m'.log w).length ≤ n) (hA : ∀ w p, .hash (S.A p) ∉ m.log w)
    (hA' : ∀ w p, .hash (S.A p) ∉ m'.log w) (φ : α → Prop)
    (heq : Nat.card V * Nat.card {z : (Place X P → V) × (V ⊕ P × Fin 3 → R) // φ (m.run (ideal z.1 z.2))} ≤
      Nat.card V * Nat.card {z : (Place X P → V) × (V ⊕ P × Fin 3 → R) // φ (m'.run (ideal z.1 z.2))} +
        D * Nat.card ((Place X P → V) × (V ⊕ P × Fin 3 → R))) :
    Nat.card V * Nat.card {x : (X → V) × (V → R) // Fine S (m.log (real S x.1 x.2)) x.1 → φ (m.run (real S x.1 x.2))} ≤
      Nat.card V * Nat.card {x : (X → V) × (V → R) // Fine S (m'.log (real S x.1 x.2)) x.1 ∧ φ (m'.run (real S x.1 x.2))} +
        (336 * n ^ 2 + D) * Nat.card ((X → V) × (V → R)) := by
  have hE : 0 < Nat.card (Extra V P R) := Nat.card_pos
  have g1 := card_good S m hA (fun a => ¬ φ a)
  have g2 := card_good S m' hA' φ
  have b1 := few_not_good_all S m n hn
  have b2 := few_not_good_all S m' n hn'
  have hw := card_worlds (X := X) (V := V) (P := P) (R := R)
  have c1 := card_compl (fun x : (X → V) × (V → R) => Fine S (m.log (real S x.1 x.2)) x.1 ∧ ¬ φ (m.run (real S x.1 x.2)))
  have c1' : Nat.card {x : (X → V) × (V → R) // ¬ (Fine S (m.log (real S x.1 x.2)) x.1 ∧ ¬ φ (m.run (real S x.1 x.2)))} =
      Nat.card {x : (X → V) × (V → R) // Fine S (m.log (real S x.1 x.2)) x.1 → φ (m.run (real S x.1 x.2))} :=
    Nat.card_congr (Equiv.subtypeEquivRight fun x => by tauto)
  have c2 := card_compl (fun z : (Place X P → V) × (V ⊕ P × Fin 3 → R) => Good S m z.1 z.2 ∧ ¬ φ (m.run (ideal z.1 z.2)))
  have c3 : Nat.card {z : (Place X P → V) × (V ⊕ P × Fin 3 → R) // ¬ (Good S m z.1 z.2 ∧ ¬ φ (m.run (ideal z.1 z.2)))} ≤
      Nat.card {z : (Place X P → V) × (V ⊕ P × Fin 3 → R) // ¬ Good S m z.1 z.2} +
      Nat.card {z : (Place X P → V) × (V ⊕ P × Fin 3 → R) // φ (m.run (ideal z.1 z.2))} :=
    card_le_two fun z h => by tauto
  have c4 : Nat.card {z : (Place X P → V) × (V ⊕ P × Fin 3 → R) // φ (m'.run (ideal z.1 z.2))} ≤
      Nat.card {z : (Place X P → V) × (V ⊕ P × Fin 3 → R) // ¬ Good S m' z.1 z.2} +
      Nat.card {z : (Place X P → V) × (V ⊕ P × Fin 3 → R) // Good S m' z.1 z.2 ∧ φ (m'.run (ideal z.1 z.2))} :=
    card_le_two fun z h => by tauto
  rw [hw] at heq
  generalize Nat.card (Extra V P R) = e at *
  generalize Nat.card ((X → V) × (V → R)) = b at *
  rw [c1'] at c1
  generalize Nat.card {x : (X → V) × (V → R) // Fine S (m.log (real S x.1 x.2)) x.1 → φ (m.run (real S x.1 x.2))} = r at *
  generalize Nat.card {x : (X → V) × (V → R) // Fine S (m'.log (real S x.1 x.2)) x.1 ∧ φ (m'.run (real S x.1 x.2))} = r' at *
  rw [hw] at c2 b1 b2
  generalize Nat.card {z : (Place X P → V) × (V ⊕ P × Fin 3 → R) // φ (m.run (ideal z.1 z.2))} = u at *
  generalize Nat.card {z : (Place X P → V) × (V ⊕ P × Fin 3 → R) // φ (m'.run (ideal z.1 z.2))} = u' at *
  generalize Nat.card {z : (Place X P → V) × (V ⊕ P × Fin 3 → R) // ¬ Good S m z.1 z.2} = x1 at *
  generalize Nat.card {z : (Place X P → V) × (V ⊕ P × Fin 3 → R) // ¬ Good S m' z.1 z.2} = x2 at *
  generalize Nat.card V = v at *
  have h1 : r * e ≤ x1 + u := by
    have := congrArg (· * e) c1
    simp only [Nat.add_mul] at this
    omega
  have h2 : u' ≤ x2 + r' * e := by omega
  have h1' := Nat.mul_le_mul_left v h1
  have h2' := Nat.mul_le_mul_left v h2
  refine Nat.le_of_mul_le_mul_right ?_ hE
  rw [Nat.mul_add] at h1' h2'
  have e1 : v * r * e = v * (r * e) := by ring
  have e2 : (v * r' + (336 * n ^ 2 + D) * b) * e = v * (r' * e) + (2 * (168 * n ^ 2 * (b * e)) + D * (b * e)) := by ring
  rw [e1, e2]
  omega

end SV2.Veil
