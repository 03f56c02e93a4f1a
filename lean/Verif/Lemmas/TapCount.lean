import Verif.Lemmas.Snoop
import Verif.Props.Snoop
import Verif.Lemmas.Renewed
/-!
# The later keys are as good as random ones, for who wants to know which text is sent

As `Verif/Lemmas/Snoop.lean`, but the rows of the first two keys are given apart, as in `Verif/Lemmas/Long.lean`.
-/

namespace SV2.Long

variable {X V P R α β : Type} (S : Shape X V P)

/-- As `card_real`, for two programs that say yes in about equally many ideal worlds. -/
theorem card_real_near [Finite X] [Finite V] [Finite P] [Finite R] [Nonempty V] [Nonempty R] (S' : Shape X V P)
    (m m' : Prog X V P R α) (n D : Nat)
    (hn : ∀ w, (m.log w).length ≤ n) (hn' : ∀ w, (m'.log w).length ≤ n) (hA : ∀ w p, .hash (S.A p) ∉ m.log w)
    (hA' : ∀ w p, .hash (S'.A p) ∉ m'.log w) (φ : α → Prop)
    (heq : Nat.card V * Nat.card {z : (Place X P → V) × (V ⊕ P × Fin 4 → R) // φ (m.run (ideal z.1 z.2))} ≤
      Nat.card V * Nat.card {z : (Place X P → V) × (V ⊕ P × Fin 4 → R) // φ (m'.run (ideal z.1 z.2))} +
        D * Nat.card ((Place X P → V) × (V ⊕ P × Fin 4 → R))) :
    Nat.card V * Nat.card {x : (X → V) × (V → R) // Fine S (m.log (real S x.1 x.2)) x.1 → φ (m.run (real S x.1 x.2))} ≤
      Nat.card V * Nat.card {x : (X → V) × (V → R) // Fine S' (m'.log (real S' x.1 x.2)) x.1 ∧ φ (m'.run (real S' x.1 x.2))} +
        (720 * n ^ 2 + D) * Nat.card ((X → V) × (V → R)) := by
  classical
  have hE : 0 < Nat.card (Extra V P R) := Nat.card_pos
  have card_compl : ∀ {Y : Type} [Finite Y] (p : Y → Prop), Nat.card {x // p x} + Nat.card {x // ¬ p x} = Nat.card Y := by
    intro Y _ p
    rw [← Nat.card_sum]
    exact Nat.card_congr (Equiv.sumCompl p)
  have g1 := card_good S m hA (fun a => ¬ φ a)
  have g2 := card_good S' m' hA' φ
  have b1 := few_not_good_all S m n hn
  have b2 := few_not_good_all S' m' n hn'
  have hw := card_worlds (X := X) (V := V) (P := P) (R := R)
  have c1 := card_compl (fun x : (X → V) × (V → R) => Fine S (m.log (real S x.1 x.2)) x.1 ∧ ¬ φ (m.run (real S x.1 x.2)))
  have c1' : Nat.card {x : (X → V) × (V → R) // ¬ (Fine S (m.log (real S x.1 x.2)) x.1 ∧ ¬ φ (m.run (real S x.1 x.2)))} =
      Nat.card {x : (X → V) × (V → R) // Fine S (m.log (real S x.1 x.2)) x.1 → φ (m.run (real S x.1 x.2))} :=
    Nat.card_congr (Equiv.subtypeEquivRight fun x => by tauto)
  have c2 := card_compl (fun z : (Place X P → V) × (V ⊕ P × Fin 4 → R) => Good S m z.1 z.2 ∧ ¬ φ (m.run (ideal z.1 z.2)))
  have c3 : Nat.card {z : (Place X P → V) × (V ⊕ P × Fin 4 → R) // ¬ (Good S m z.1 z.2 ∧ ¬ φ (m.run (ideal z.1 z.2)))} ≤
      Nat.card {z : (Place X P → V) × (V ⊕ P × Fin 4 → R) // ¬ Good S m z.1 z.2} +
      Nat.card {z : (Place X P → V) × (V ⊕ P × Fin 4 → R) // φ (m.run (ideal z.1 z.2))} :=
    SV2.Noise.card_imp_or fun z h => by tauto
  have c4 : Nat.card {z : (Place X P → V) × (V ⊕ P × Fin 4 → R) // φ (m'.run (ideal z.1 z.2))} ≤
      Nat.card {z : (Place X P → V) × (V ⊕ P × Fin 4 → R) // ¬ Good S' m' z.1 z.2} +
      Nat.card {z : (Place X P → V) × (V ⊕ P × Fin 4 → R) // Good S' m' z.1 z.2 ∧ φ (m'.run (ideal z.1 z.2))} :=
    SV2.Noise.card_imp_or fun z h => by tauto
  rw [hw] at heq
  generalize Nat.card (Extra V P R) = e at *
  generalize Nat.card ((X → V) × (V → R)) = b at *
  rw [c1'] at c1
  generalize Nat.card {x : (X → V) × (V → R) // Fine S (m.log (real S x.1 x.2)) x.1 → φ (m.run (real S x.1 x.2))} = r at *
  generalize Nat.card {x : (X → V) × (V → R) // Fine S' (m'.log (real S' x.1 x.2)) x.1 ∧ φ (m'.run (real S' x.1 x.2))} = r' at *
  rw [hw] at c2 b1 b2
  generalize Nat.card {z : (Place X P → V) × (V ⊕ P × Fin 4 → R) // φ (m.run (ideal z.1 z.2))} = u at *
  generalize Nat.card {z : (Place X P → V) × (V ⊕ P × Fin 4 → R) // φ (m'.run (ideal z.1 z.2))} = u' at *
  generalize Nat.card {z : (Place X P → V) × (V ⊕ P × Fin 4 → R) // ¬ Good S m z.1 z.2} = x1 at *
  generalize Nat.card {z : (Place X P → V) × (V ⊕ P × Fin 4 → R) // ¬ Good S' m' z.1 z.2} = x2 at *
  generalize Nat.card V = v at *
  have h1 : r * e ≤ x1 + u := by
    have := congrArg (· * e) c1
    simp only [Nat.add_mul] at this
    omega
  have h2 : u' ≤ x2 + r' * e := by omega
  have h1' := Nat.mul_le_mul_left v h1
  have h2' := Nat.mul_le_mul_left v h2
  refine Nat.le_of_mul_le_mul_right ?_ hE
  rw [Nat.mul_add] at h1' h2'
  have e1 : v * r * e = v * (r * e) := by ring
  have e2 : (v * r' + (720 * n ^ 2 + D) * b) * e = v * (r' * e) + (2 * (360 * n ^ 2 * (b * e)) + D * (b * e)) := by ring
  rw [e1, e2]
  omega

/-- It only hashes. -/
def Prog.Dry : Prog X V P R α → Prop
  | .ret _ => True
  | .hash _ next => ∀ v, (next v).Dry
  | .row _ _ => False
  | .mix _ _ => False

theorem Prog.Dry.bind {m : Prog X V P R α} {f : α → Prog X V P R β} (hm : m.Dry) (hf : ∀ a, (f a).Dry) : (m.bind f).Dry := by
  induction m with
  | ret a => exact hf a
  | hash x next ih => exact fun v => ih v (hm v)
  | row k next ih => exact hm.elim
  | mix p next ih => exact hm.elim

theorem Prog.Dry.run {m : Prog X V P R α} (hm : m.Dry) (A : P → X) {w w' : World X V P R} (h : w.hash = w'.hash) :
    (m.guard A).run w = (m.guard A).run w' := by
  induction m with
  | ret a => rfl
  | hash x next ih =>
    unfold Prog.guard
    split
    · rfl
    · show (((next (w.hash x)).guard A).run w) = (((next (w'.hash x)).guard A).run w')
      rw [h]
      exact ih _ (hm _)
  | row k next ih => exact hm.elim
  | mix p next ih => exact hm.elim

end SV2.Long

namespace SV2.Stack
namespace Renewal
open Noise Veiled Stealing Function

variable {E : Nat}

/-- Fresh worlds are real ones, and almost all are fresh. -/
theorem card_later_real {k : Arr 32 × Arr 32} (hk : k.1 ≠ k.2) (log : Blocks × (Fin (E + 2) → KeyRow) → List (Arr 32)) {n : Nat}
    (hn : ∀ z, (log z).length ≤ n) (p : Blocks → Prop) (q : Blocks × (Fin (E + 2) → KeyRow) → Prop)
    (hp : ∀ w : Later E, Fresh k log w → q w.2 → p (build (joined k w.1) w.2.2 w.2.1)) :
    2 ^ 256 * Nat.card {w : Later E // q w.2} ≤ (2 ^ 256 * Nat.card {x // p x} + E * (n + E + 2) * Nat.card Blocks) *
      Nat.card (Rest E) := by
  classical
  have hgood : Nat.card {w : Later E // Fresh k log w ∧ q w.2} ≤ Nat.card {x // p x} * Nat.card (Rest E) := by
    rw [← Nat.card_prod]
    refine Nat.card_le_card_of_injective (fun w : {w : Later E // Fresh k log w ∧ q w.2} =>
      ((⟨build (joined k w.1.1) w.1.2.2 w.1.2.1, hp w.1 w.2.1 w.2.2⟩ : {x // p x}), (shown (joined k w.1.1, w.1.2)).2)) fun w w' h => ?_
    obtain ⟨h1, h2⟩ := Prod.mk.inj h
    have h3 : shown (joined k w.1.1, w.1.2) = shown (joined k w'.1.1, w'.1.2) := by
      refine Prod.ext (Prod.ext ?_ (congrArg Subtype.val h1)) h2
      exact (seat_joined _ _).trans (seat_joined _ _).symm
    have h6 := shown_inj w.2.1.inj w'.2.1.inj h3
    have h4 : joined k w.1.1 = joined k w'.1.1 := congrArg Prod.fst h6
    have h5 : w.1.2 = w'.1.2 := (Prod.mk.inj h6).2
    refine Subtype.ext (Prod.ext ?_ h5)
    funext e
    rw [← joined_later k w.1.1, h4, joined_later]
  have hsum : Nat.card {w : Later E // q w.2} ≤ Nat.card {w : Later E // Fresh k log w ∧ q w.2} +
      Nat.card {w : Later E // ¬ Fresh k log w} :=
    card_imp_or fun w hw => by
      by_cases hg : Fresh k log w
      · exact .inl ⟨hg, hw⟩
      · exact .inr hg
  have h3 := card_later (E := E)
  have h4 := few_not_fresh hk log hn
  calc 2 ^ 256 * Nat.card {w : Later E // q w.2}
      ≤ 2 ^ 256 * (Nat.card {x // p x} * Nat.card (Rest E) + Nat.card {w : Later E // ¬ Fresh k log w}) :=
        Nat.mul_le_mul_left _ (Nat.le_trans hsum (Nat.add_le_add_right hgood _))
    _ = 2 ^ 256 * Nat.card {x // p x} * Nat.card (Rest E) + 2 ^ 256 * Nat.card {w : Later E // ¬ Fresh k log w} := by ring
    _ ≤ 2 ^ 256 * Nat.card {x // p x} * Nat.card (Rest E) + E * (n + E + 2) * Nat.card (Later E) := Nat.add_le_add_left h4 _
    _ = _ := by rw [h3]; ring

/-- If it is as likely with blocks of their own for all later keys, then it is about as likely with those that come of the
blocks. -/
theorem near_later {k : Arr 32 × Arr 32} (hk : k.1 ≠ k.2) (log log' : Blocks × (Fin (E + 2) → KeyRow) → List (Arr 32)) {n : Nat}
    (hn : ∀ z, (log z).length ≤ n) (hn' : ∀ z, (log' z).length ≤ n) (p p' : Blocks → Prop)
    (q q' : Blocks × (Fin (E + 2) → KeyRow) → Prop)
    (hp : ∀ w : Later E, Fresh k log w → (p (build (joined k w.1) w.2.2 w.2.1) ↔ q w.2))
    (hp' : ∀ w : Later E, Fresh k log' w → (p' (build (joined k w.1) w.2.2 w.2.1) ↔ q' w.2))
    (hq : ∀ C, Nat.card {rows // q (C, rows)} ≤ Nat.card {rows // q' (C, rows)}) :
    2 ^ 256 * Nat.card {x // p x} ≤ 2 ^ 256 * Nat.card {x // p' x} + 2 * (E * (n + E + 2)) * Nat.card Blocks := by
  classical
  have A := card_later_real hk log' hn' p' q' fun w hw h => (hp' w hw).mpr h
  have B := card_later_real hk log hn (fun x => ¬ p x) (fun z => ¬ q z) fun w hw h hy => h ((hp w hw).mp hy)
  have hsum : ∀ q : Blocks × (Fin (E + 2) → KeyRow) → Prop, Nat.card {w : Later E // q w.2} =
      Nat.card (Σ kC : (Fin E → Arr 32) × Blocks, {rows : Fin (E + 2) → KeyRow // q (kC.2, rows)}) := fun q =>
    Nat.card_congr ⟨fun w => ⟨(w.1.1, w.1.2.1), w.1.2.2, w.2⟩, fun z => ⟨(z.1.1, z.1.2, z.2.1), z.2.2⟩, fun _ => rfl, fun _ => rfl⟩
  have I : Nat.card {w : Later E // q w.2} ≤ Nat.card {w : Later E // q' w.2} := by
    have := Fintype.ofFinite ((Fin E → Arr 32) × Blocks)
    rw [hsum, hsum, Nat.card_sigma, Nat.card_sigma]
    exact Finset.sum_le_sum fun kC _ => hq kC.2
  have hsplit : ∀ {A : Type} [Finite A] (q : A → Prop), Nat.card A = Nat.card {x // q x} + Nat.card {x // ¬ q x} := by
    intro A _ q
    rw [← Nat.card_sum]
    exact Nat.card_congr (Equiv.sumCompl q).symm
  have s1 := hsplit (A := Later E) fun w => q w.2
  have s2 := hsplit (A := Blocks) p
  have hW := card_later (E := E)
  have hN : Nonempty (Rest E) := ⟨fun _ _ => Arr.replicate 64 0, fun _ => EMPTY⟩
  have hR : 0 < Nat.card (Rest E) := Nat.card_pos
  generalize E * (n + E + 2) = D at *
  generalize Nat.card (Rest E) = R at *
  generalize Nat.card (Later E) = W at *
  generalize Nat.card Blocks = N at *
  generalize Nat.card {x // p x} = y at *
  generalize Nat.card {x // ¬ p x} = y' at *
  generalize Nat.card {x // p' x} = z at *
  generalize Nat.card {w : Later E // q w.2} = u at *
  generalize Nat.card {w : Later E // ¬ q w.2} = u' at *
  generalize Nat.card {w : Later E // q' w.2} = v at *
  refine Nat.le_of_mul_le_mul_right ?_ hR
  have e1 : 2 ^ 256 * (u + u') = 2 ^ 256 * ((y + y') * R) := by rw [← s1, hW, s2]
  have e2 : 2 ^ 256 * ((y + y') * R) = 2 ^ 256 * y * R + 2 ^ 256 * y' * R := by ring
  have e3 : (2 ^ 256 * y' + D * N) * R = 2 ^ 256 * y' * R + D * N * R := by ring
  have e4 : (2 ^ 256 * z + D * N) * R = 2 ^ 256 * z * R + D * N * R := by ring
  have e5 : (2 ^ 256 * z + 2 * D * N) * R = 2 ^ 256 * z * R + 2 * (D * N * R) := by ring
  have e6 : 2 ^ 256 * u ≤ 2 ^ 256 * v := Nat.mul_le_mul_left _ I
  rw [Nat.mul_add] at e1
  omega

/-- Other rows for two keys. -/
def veil (d : Arr 32 × Arr 32) (c : KeyRow × KeyRow) (B : Blocks) : Blocks := fun x =>
  if x.1 = d.1 then c.1 x.2 else if x.1 = d.2 then c.2 x.2 else B x

/-- Exchanges these rows. -/
def veiling {d : Arr 32 × Arr 32} (hd : d.1 ≠ d.2) : (KeyRow × KeyRow) × Blocks ≃ (KeyRow × KeyRow) × Blocks :=
  let f : (KeyRow × KeyRow) × Blocks → (KeyRow × KeyRow) × Blocks := fun z =>
    ((fun x => z.2 (d.1, x), fun x => z.2 (d.2, x)), veil d z.1 z.2)
  have hf : ∀ z, f (f z) = z := by
    rintro ⟨⟨a, b⟩, B⟩
    simp only [f]
    refine Prod.ext (Prod.ext ?_ ?_) ?_
    · funext x
      simp only [veil, if_pos]
    · funext x
      simp only [veil, if_neg hd.symm, if_pos]
    · funext x
      obtain ⟨k, y⟩ := x
      simp only [veil]
      by_cases h1 : k = d.1
      · subst h1; simp
      · by_cases h2 : k = d.2
        · subst h2; simp [h1]
        · simp [h1, h2]
  ⟨f, f, hf, hf⟩

end Renewal
end SV2.Stack
