import Verif.Lemmas.Veil
/-!
# Two programs that use hidden rows

A program as in `Verif/Lemmas/Veil.lean` that asks for one chain and uses its last two rows, and otherwise only the first row
of a chain.  If for all that is known otherwise two such programs say yes for equally many pairs of rows, then they do in
about equally many real worlds.
-/

namespace SV2.Veil
open Function

variable {X V P R α β γ : Type}

/-! ## Programs that stop -/

theorem Prog.guard_run (A : P → X) (w : World X V P R) (m : Prog X V P R α) (h : ∀ p, .hash (A p) ∉ m.log w) :
    (m.guard A).run w = some (m.run w) := by
  induction m with
  | ret a => rfl
  | hash x next ih =>
    unfold Prog.guard
    split
    · next hx =>
      obtain ⟨p, rfl⟩ := hx
      exact absurd List.mem_cons_self (h p)
    · exact ih _ fun p hp => h p (List.mem_cons_of_mem _ hp)
  | row k next ih => exact ih _ fun p hp => h p (List.mem_cons_of_mem _ hp)
  | mix q next ih => exact ih _ _ fun p hp => h p (List.mem_cons_of_mem _ hp)

theorem Prog.guard_some (A : P → X) (w : World X V P R) (m : Prog X V P R α) (a : α) (h : (m.guard A).run w = some a) (p : P) :
    .hash (A p) ∉ m.log w := by
  induction m with
  | ret a => exact List.not_mem_nil
  | hash x next ih =>
    unfold Prog.guard at h
    split at h
    · cases h
    · next hx =>
      simp only [Prog.log, List.mem_cons, not_or]
      exact ⟨fun e => hx ⟨p, Event.hash.inj e⟩, ih _ h⟩
  | row k next ih =>
    simp only [Prog.log, List.mem_cons, reduceCtorEq, false_or]
    exact ih _ h
  | mix q next ih =>
    simp only [Prog.log, List.mem_cons, reduceCtorEq, false_or]
    exact ih _ _ h

theorem Prog.guard_log_bind (A : P → X) (w : World X V P R) (m : Prog X V P R α) (f : α → Prog X V P R β)
    (h : ∀ p, .hash (A p) ∉ m.log w) :
    ((m.bind f).guard A).log w = m.log w ++ ((f (m.run w)).guard A).log w := by
  induction m with
  | ret a => rfl
  | hash x next ih =>
    have hx : ¬ ∃ p, A p = x := by
      rintro ⟨p, rfl⟩
      exact h p List.mem_cons_self
    have e : ((Prog.hash x next).bind f).guard A = .hash x fun v => ((next v).bind f).guard A := if_neg hx
    rw [e]
    exact congrArg _ (ih _ fun p hp => h p (List.mem_cons_of_mem _ hp))
  | row k next ih => exact congrArg _ (ih _ fun p hp => h p (List.mem_cons_of_mem _ hp))
  | mix q next ih => exact congrArg _ (ih _ _ fun p hp => h p (List.mem_cons_of_mem _ hp))

theorem Prog.guard_run_bind (A : P → X) (w : World X V P R) (m : Prog X V P R α) (f : α → Prog X V P R β) :
    ((m.bind f).guard A).run w = ((m.guard A).run w).bind fun a => ((f a).guard A).run w := by
  induction m with
  | ret a => rfl
  | hash x next ih =>
    by_cases hx : ∃ p, A p = x
    · have e : ((Prog.hash x next).guard A) = .ret none := if_pos hx
      have e' : ((Prog.hash x fun v => (next v).bind f).guard A) = .ret none := if_pos hx
      rw [e, Prog.bind, e']
      rfl
    · have e : ((Prog.hash x next).guard A) = .hash x fun v => (next v).guard A := if_neg hx
      have e' : ((Prog.hash x fun v => (next v).bind f).guard A) = .hash x fun v => ((next v).bind f).guard A := if_neg hx
      rw [e, Prog.bind, e']
      exact ih _
  | row k next ih => exact ih _
  | mix q next ih => exact ih _ _

/-! ## Programs that use only the first row of a chain -/

def Prog.Modest : Prog X V P R α → Prop
  | .ret _ => True
  | .hash _ next => ∀ v, (next v).Modest
  | .row _ next => ∀ r, (next r).Modest
  | .mix _ next => (∀ r b, (next r b).Modest) ∧ ∀ r r' b, r 0 = r' 0 → next r b = next r' b

theorem Prog.Modest.bind {m : Prog X V P R α} {f : α → Prog X V P R β} (hm : m.Modest) (hf : ∀ a, (f a).Modest) :
    (m.bind f).Modest := by
  induction m with
  | ret a => exact hf a
  | hash x next ih => exact fun v => ih v (hm v)
  | row k next ih => exact fun r => ih r (hm r)
  | mix p next ih => exact ⟨fun r b => ih r b (hm.1 r b), fun r r' b h => congrArg (Prog.bind · f) (hm.2 r r' b h)⟩

theorem Prog.Modest.guard (A : P → X) {m : Prog X V P R α} (hm : m.Modest) : (m.guard A).Modest := by
  induction m with
  | ret a => trivial
  | hash x next ih =>
    unfold Prog.guard
    split
    · trivial
    · exact fun v => ih v (hm v)
  | row k next ih => exact fun r => ih r (hm r)
  | mix p next ih => exact ⟨fun r b => ih r b (hm.1 r b), fun r r' b h => congrArg (Prog.guard A) (hm.2 r r' b h)⟩

/-- The same but for the last two rows of the chains. -/
structure World.Like (w w' : World X V P R) : Prop where
  hash : w.hash = w'.hash
  row : w.row = w'.row
  first : ∀ p, (w.mix p).1 0 = (w'.mix p).1 0
  bad : ∀ p, (w.mix p).2 = (w'.mix p).2

theorem Prog.Modest.run {m : Prog X V P R α} (hm : m.Modest) {w w' : World X V P R} (h : w.Like w') : m.run w = m.run w' := by
  induction m with
  | ret a => rfl
  | hash x next ih =>
    simp only [Prog.run, ← h.hash]
    exact ih _ (hm _)
  | row k next ih =>
    simp only [Prog.run, ← h.row]
    exact ih _ (hm _)
  | mix p next ih =>
    simp only [Prog.run, ← h.bad, ← hm.2 _ _ (w.mix p).2 (h.first p)]
    exact ih _ _ (hm.1 _ _)

/-! ## The ideal world -/

/-- The rows, from those that everybody may use and the last two of each chain. -/
def glue (U : V ⊕ P → R) (f : P × Bool → R) : V ⊕ P × Fin 3 → R
  | .inl k => U (.inl k)
  | .inr (p, 0) => U (.inr p)
  | .inr (p, 1) => f (p, false)
  | .inr (p, 2) => f (p, true)

def glueEquiv : (V ⊕ P → R) × (P × Bool → R) ≃ (V ⊕ P × Fin 3 → R) where
  toFun y := glue y.1 y.2
  invFun W := (fun | .inl k => W (.inl k) | .inr p => W (.inr (p, 0)), fun q => W (.inr (q.1, if q.2 then 2 else 1)))
  left_inv y := by
    refine Prod.ext ?_ ?_
    · funext i
      cases i <;> rfl
    · funext ⟨p, b⟩
      cases b <;> rfl
  right_inv W := by
    funext i
    rcases i with k | ⟨p, j⟩
    · rfl
    · fin_cases j <;> rfl

theorem ideal_like (Z : Place X P → V) (U : V ⊕ P → R) (f f' : P × Bool → R) : (ideal Z (glue U f)).Like (ideal Z (glue U f')) :=
  ⟨rfl, rfl, fun _ => rfl, fun _ => rfl⟩

/-- A condition on two values of a function. -/
theorem card_two {I : Type} [Finite I] [Finite R] [Nonempty R] {i j : I} (hij : i ≠ j) (φ : R → R → Prop) :
    Nat.card {f : I → R // φ (f i) (f j)} * Nat.card (R × R) = Nat.card {y : R × R // φ y.1 y.2} * Nat.card (I → R) := by
  classical
  rw [← Nat.card_prod, ← Nat.card_prod]
  refine Nat.card_congr
    { toFun := fun z => (⟨(z.1.1 i, z.1.1 j), z.1.2⟩, update (update z.1.1 i z.2.1) j z.2.2)
      invFun := fun z => (⟨update (update z.2 i z.1.1.1) j z.1.1.2, ?_⟩, (z.2 i, z.2 j))
      left_inv := ?_
      right_inv := ?_ }
  · rw [update_of_ne hij, update_self, update_self]
    exact z.1.2
  · rintro ⟨⟨f, hf⟩, a, b⟩
    refine Prod.ext (Subtype.ext ?_) ?_
    · funext k
      by_cases hk : k = j
      · subst hk; simp
      · by_cases hk' : k = i
        · subst hk'; simp [hk]
        · simp [hk, hk']
    · simp [hij]
  · rintro ⟨⟨⟨a, b⟩, hy⟩, f⟩
    refine Prod.ext (Subtype.ext ?_) ?_
    · simp [hij]
    · funext k
      by_cases hk : k = j
      · subst hk; simp
      · by_cases hk' : k = i
        · subst hk'; simp [hk]
        · simp [hk, hk']

/-- Equally many pairs, equally many functions. -/
theorem card_two_eq {I : Type} [Finite I] [Finite R] [Nonempty R] {i j : I} (hij : i ≠ j) {φ ψ : R → R → Prop}
    (h : Nat.card {y : R × R // φ y.1 y.2} = Nat.card {y : R × R // ψ y.1 y.2}) :
    Nat.card {f : I → R // φ (f i) (f j)} = Nat.card {f : I → R // ψ (f i) (f j)} := by
  have h1 := card_two hij φ
  rw [h, ← card_two hij ψ] at h1
  exact Nat.eq_of_mul_eq_mul_right Nat.card_pos h1

/-- And the other way round. -/
theorem card_two_eq' {I : Type} [Finite I] [Finite R] [Nonempty R] {i j : I} (hij : i ≠ j) {φ ψ : R → R → Prop}
    (h : Nat.card {f : I → R // φ (f i) (f j)} = Nat.card {f : I → R // ψ (f i) (f j)}) :
    Nat.card {y : R × R // φ y.1 y.2} = Nat.card {y : R × R // ψ y.1 y.2} := by
  have h1 := card_two hij φ
  rw [h, card_two hij ψ] at h1
  exact (Nat.eq_of_mul_eq_mul_right Nat.card_pos h1).symm

/-- It asks for a chain and goes on with the last two rows, or says no. -/
def withRows (sel : γ → Option P) (post : γ → R → R → Prog X V P R Bool) (x : γ) : Prog X V P R Bool :=
  match sel x with
  | none => .ret false
  | some p => .mix p fun r _ => post x (r 1) (r 2)

theorem card_alike [Finite X] [Finite V] [Finite P] [Finite R] [Nonempty R] (A : P → X) (pre : Prog X V P R γ) (hpre : pre.Modest)
    (sel : γ → Option P) (post post' : γ → R → R → Prog X V P R Bool) (hp : ∀ x a b, (post x a b).Modest)
    (hp' : ∀ x a b, (post' x a b).Modest)
    (heq : ∀ x w, Nat.card {y : R × R // ((post x y.1 y.2).guard A).run w = some true} =
      Nat.card {y : R × R // ((post' x y.1 y.2).guard A).run w = some true}) :
    Nat.card {z : (Place X P → V) × (V ⊕ P × Fin 3 → R) //
      ((pre.bind (withRows sel post)).guard A).run (ideal z.1 z.2) = some true} =
    Nat.card {z : (Place X P → V) × (V ⊕ P × Fin 3 → R) //
      ((pre.bind (withRows sel post')).guard A).run (ideal z.1 z.2) = some true} := by
  classical
  have split : ∀ φ : (Place X P → V) → (V ⊕ P × Fin 3 → R) → Prop,
      Nat.card {z : (Place X P → V) × (V ⊕ P × Fin 3 → R) // φ z.1 z.2} =
      Nat.card (Σ y : (Place X P → V) × (V ⊕ P → R), {f : P × Bool → R // φ y.1 (glue y.2 f)}) := by
    intro φ
    refine Nat.card_congr
      { toFun := fun z => ⟨(z.1.1, (glueEquiv.symm z.1.2).1), (glueEquiv.symm z.1.2).2, ?_⟩
        invFun := fun y => ⟨(y.1.1, glue y.1.2 y.2.1), y.2.2⟩
        left_inv := ?_
        right_inv := ?_ }
    · have : glue (glueEquiv.symm z.1.2).1 (glueEquiv.symm z.1.2).2 = z.1.2 := glueEquiv.apply_symm_apply z.1.2
      rw [this]
      exact z.2
    · rintro ⟨⟨Z, W⟩, hz⟩
      exact Subtype.ext (Prod.ext rfl (glueEquiv.apply_symm_apply W))
    · rintro ⟨⟨Z, U⟩, f, hf⟩
      have e := glueEquiv.symm_apply_apply (U, f)
      have e1 : (glueEquiv.symm (glue U f)).1 = U := congrArg Prod.fst e
      have e2 : (glueEquiv.symm (glue U f)).2 = f := congrArg Prod.snd e
      refine Sigma.ext (Prod.ext rfl e1) ?_
      simp only
      rw! [e1, e2]
      rfl
  rw [split fun Z W => ((pre.bind (withRows sel post)).guard A).run (ideal Z W) = some true,
    split fun Z W => ((pre.bind (withRows sel post')).guard A).run (ideal Z W) = some true]
  have hfix : ∀ y : (Place X P → V) × (V ⊕ P → R),
      Nat.card {f : P × Bool → R // ((pre.bind (withRows sel post)).guard A).run (ideal y.1 (glue y.2 f)) = some true} =
      Nat.card {f : P × Bool → R // ((pre.bind (withRows sel post')).guard A).run (ideal y.1 (glue y.2 f)) = some true} := by
    rintro ⟨Z, U⟩
    obtain ⟨r0⟩ : Nonempty R := inferInstance
    let w0 : World X V P R := ideal Z (glue U fun _ => r0)
    have hlike : ∀ f, (ideal Z (glue U f)).Like w0 := fun f => ideal_like Z U f _
    have hrun : ∀ (post : γ → R → R → Prog X V P R Bool), (∀ x a b, (post x a b).Modest) → ∀ f : P × Bool → R,
        ((pre.bind (withRows sel post)).guard A).run (ideal Z (glue U f)) =
          ((pre.guard A).run w0).bind fun x => match sel x with
            | none => some false
            | some p => ((post x (f (p, false)) (f (p, true))).guard A).run w0 := by
      intro post hp f
      rw [Prog.guard_run_bind, (hpre.guard A).run (hlike f)]
      refine congrArg (Option.bind _) (funext fun x => ?_)
      unfold withRows
      split
      · rfl
      · exact ((hp _ _ _).guard A).run (hlike f)
    simp only [hrun post hp, hrun post' hp']
    rcases (pre.guard A).run w0 with _ | x
    · rfl
    · simp only [Option.bind_some]
      rcases sel x with _ | p
      · rfl
      · exact card_two_eq (i := (p, false)) (j := (p, true)) (fun e => Bool.false_ne_true (Prod.mk.inj e).2)
          (φ := fun a b => ((post x a b).guard A).run w0 = some true)
          (ψ := fun a b => ((post' x a b).guard A).run w0 = some true) (heq x w0)
  have := Fintype.ofFinite ((Place X P → V) × (V ⊕ P → R))
  rw [Nat.card_sigma, Nat.card_sigma]
  exact Finset.sum_congr rfl fun y _ => hfix y

/-! ## The real world -/

section
variable {S : Shape X V P} {m : Prog X V P R α} {Z : Place X P → V} {W : V ⊕ P × Fin 3 → R}

theorem Good.run_moved (g : Good S m Z W) (hA : ∀ w p, .hash (S.A p) ∉ m.log w) :
    m.run (real S (fun x => movedZ S m Z W (.inl x)) (fun k => movedW m Z W (.inl k))) = m.run (ideal Z W) := by
  refine (m.congr (ideal Z W) _ ?_).1
  rintro (x | k | p) he
  · exact g.hash_moved hA he
  · show movedW m Z W (.inl k) = W (.inl k)
    simp only [movedW]
    rw [dif_neg]
    rintro ⟨q, hq, e⟩
    exact g.key_ne_row hq he q.2 e
  · show (_, _) = (_, _)
    rw [g.chain_moved he]
    have hk : slot Z p 5 ≠ S.bad := g.key_ne_bad he 0
    refine Prod.ext (funext fun j => g.movedW_key he j) ?_
    simp only [hk, ne_eq, not_false_eq_true, decide_true]

end

variable (S : Shape X V P)

theorem card_compl {Y : Type} [Finite Y] (p : Y → Prop) : Nat.card {x // p x} + Nat.card {x // ¬ p x} = Nat.card Y := by
  classical
  rw [← Nat.card_sum]
  exact Nat.card_congr (Equiv.sumCompl p)

theorem card_le_two {Y : Type} [Finite Y] {p q r : Y → Prop} (h : ∀ x, p x → q x ∨ r x) :
    Nat.card {x // p x} ≤ Nat.card {x // q x} + Nat.card {x // r x} := by
  classical
  rw [← Nat.card_sum]
  refine Nat.card_le_card_of_injective (fun x => if hq : q x.1 then .inl ⟨x.1, hq⟩ else .inr ⟨x.1, (h x.1 x.2).resolve_left hq⟩) ?_
  intro a b hab
  simp only at hab
  split at hab <;> split at hab
  · exact Subtype.ext (congrArg (fun y => y.1) (Sum.inl.inj hab))
  · cases hab
  · cases hab
  · exact Subtype.ext (congrArg (fun y => y.1) (Sum.inr.inj hab))

/-- How many more worlds there are with the chains on their own. -/
abbrev Extra (V P R : Type) := (P × Fin 12 → V) × (P × Fin 3 → R)

/-- A good ideal world is a fine real world. -/
theorem card_good [Finite X] [Finite V] [Finite P] [Finite R] (m : Prog X V P R α) (hA : ∀ w p, .hash (S.A p) ∉ m.log w)
    (φ : α → Prop) :
    Nat.card {z : (Place X P → V) × (V ⊕ P × Fin 3 → R) // Good S m z.1 z.2 ∧ φ (m.run (ideal z.1 z.2))} ≤
      Nat.card {x : (X → V) × (V → R) // Fine S (m.log (real S x.1 x.2)) x.1 ∧ φ (m.run (real S x.1 x.2))} *
        Nat.card (Extra V P R) := by
  let A := (Place X P → V) × (V ⊕ P × Fin 3 → R)
  let B := (X → V) × (V → R)
  let e : A ≃ B × Extra V P R :=
    { toFun := fun z => ((fun x => z.1 (.inl x), fun k => z.2 (.inl k)), (fun q => z.1 (.inr q), fun p => z.2 (.inr p)))
      invFun := fun y => (Sum.elim y.1.1 y.2.1, Sum.elim y.1.2 y.2.2)
      left_inv := fun z => by
        refine Prod.ext ?_ ?_ <;> funext i <;> cases i <;> rfl
      right_inv := fun y => rfl }
  rw [← Nat.card_prod]
  refine Nat.card_le_card_of_injective (fun z => (⟨(e (movedZ S m z.1.1 z.1.2, movedW m z.1.1 z.1.2)).1, z.2.1.fine hA, ?_⟩,
    (e (movedZ S m z.1.1 z.1.2, movedW m z.1.1 z.1.2)).2)) ?_
  · have : m.run (real S (e (movedZ S m z.1.1 z.1.2, movedW m z.1.1 z.1.2)).1.1
        (e (movedZ S m z.1.1 z.1.2, movedW m z.1.1 z.1.2)).1.2) = m.run (ideal z.1.1 z.1.2) := z.2.1.run_moved hA
    rw [this]
    exact z.2.2
  · intro a b hab
    have h1 := congrArg (fun y => y.1.1) hab
    have h2 := congrArg (fun y => y.2) hab
    have h3 := e.injective (Prod.ext h1 h2)
    obtain ⟨h4, h5⟩ := moved_inj hA a.2.1 b.2.1 (congrArg Prod.fst h3) (congrArg Prod.snd h3)
    exact Subtype.ext (Prod.ext h4 h5)

theorem card_worlds [Finite X] [Finite V] [Finite P] [Finite R] :
    Nat.card ((Place X P → V) × (V ⊕ P × Fin 3 → R)) = Nat.card ((X → V) × (V → R)) * Nat.card (Extra V P R) := by
  rw [← Nat.card_prod]
  exact Nat.card_congr
    { toFun := fun z => ((fun x => z.1 (.inl x), fun k => z.2 (.inl k)), (fun q => z.1 (.inr q), fun p => z.2 (.inr p)))
      invFun := fun y => (Sum.elim y.1.1 y.2.1, Sum.elim y.1.2 y.2.2)
      left_inv := fun z => by
        refine Prod.ext ?_ ?_ <;> funext i <;> cases i <;> rfl
      right_inv := fun y => rfl }

theorem few_not_good_all [Finite X] [Finite V] [Finite P] [Finite R] (m : Prog X V P R α) (n : Nat)
    (hn : ∀ w, (m.log w).length ≤ n) :
    Nat.card V * Nat.card {z : (Place X P → V) × (V ⊕ P × Fin 3 → R) // ¬ Good S m z.1 z.2} ≤
      168 * n ^ 2 * Nat.card ((Place X P → V) × (V ⊕ P × Fin 3 → R)) := by
  have := Fintype.ofFinite (V ⊕ P × Fin 3 → R)
  have e' : {z : (Place X P → V) × (V ⊕ P × Fin 3 → R) // ¬ Good S m z.1 z.2} ≃
      Σ W : V ⊕ P × Fin 3 → R, {Z : Place X P → V // ¬ Good S m Z W} :=
    { toFun := fun z => ⟨z.1.2, z.1.1, z.2⟩
      invFun := fun y => ⟨(y.2.1, y.1), y.2.2⟩
      left_inv := fun _ => rfl
      right_inv := fun _ => rfl }
  rw [Nat.card_congr e', Nat.card_sigma, Finset.mul_sum, Nat.card_prod]
  refine (Finset.sum_le_sum fun W _ => few_not_good S m n hn W).trans ?_
  rw [Finset.sum_const, Finset.card_univ, Nat.card_eq_fintype_card (α := V ⊕ P × Fin 3 → R)]
  refine le_of_eq ?_
  show _ * _ = _
  ring

/-- If two programs say yes in equally many ideal worlds, then in about equally many real ones. -/
theorem card_real [Finite X] [Finite V] [Finite P] [Finite R] [Nonempty V] [Nonempty R] (m m' : Prog X V P R α) (n : Nat)
    (hn : ∀ w, (m.log w).length ≤ n) (hn' : ∀ w, (m'.log w).length ≤ n) (hA : ∀ w p, .hash (S.A p) ∉ m.log w)
    (hA' : ∀ w p, .hash (S.A p) ∉ m'.log w) (φ : α → Prop)
    (heq : Nat.card {z : (Place X P → V) × (V ⊕ P × Fin 3 → R) // φ (m.run (ideal z.1 z.2))} =
      Nat.card {z : (Place X P → V) × (V ⊕ P × Fin 3 → R) // φ (m'.run (ideal z.1 z.2))}) :
    Nat.card V * Nat.card {x : (X → V) × (V → R) // Fine S (m.log (real S x.1 x.2)) x.1 → φ (m.run (real S x.1 x.2))} ≤
      Nat.card V * Nat.card {x : (X → V) × (V → R) // Fine S (m'.log (real S x.1 x.2)) x.1 ∧ φ (m'.run (real S x.1 x.2))} +
        336 * n ^ 2 * Nat.card ((X → V) × (V → R)) := by
  have hE : 0 < Nat.card (Extra V P R) := Nat.card_pos
  have g1 := card_good S m hA (fun a => ¬ φ a)
  have g2 := card_good S m' hA' φ
  have b1 := few_not_good_all S m n hn
  have b2 := few_not_good_all S m' n hn'
  have hw := card_worlds (X := X) (V := V) (P := P) (R := R)
  -- the first program
  have c1 := card_compl (fun x : (X → V) × (V → R) => Fine S (m.log (real S x.1 x.2)) x.1 ∧ ¬ φ (m.run (real S x.1 x.2)))
  have c1' : Nat.card {x : (X → V) × (V → R) // ¬ (Fine S (m.log (real S x.1 x.2)) x.1 ∧ ¬ φ (m.run (real S x.1 x.2)))} =
      Nat.card {x : (X → V) × (V → R) // Fine S (m.log (real S x.1 x.2)) x.1 → φ (m.run (real S x.1 x.2))} :=
    Nat.card_congr (Equiv.subtypeEquivRight fun x => by tauto)
  have c2 := card_compl (fun z : (Place X P → V) × (V ⊕ P × Fin 3 → R) => Good S m z.1 z.2 ∧ ¬ φ (m.run (ideal z.1 z.2)))
  have c3 : Nat.card {z : (Place X P → V) × (V ⊕ P × Fin 3 → R) // ¬ (Good S m z.1 z.2 ∧ ¬ φ (m.run (ideal z.1 z.2)))} ≤
      Nat.card {z : (Place X P → V) × (V ⊕ P × Fin 3 → R) // ¬ Good S m z.1 z.2} +
      Nat.card {z : (Place X P → V) × (V ⊕ P × Fin 3 → R) // φ (m.run (ideal z.1 z.2))} :=
    card_le_two fun z h => by tauto
  have c4 : Nat.card {z : (Place X P → V) × (V ⊕ P × Fin 3 → R) // φ (m'.run (ideal z.1 z.2))} ≤
      Nat.card {z : (Place X P → V) × (V ⊕ P × Fin 3 → R) // ¬ Good S m' z.1 z.2} +
      Nat.card {z : (Place X P → V) × (V ⊕ P × Fin 3 → R) // Good S m' z.1 z.2 ∧ φ (m'.run (ideal z.1 z.2))} :=
    card_le_two fun z h => by tauto
  generalize Nat.card (Extra V P R) = e at *
  generalize Nat.card ((X → V) × (V → R)) = b at *
  rw [c1'] at c1
  generalize Nat.card {x : (X → V) × (V → R) // Fine S (m.log (real S x.1 x.2)) x.1 → φ (m.run (real S x.1 x.2))} = r at *
  generalize Nat.card {x : (X → V) × (V → R) // Fine S (m'.log (real S x.1 x.2)) x.1 ∧ φ (m'.run (real S x.1 x.2))} = r' at *
  rw [hw] at c2 b1 b2
  have h1 : r * e ≤ Nat.card {z : (Place X P → V) × (V ⊕ P × Fin 3 → R) // ¬ Good S m z.1 z.2} +
      Nat.card {z : (Place X P → V) × (V ⊕ P × Fin 3 → R) // ¬ Good S m' z.1 z.2} + r' * e := by
    have := congrArg (· * e) c1
    simp only [Nat.add_mul] at this
    omega
  have h2 := Nat.mul_le_mul_left (Nat.card V) h1
  refine Nat.le_of_mul_le_mul_right ?_ hE
  simp only [Nat.mul_add] at h2
  have e1 : Nat.card V * r * e = Nat.card V * (r * e) := by ring
  have e2 : (Nat.card V * r' + 336 * n ^ 2 * b) * e = Nat.card V * (r' * e) + 2 * (168 * n ^ 2 * (b * e)) := by ring
  rw [e1, e2]
  omega

end SV2.Veil
