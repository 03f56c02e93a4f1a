import Verif.Spec.Channel
import Verif.Lemmas.Impersonation
/-!
# The attacker and the session keys

A run that does not use the session keys does not depend on their one-time keys.
-/

namespace SV2.Noise

/-- A bound on the fibres of a function is one for the whole. -/
theorem card_fiber {X Ω : Type} [Finite X] (f : X → Ω) (bad : X → Prop) (D q : Nat)
    (h : ∀ ω, D * Nat.card {x // f x = ω ∧ bad x} ≤ q * Nat.card {x // f x = ω}) :
    D * Nat.card {x // bad x} ≤ q * Nat.card X := by
  classical
  have := Fintype.ofFinite X
  have c : ∀ (p : X → Prop) [DecidablePred p], Nat.card {x // p x} = (Finset.univ.filter p).card := by
    intro p _; rw [Nat.card_eq_fintype_card, Fintype.card_subtype]
  have h1 : (Finset.univ.filter bad).card =
      ∑ ω ∈ Finset.univ.image f, (Finset.univ.filter fun x => f x = ω ∧ bad x).card := by
    rw [Finset.card_eq_sum_card_fiberwise (f := f) (t := Finset.univ.image f)
      (fun x _ => Finset.mem_coe.mpr (Finset.mem_image_of_mem f (Finset.mem_univ x)))]
    refine Finset.sum_congr rfl fun ω _ => congrArg Finset.card ?_
    ext x
    simp [and_comm]
  have h2 : Fintype.card X = ∑ ω ∈ Finset.univ.image f, (Finset.univ.filter fun x => f x = ω).card := by
    rw [← Finset.card_univ, Finset.card_eq_sum_card_fiberwise (f := f) (t := Finset.univ.image f)
      (fun x _ => Finset.mem_coe.mpr (Finset.mem_image_of_mem f (Finset.mem_univ x)))]
  rw [c, h1, Nat.card_eq_fintype_card, h2, Finset.mul_sum, Finset.mul_sum]
  refine Finset.sum_le_sum fun ω _ => ?_
  have := h ω
  rwa [c, c] at this

variable {P : Prims} {rest : Arr 32 → Arr 12 → Nat → UInt8}

theorem join_apart (o : Others) {mk mk' : OneTime} {x : Arr 32 × Arr 12 × Fin 1025}
    (h : mk (x.1, x.2.1) = mk' (x.1, x.2.1)) : Blocks.join o mk' x = Blocks.join o mk x := by
  unfold Blocks.join
  rw [h]

/-- The one-time keys of keys that were not used do not matter. -/
theorem play_apart {α : Type} (o : Others) {K : Arr 32 → Prop} {mk mk' : OneTime} (hm : ∀ row, ¬ K row.1 → mk row = mk' row)
    (asking : Asking α) (hu : ∀ k ∈ (asking.play P rest (Blocks.join o mk)).used P, ¬ K k) :
    asking.play P rest (Blocks.join o mk') = asking.play P rest (Blocks.join o mk) := by
  induction asking with
  | reply a => rfl
  | block x next ih =>
    simp only [Asking.play, Played.used, List.cons_append, List.mem_cons, forall_eq_or_imp] at hu ⊢
    rw [join_apart o (hm (x.1, x.2.1) hu.1), ih _ hu.2]
  | serve c next ih =>
    have ha : c.answer (P.withBlocks rest (Blocks.join o mk')) = c.answer (P.withBlocks rest (Blocks.join o mk)) := by
      rw [withBlocks_join o mk' mk, withBlocks_join o mk mk]
      refine c.answer_congr fun a ha t hta => ?_
      rw [← withBlocks_join o mk mk] at ha
      rw [hm (t.key, NX.nonce 0)]
      refine hu _ ?_
      simp only [Asking.play, Played.used, ha, List.flatMap_append, Option.map_some, Option.toList_some, List.flatMap_cons,
        List.flatMap_nil, List.append_nil]
      refine List.mem_append_right _ (List.mem_append_left _ ?_)
      rw [← Answer.tagged_keys]
      exact List.mem_map_of_mem hta
    simp only [Asking.play] at hu ⊢
    rw [ha, ih _ fun k hk => hu k ?_]
    simp only [Played.used, List.flatMap_append, List.mem_append] at hk ⊢
    rcases hk with hk | hk
    · exact .inl hk
    · exact .inr (.inr hk)

end SV2.Noise

namespace SV2.Stack
open Noise

variable {P : Prims} {rest : Arr 32 → Arr 12 → Nat → UInt8}

theorem attacked_apart (o : Others) {K : Arr 32 → Prop} {mk mk' : OneTime} (hm : ∀ row, ¬ K row.1 → mk row = mk' row)
    (asker : Asker) (start : SNet) (rounds : Nat)
    (hu : ∀ k ∈ asker.used P rest (Blocks.join o mk) start rounds, ¬ K k) :
    SNet.attacked (P.withBlocks rest (Blocks.join o mk)) (asker.forger P rest (Blocks.join o mk')) start rounds =
      SNet.attacked (P.withBlocks rest (Blocks.join o mk)) (asker.forger P rest (Blocks.join o mk)) start rounds := by
  induction rounds with
  | zero => rfl
  | succ j ih =>
    simp only [Asker.used, List.mem_append] at hu
    have e := ih fun k hk => hu k (.inl hk)
    simp only [SNet.attacked, e]
    have : ∀ past, (∀ k ∈ ((asker past).play P rest (Blocks.join o mk)).used P, ¬ K k) →
        asker.forger P rest (Blocks.join o mk') past = asker.forger P rest (Blocks.join o mk) past := by
      intro past hp
      unfold Asker.forger
      rw [play_apart o hm _ hp]
    rw [this _ fun k hk => hu k (.inr hk)]

open Classical in
/-- The one-time keys with those of some keys left out. -/
noncomputable def hide (K : Arr 32 → Prop) (mk : OneTime) : OneTime := fun row => if K row.1 then EMPTY else mk row

theorem hide_apart (K : Arr 32 → Prop) (mk : OneTime) : ∀ row, ¬ K row.1 → mk row = hide K mk row :=
  fun _ h => (if_neg h).symm

theorem hide_update {K : Arr 32 → Prop} (mk : OneTime) {row : Arr 32 × Arr 12} (y : Arr 32) (h : K row.1) :
    hide K (Function.update mk row y) = hide K mk := by
  funext r
  unfold hide
  by_cases hr : r = row
  · subst hr; rw [if_pos h, if_pos h]
  · rw [Function.update_of_ne hr]

/-- Forgeries on the network, for a fixed handshake: few one-time keys among those with a property that does not depend on
the session keys. -/
theorem card_network (o : Others) {asker : Asker} {E q : Nat}
    (hE : ∀ mk, (asker.forger P rest (Blocks.join o mk)).Rekeys E)
    (hq : ∀ mk, (asker.forger P rest (Blocks.join o mk)).AtMost q)
    {i r : NoiseSession} {keys : Arr 32 × Arr 32} {m1 m2 : UInt64} (h : InSync i r keys m1 m2)
    (hk : ∀ e ≤ E, streamKey (streamOf rest o) keys.1 e ≠ keys.2)
    {G : OneTime → Prop} (hG : Apart (streamOf rest o) keys E G) (rounds : Nat) :
    let start : SNet := { rnet := { net := { i := i, r := r } } }
    2 ^ 91 * Nat.card {mk : OneTime // G mk ∧
      (∀ k ∈ asker.used P rest (Blocks.join o mk) start rounds, ¬ SessionKey (streamOf rest o) keys E k) ∧
      ¬ (SNet.attacked (P.withBlocks rest (Blocks.join o mk)) (asker.forger P rest (Blocks.join o mk)) start rounds).1.Genuine} ≤
    q * Nat.card {mk : OneTime // G mk} := by
  intro start
  let K := SessionKey (streamOf rest o) keys E
  have := Noise.card_forged (P := P) (stream := streamOf rest o)
    (forger := fun mk => (asker.forger P rest (Blocks.join o (hide K mk))).below)
    (fun mk => SForger.below_rekeys (hE _)) h hk (fun mk => SForger.below_atMost (hq _))
    (fun mk row y hr => by simp only [hide_update mk y (K := K) hr]) hG rounds
  refine le_trans (Nat.mul_le_mul_left _ ?_) this
  refine Nat.card_le_card_of_injective (fun mk => ⟨mk.1, mk.2.1, fun hg => mk.2.2.2 ?_⟩)
    fun a b h => Subtype.ext (congrArg (fun x => x.1) h)
  obtain ⟨mk, hGm, hu, hbad⟩ := mk
  simp only at hg ⊢
  have e := attacked_apart (P := P) (rest := rest) o (hide_apart K mk) asker start rounds hu
  rw [← e, withBlocks_join o mk fun _ => EMPTY]
  obtain ⟨h1, h2, -⟩ := attacked_below (P := P.withMac (streamOf rest o) mk)
    (forger := asker.forger P rest (Blocks.join o (hide K mk))) (FInv.start h) rounds
  exact h1.genuine (h2 ▸ hg)

end SV2.Stack
