import Verif.Props.Renewal
import Verif.Lemmas.Intruder
/-!
# Later keys are as good as random ones

As in `Verif/Lemmas/Renewal.lean`, but the first two keys are given, and only those that come from rekeying are chosen
independently.  And the program of `Verif/Lemmas/Intruder.lean`, for an attacker that has the two sides rekey.
-/

namespace SV2.Stack
namespace Renewal
open Noise Veiled Stealing Function

variable {E : Nat}

/-! ## How many -/

/-- The first two keys, and the later ones. -/
def joined (k : Arr 32 × Arr 32) (later : Fin E → Arr 32) (a : Fin (E + 2)) : Arr 32 :=
  if h0 : a.val = 0 then k.1 else if h : a.val ≤ E then later ⟨a.val - 1, by omega⟩ else k.2

theorem joined_later (k : Arr 32 × Arr 32) (later : Fin E → Arr 32) (e : Fin E) :
    joined k later ⟨e.val + 1, by omega⟩ = later e := by
  unfold joined
  rw [dif_neg (by simp), dif_pos (show e.val + 1 ≤ E by omega)]
  rfl

theorem joined_zero (k : Arr 32 × Arr 32) (later : Fin E → Arr 32) : joined k later ⟨0, by omega⟩ = k.1 := rfl

theorem joined_last (k : Arr 32 × Arr 32) (later : Fin E → Arr 32) : joined k later ⟨E + 1, by omega⟩ = k.2 := by
  unfold joined
  rw [dif_neg (by simp), dif_neg (show ¬ E + 1 ≤ E by omega)]

theorem seat_joined (k : Arr 32 × Arr 32) (later : Fin E → Arr 32) : seat (joined k later) 0 = k := by
  unfold seat
  refine Prod.ext ?_ (joined_last k later)
  have : (⟨min 0 E, by omega⟩ : Fin (E + 2)) = ⟨0, by omega⟩ := Fin.ext (Nat.min_eq_left (Nat.zero_le _))
  simp only [this]
  rfl

theorem fin_cases (a : Fin (E + 2)) : a = ⟨0, by omega⟩ ∨ a = ⟨E + 1, by omega⟩ ∨ ∃ e : Fin E, a = ⟨e.val + 1, by omega⟩ := by
  by_cases h0 : a.val = 0
  · exact .inl (Fin.ext h0)
  by_cases h : a.val ≤ E
  · exact .inr (.inr ⟨⟨a.val - 1, by omega⟩, Fin.ext (by show a.val = a.val - 1 + 1; omega)⟩)
  · exact .inr (.inl (Fin.ext (by show a.val = E + 1; omega)))

/-- The later keys, all blocks, and for each key blocks of its own. -/
abbrev Later (E : Nat) := (Fin E → Arr 32) × Blocks × (Fin (E + 2) → KeyRow)

/-- No two keys are the same, none of the later ones is empty, and none of these was computed with. -/
structure Fresh (k : Arr 32 × Arr 32) (log : Blocks × (Fin (E + 2) → KeyRow) → List (Arr 32)) (w : Later E) : Prop where
  inj : Injective (joined k w.1)
  full : ∀ e, w.1 e ≠ EMPTY
  off : ∀ e, w.1 e ∉ log w.2

theorem few_not_fresh {k : Arr 32 × Arr 32} (hk : k.1 ≠ k.2) (log : Blocks × (Fin (E + 2) → KeyRow) → List (Arr 32)) {n : Nat}
    (hn : ∀ z, (log z).length ≤ n) :
    2 ^ 256 * Nat.card {w : Later E // ¬ Fresh k log w} ≤ E * (n + E + 2) * Nat.card (Later E) := by
  classical
  have : Finite (Later E) := inferInstance
  let L : Fin E → Later E → List (Arr 32) := fun e w =>
    log w.2 ++ EMPTY :: k.1 :: k.2 :: ((List.finRange E).erase e).map w.1
  have hsub : ∀ w : Later E, ¬ Fresh k log w → ∃ e, w.1 e ∈ L e w := by
    intro w hw
    by_contra hc
    simp only [not_exists, L, List.mem_append, List.mem_cons, List.mem_map, not_or, not_and] at hc
    refine hw ⟨fun a b hab => ?_, fun e => (hc e).2.1, fun e => (hc e).1⟩
    have hinj : ∀ e e' : Fin E, w.1 e = w.1 e' → e = e' := by
      intro e e' h
      by_contra hne
      exact (hc e).2.2.2.2 e' ((List.mem_erase_of_ne (Ne.symm hne)).mpr (List.mem_finRange e')) h.symm
    rcases fin_cases a with rfl | rfl | ⟨e, rfl⟩ <;> rcases fin_cases b with rfl | rfl | ⟨e', rfl⟩ <;>
      simp only [joined_zero, joined_last, joined_later] at hab
    · rfl
    · exact absurd hab hk
    · exact absurd hab.symm (hc e').2.2.1
    · exact absurd hab.symm hk
    · rfl
    · exact absurd hab.symm (hc e').2.2.2.1
    · exact absurd hab (hc e).2.2.1
    · exact absurd hab (hc e).2.2.2.1
    · rw [hinj e e' hab]
  have hlen : ∀ e w, (L e w).length ≤ n + E + 2 := by
    intro e w
    have : ((List.finRange E).erase e).length = E - 1 := by
      rw [List.length_erase_of_mem (List.mem_finRange e), List.length_finRange]
    have hE : 0 < E := Nat.lt_of_le_of_lt (Nat.zero_le _) e.isLt
    simp only [L, List.length_append, List.length_cons, List.length_map, this]
    have := hn w.2
    omega
  have hone : ∀ e, 2 ^ 256 * Nat.card {w : Later E // w.1 e ∈ L e w} ≤ (n + E + 2) * Nat.card (Later E) := by
    intro e
    rw [← Crypto.Poly1305.card_keys]
    refine card_lens (fun w : Later E => w.1 e) (fun x w => (update w.1 e x, w.2)) (L e) _ (fun x w => update_self _ _ _)
      (fun w => by rw [update_eq_self]) (fun x x' w => by rw [update_idem]) (fun x w => ?_) (hlen e)
    simp only [L]
    congr 4
    refine List.map_congr_left fun b hb => update_of_ne ?_ _ _
    rintro rfl
    exact (List.Nodup.mem_erase_iff (List.nodup_finRange _)).mp hb |>.1 rfl
  have hsum : Nat.card {w : Later E // ¬ Fresh k log w} ≤ ∑ e : Fin E, Nat.card {w : Later E // w.1 e ∈ L e w} := by
    rw [← Nat.card_sigma]
    choose g hg using hsub
    exact Nat.card_le_card_of_injective (fun w : {w : Later E // ¬ Fresh k log w} =>
      (⟨g w.1 w.2, w.1, hg w.1 w.2⟩ : Σ e : Fin E, {w : Later E // w.1 e ∈ L e w})) fun w w' h => by
        have := congrArg (fun z : Σ e : Fin E, {w : Later E // w.1 e ∈ L e w} => z.2.1) h
        exact Subtype.ext this
  calc 2 ^ 256 * Nat.card {w : Later E // ¬ Fresh k log w}
      ≤ 2 ^ 256 * ∑ e : Fin E, Nat.card {w : Later E // w.1 e ∈ L e w} := Nat.mul_le_mul_left _ hsum
    _ = ∑ e : Fin E, 2 ^ 256 * Nat.card {w : Later E // w.1 e ∈ L e w} := Finset.mul_sum _ _ _
    _ ≤ ∑ _e : Fin E, (n + E + 2) * Nat.card (Later E) := Finset.sum_le_sum fun e _ => hone e
    _ = E * (n + E + 2) * Nat.card (Later E) := by
      rw [Finset.sum_const, Finset.card_univ, Fintype.card_fin, smul_eq_mul, Nat.mul_assoc]

theorem card_later : Nat.card (Later E) = Nat.card Blocks * Nat.card (Rest E) := by
  rw [Nat.card_prod, Nat.card_prod, Nat.card_prod]
  ring

/-- What is so for the blocks of all fresh worlds fails only for few blocks. -/
theorem few_blocks {k : Arr 32 × Arr 32} (hk : k.1 ≠ k.2) (log : Blocks × (Fin (E + 2) → KeyRow) → List (Arr 32)) {n : Nat}
    (hn : ∀ z, (log z).length ≤ n) (p : Blocks → Prop)
    (hp : ∀ w : Later E, Fresh k log w → p (build (joined k w.1) w.2.2 w.2.1)) :
    2 ^ 256 * Nat.card {x // ¬ p x} ≤ E * (n + E + 2) * Nat.card Blocks := by
  classical
  have hN : Nonempty (Rest E) := ⟨fun _ _ => Arr.replicate 64 0, fun _ => EMPTY⟩
  have hX : 0 < Nat.card (Rest E) := Nat.card_pos
  have hsplit : ∀ {A : Type} [Finite A] (q : A → Prop), Nat.card A = Nat.card {x // q x} + Nat.card {x // ¬ q x} := by
    intro A _ q
    rw [← Nat.card_sum]
    exact Nat.card_congr (Equiv.sumCompl q).symm
  have hgood : Nat.card {w : Later E // Fresh k log w} ≤ Nat.card {x // p x} * Nat.card (Rest E) := by
    rw [← Nat.card_prod]
    refine Nat.card_le_card_of_injective (fun w : {w : Later E // Fresh k log w} =>
      ((⟨build (joined k w.1.1) w.1.2.2 w.1.2.1, hp w.1 w.2⟩ : {x // p x}), (shown (joined k w.1.1, w.1.2)).2)) fun w w' h => ?_
    obtain ⟨h1, h2⟩ := Prod.mk.inj h
    have h3 : shown (joined k w.1.1, w.1.2) = shown (joined k w'.1.1, w'.1.2) := by
      refine Prod.ext (Prod.ext ?_ (congrArg Subtype.val h1)) h2
      exact (seat_joined _ _).trans (seat_joined _ _).symm
    have h6 := shown_inj w.2.inj w'.2.inj h3
    have h4 : joined k w.1.1 = joined k w'.1.1 := congrArg Prod.fst h6
    have h5 : w.1.2 = w'.1.2 := (Prod.mk.inj h6).2
    refine Subtype.ext (Prod.ext ?_ h5)
    funext e
    rw [← joined_later k w.1.1, h4, joined_later]
  have h1 := hsplit (A := Later E) (Fresh k log)
  have h2 := hsplit (A := Blocks) p
  have h3 := card_later (E := E)
  have h4 := few_not_fresh hk log hn
  have h5 : Nat.card {x // ¬ p x} * Nat.card (Rest E) ≤ Nat.card {w : Later E // ¬ Fresh k log w} := by
    rw [h2, Nat.add_mul] at h3
    omega
  refine Nat.le_of_mul_le_mul_right ?_ hX
  calc 2 ^ 256 * Nat.card {x // ¬ p x} * Nat.card (Rest E)
      = 2 ^ 256 * (Nat.card {x // ¬ p x} * Nat.card (Rest E)) := Nat.mul_assoc _ _ _
    _ ≤ 2 ^ 256 * Nat.card {w : Later E // ¬ Fresh k log w} := Nat.mul_le_mul_left _ h5
    _ ≤ E * (n + E + 2) * Nat.card (Later E) := h4
    _ = E * (n + E + 2) * Nat.card Blocks * Nat.card (Rest E) := by
      rw [h3]; ring

/-! ## Who does not know the first two keys -/

variable (P : Prims) (rest : Arr 32 → Arr 12 → Nat → UInt8)

/-- The two keys are given, and not used by a handshake before.  For all but few blocks, who does not use them uses none of the
later keys. -/
theorem few_known {k : Arr 32 × Arr 32} (hk : k.1 ≠ k.2) (hk1 : k.1 ≠ EMPTY) (hk2 : k.2 ≠ EMPTY) {A : Type} (pre : Blocks → A)
    (S : List (Arr 32)) (hS : ∀ B B' : Blocks, (∀ s ∈ S, ∀ y, B (s, y) = B' (s, y)) → pre B = pre B') (h1 : k.1 ∉ S) (h2 : k.2 ∉ S)
    (watcher : A → Watcher) (i r : A → NoiseSession) (hi : ∀ a, 2 ≤ (i a).mc) (hr : ∀ a, 2 ≤ (r a).mc) (M m : Nat)
    (hm : ∀ a past, (watcher a past).Within M m) (ha : ∀ a past, (watcher a past).Alone)
    (hE : ∀ a blocks, ((watcher a).forger P rest blocks).Rekeys E) (rounds : Nat) :
    let used := fun B => (asker (watcher (pre B)) P).used P rest B (talk (i (pre B)) (r (pre B)) k) rounds
    2 ^ 256 * Nat.card {B : Blocks // ¬ ((∀ e ≤ E, streamKey (B.stream rest) k.1 e ≠ EMPTY) ∧
      (k.1 ∈ used B ∨ k.2 ∈ used B ∨ Private (B.stream rest) k E (S ++ used B)))} ≤
    E * (rounds * m + S.length + E + 2) * Nat.card Blocks := by
  intro used
  by_cases hbig : E + 3 ≤ 2 ^ 256
  · obtain ⟨labels, hl, hl0⟩ := labels_exist hbig
    refine few_blocks hk (fun z => S ++ asks P rest (watcher (pre z.1)) (P.withBlocks rest (build labels z.2 z.1)) z.1
        (talk (i (pre z.1)) (r (pre z.1)) (seat labels 0)) rounds)
      (fun z => ?_) _ fun w hw => ?_
    · rw [List.length_append]
      have := asks_length P rest (hm (pre z.1)) (ha (pre z.1)) (P.withBlocks rest (build labels z.2 z.1)) z.1
        (talk (i (pre z.1)) (r (pre z.1)) (seat labels 0)) rounds
      omega
    obtain ⟨later, C, rows⟩ := w
    obtain ⟨hinj, hfull, hoff⟩ := hw
    simp only [List.mem_append, not_or] at hinj hfull hoff ⊢
    have hstream := streamKey_build rest hinj rows C
    have hseat := seat_joined k later
    rw [hseat] at hstream
    have hkS : ∀ a, joined k later a ∉ S := by
      intro a
      rcases fin_cases a with rfl | rfl | ⟨e, rfl⟩
      · exact h1
      · rw [joined_last]
        exact h2
      · rw [joined_later]
        exact (hoff e).1
    have hk0 : ∀ a, joined k later a ≠ EMPTY := by
      intro a
      rcases fin_cases a with rfl | rfl | ⟨e, rfl⟩
      · exact hk1
      · rw [joined_last]
        exact hk2
      · rw [joined_later]
        exact hfull e
    have hpre : pre (build (joined k later) rows C) = pre C :=
      hS _ _ fun s hs y => patch_off _ _ fun a e => hkS a (e ▸ hs)
    refine ⟨fun e he => ?_, ?_⟩
    · rw [hstream e he]
      exact hk0 _
    have hu : used (build (joined k later) rows C) = (asker (watcher (pre C)) P).used P rest (build (joined k later) rows C)
        (talk (i (pre C)) (r (pre C)) k) rounds := by
      simp only [used, hpre]
    rw [hu]
    by_cases u1 : k.1 ∈ (asker (watcher (pre C)) P).used P rest (build (joined k later) rows C) (talk (i (pre C)) (r (pre C)) k) rounds
    · exact .inl u1
    by_cases u2 : k.2 ∈ (asker (watcher (pre C)) P).used P rest (build (joined k later) rows C) (talk (i (pre C)) (r (pre C)) k) rounds
    · exact .inr (.inl u2)
    refine .inr (.inr ?_)
    have hs : Labelled labels (talk (i (pre C)) (r (pre C)) (seat labels 0)) := ⟨⟨rfl, rfl, hi _⟩, ⟨rfl, rfl, hr _⟩⟩
    have hstart : clad (joined k later) (talk (i (pre C)) (r (pre C)) (seat labels 0)) = talk (i (pre C)) (r (pre C)) k := by
      have : clad (joined k later) (talk (i (pre C)) (r (pre C)) (seat labels 0)) =
        talk (i (pre C)) (r (pre C)) (seat (joined k later) 0) := rfl
      rw [this, hseat]
    obtain ⟨-, -, u⟩ := attacked_clad P rest hinj hl hk0 hl0 rows C (ha (pre C)) (hE _ C) hs rounds (by
      rw [hstart]
      intro a
      rcases fin_cases a with rfl | rfl | ⟨e, rfl⟩
      · exact .inr u1
      · rw [joined_last]
        exact .inr u2
      · rw [joined_later]
        exact .inl (hoff e).2)
    rw [hstart] at u
    have hall : ∀ a, joined k later a ∉ S ++ (asker (watcher (pre C)) P).used P rest (build (joined k later) rows C)
        (talk (i (pre C)) (r (pre C)) k) rounds := by
      intro a
      rw [List.mem_append, not_or]
      refine ⟨hkS a, ?_⟩
      rcases fin_cases a with rfl | rfl | ⟨e, rfl⟩
      · exact u1
      · rw [joined_last]
        exact u2
      · rw [joined_later, u]
        exact (hoff e).2
    refine ⟨fun e he => ?_, fun x hx hsk => ?_⟩
    · rw [hstream e he, ← joined_last k later]
      intro hc
      have := congrArg Fin.val (hinj hc)
      simp only at this
      omega
    · rcases hsk with e | ⟨e, he, e'⟩
      · rw [e, ← joined_last k later] at hx
        exact hall _ hx
      · rw [← e', hstream e he] at hx
        exact hall _ hx
  · refine Nat.mul_le_mul ?_ (Nat.card_le_card_of_injective _ Subtype.val_injective)
    have : 2 ≤ E := by
      have : 2 ≤ 2 ^ 256 - 2 := by norm_num
      omega
    calc 2 ^ 256 ≤ E + 2 := by omega
      _ = 1 * (E + 2) := (Nat.one_mul _).symm
      _ ≤ E * (rounds * m + S.length + E + 2) := Nat.mul_le_mul (by omega) (by omega)

end Renewal
end SV2.Stack

namespace SV2.Noise.Distant
open SV2.Long SV2.Stack SV2.Stack.Renewal
open SV2.Noise.Veiled (Ask cut afterwards asker asker_play asker_forger)

/-! ## The program -/

section
variable (P : Prims) {M : Nat} (far : Bytes → Arr 32) (h0 : Arr 32) (rest : Arr 32 → Arr 12 → Nat → UInt8)

/-- The rows of the later keys of a chain. -/
def chainJob (r : KeyRow) : Nat → Job M (Nat → KeyRow)
  | 0 => .ret fun _ => r
  | e + 1 => (chainJob r e).bind fun f => .row (link (f e)) fun r' => .ret (Function.update f (e + 1) r')

theorem chainJob_calls (r : KeyRow) (e : Nat) : Calls (M := M) e (chainJob r e) := by
  induction e with
  | zero => exact Calls.ret _
  | succ e ih => exact ih.bind fun f w => Nat.le_refl _

/-- The rows of all keys. -/
def gathered (E : Nat) (f : Nat → KeyRow) (r : KeyRow) (a : Fin (E + 2)) : KeyRow := if a.val ≤ E then f a.val else r

/-- The server's answer, and then the attacker. -/
noncomputable def renewJob (c : Serving) (watcher : Bytes → Bytes → Watcher) (E : Nat) (labels : Fin (E + 2) → Arr 32) (rounds : Nat) :
    Job M (SNet × List SNet) :=
  .mix () fun r => (replyJob P far h0 c (r 0) (r 1)).bind fun x => (chainJob (r 2) E).bind fun f =>
    stackJob far h0 (watcher c.first x.1) (P.withBlocks rest (build labels (gathered E f (r 3)) fun _ => Arr.replicate 64 0))
      (afterwards (P.publicOf c.sR) x.2 (seat labels 0)) rounds

theorem renewJob_calls (c : Serving) (watcher : Bytes → Bytes → Watcher) (E : Nat) (labels : Fin (E + 2) → Arr 32) (rounds m : Nat)
    (hm : ∀ a b past, (watcher a b past).Within M m) :
    Calls (M := M) (rounds * m + E + 7) (renewJob P far h0 rest c watcher E labels rounds) := by
  intro w
  refine Nat.succ_le_succ ?_
  refine (((replyJob_calls P far h0 c _ _).bind fun x => (chainJob_calls _ E).bind fun f =>
    stackJob_calls far h0 (watcher c.first x.1) _ _ m (hm _ _) rounds).mono ?_) w
  omega

end

section
variable {M : Nat} (hM : 97 ≤ M) {far : Bytes → Arr 32} {h0 ee es : Arr 32} (P : Prims) (H : Hashes M)
variable (blocks : Blocks) {Q : Prims} (hQ : Q = P.withHash (H.at far)) (hh : NX.h0 Q = h0)
variable (rest : Arr 32 → Arr 12 → Nat → UInt8)

/-- It gives the rows, and hashes nothing. -/
theorem chainJob_spec (k : Arr 32) (E : Nat) :
    (∀ e ≤ E, (chainJob (fun x => blocks (k, x)) E).run (world hM H blocks h0 ee es) e =
      fun x => blocks (streamKey (blocks.stream rest) k e, x)) ∧
    ∀ φ, Asks ((chainJob (fun x => blocks (k, x)) E).log (world hM H blocks h0 ee es)) φ := by
  induction E with
  | zero =>
    refine ⟨fun e he => ?_, fun φ => Asks.nil⟩
    obtain rfl := Nat.le_zero.mp he
    rfl
  | succ E ih =>
    obtain ⟨i1, i2⟩ := ih
    unfold chainJob
    rw [Prog.run_bind, Prog.log_bind]
    refine ⟨fun e he => ?_, fun φ => (i2 φ).append ?_⟩
    · by_cases h : e = E + 1
      · subst h
        show Function.update _ (E + 1) _ (E + 1) = _
        rw [Function.update_self, streamKey_succ, i1 E (Nat.le_refl _)]
        rfl
      · show Function.update _ (E + 1) _ e = _
        rw [Function.update_of_ne h]
        exact i1 e (by omega)
    · intro y hy
      simp only [Prog.log, List.mem_cons, reduceCtorEq, List.not_mem_nil, or_self] at hy

/-- All keys of the two sessions. -/
def trail (k : Arr 32 × Arr 32) (E : Nat) (a : Fin (E + 2)) : Arr 32 :=
  if a.val ≤ E then streamKey (blocks.stream rest) k.1 a.val else k.2

theorem seat_trail (k : Arr 32 × Arr 32) {E e : Nat} (he : e ≤ E) :
    seat (trail blocks rest k E) e = (streamKey (blocks.stream rest) k.1 e, k.2) := by
  unfold seat trail
  simp only [Nat.min_eq_left he, if_pos he, if_neg (show ¬ E + 1 ≤ E by omega)]

theorem trail_rekeyed (Q : Prims) (k : Arr 32 × Arr 32) (E : Nat) (s : NoiseSession) (e : Nat) (remote : Bool) (he : e < E) :
    (s.dressed (seat (trail blocks rest k E) e)).rekeyed (Q.withBlocks rest blocks) remote =
      s.dressed (seat (trail blocks rest k E) (e + 1)) := by
  rw [NoiseSession.rekeyed_eq, seat_trail blocks rest k (by omega : e ≤ E), seat_trail blocks rest k (by omega : e + 1 ≤ E),
    streamKey_succ]
  rfl

theorem trail_like (Q P : Prims) {k : Arr 32 × Arr 32} {E : Nat} (hk : ∀ e ≤ E, streamKey (blocks.stream rest) k.1 e ≠ EMPTY)
    (hk2 : k.2 ≠ EMPTY) {labels : Fin (E + 2) → Arr 32} (hl : Function.Injective labels) (hl0 : ∀ a, labels a ≠ EMPTY)
    {f : Nat → KeyRow} (hf : ∀ e ≤ E, f e = fun x => blocks (streamKey (blocks.stream rest) k.1 e, x)) {r : KeyRow}
    (hr : r = fun x => blocks (k.2, x)) (C : Blocks) (a : Fin (E + 2)) :
    Like (Q.withBlocks rest blocks) (P.withBlocks rest (build labels (gathered E f r) C)) (trail blocks rest k E a) (labels a) := by
  have hg : gathered E f r a = fun x => blocks (trail blocks rest k E a, x) := by
    unfold gathered trail
    by_cases h : a.val ≤ E
    · simp only [if_pos h]
      exact hf _ h
    · simp only [if_neg h]
      exact hr
  have h0 : trail blocks rest k E a ≠ EMPTY := by
    unfold trail
    by_cases h : a.val ≤ E
    · simp only [if_pos h]
      exact hk _ h
    · simp only [if_neg h]
      exact hk2
  have := like_blocks Q rest (b := blocks) (b' := build labels (gathered E f r) C) (k := trail blocks rest k E a) (k' := labels a)
    (fun n c => by
      have hp : (prepNonce n, c) ≠ place := fun e => Stealing.prep_ne n (congrArg Prod.fst e)
      exact ((patch_at hl _ C a _).trans ((chained_other _ _ _ hp).trans (congrFun hg _))).symm)
    ⟨fun e => absurd e h0, fun e => absurd e (hl0 a)⟩
  exact ⟨this.seals, this.opens, this.key⟩

/-- The server's message and the handshake hash, from two rows. -/
def replied (Q : Prims) (h0 : Arr 32) (c : Serving) (r1 r2 : KeyRow) : Bytes × Arr 32 :=
  let mix := fun (h : Arr 32) (d : Bytes) => Q.hash (h.toList ++ d)
  let t1 := [c.prologue, c.first.take 32, c.first.drop 32, (Q.publicOf c.eR).toList].foldl mix h0
  let s := encRow Q r1 t1.toList (Q.publicOf c.sR).toList
  let t2 := [s].foldl mix t1
  let p := encRow Q r2 t2.toList (body (c.buf.drop 80))
  ((Q.publicOf c.eR).toList ++ s ++ p, [p].foldl mix t2)

include hQ hh

theorem run_replyJob (c : Serving) (r1 r2 : KeyRow) :
    (replyJob P far h0 c r1 r2).run (world hM H blocks h0 ee es) = replied Q h0 c r1 r2 := by
  have hfold := fun ds h => (foldJob_spec (ee := ee) (es := es) hM P H blocks hQ hh ds h).1
  have hpub : Q.publicOf = P.publicOf := by rw [hQ]; rfl
  have hrow : ∀ r ad p, encRow P r ad p = encRow Q r ad p := fun r ad p => by rw [hQ]; rfl
  clear hQ
  unfold replyJob replied
  simp only [Prog.run_bind, hfold, hrow, hpub]
  rfl

theorem stackJob_clad {watcher : Watcher} (hb : ∀ past, (watcher past).Alone) {E : Nat}
    (hE : (watcher.forger Q rest blocks).Rekeys E) {keys labels : Fin (E + 2) → Arr 32} {Q' : Prims}
    (hLike : ∀ a, Like (Q.withBlocks rest blocks) Q' (keys a) (labels a))
    (hK : ∀ (s : NoiseSession) (e : Nat) remote, e < E →
      (s.dressed (seat keys e)).rekeyed (Q.withBlocks rest blocks) remote = s.dressed (seat keys (e + 1)))
    (hK' : ∀ (s : NoiseSession) (e : Nat) remote, e < E → s.Wears (seat labels e) →
      s.rekeyed Q' remote = s.dressed (seat labels (e + 1)))
    {start : SNet} (hs : Labelled labels start) (j : Nat) {L : Log M}
    (hL : (stackJob far h0 watcher Q' start j).log (world hM H blocks h0 ee es) ⊆ L) :
    (SNet.attacked (Q.withBlocks rest blocks) (watcher.forger Q rest blocks) (clad keys start) j =
      (clad keys ((stackJob far h0 watcher Q' start j).run (world hM H blocks h0 ee es)).1,
        ((stackJob far h0 watcher Q' start j).run (world hM H blocks h0 ee es)).2.map (clad keys))) ∧
    Labelled labels ((stackJob far h0 watcher Q' start j).run (world hM H blocks h0 ee es)).1 ∧
    (∀ k ∈ (asker watcher Q).used Q rest blocks (clad keys start) j, .row k ∈ L) ∧
    Asks ((stackJob far h0 watcher Q' start j).log (world hM H blocks h0 ee es))
      (· ∈ watcher.heard Q rest blocks (clad keys start) j) := by
  induction j with
  | zero => exact ⟨rfl, hs, fun k hk => (List.not_mem_nil hk).elim, Asks.nil⟩
  | succ j ih =>
    unfold stackJob at hL ⊢
    rw [Prog.log_bind, Prog.log_bind] at hL
    obtain ⟨l1, hL⟩ := List.append_subset.mp hL
    obtain ⟨l2, -⟩ := List.append_subset.mp hL
    obtain ⟨e1, e2, e3, e4⟩ := ih l1
    rw [Prog.run_bind, Prog.run_bind, Prog.log_bind, Prog.log_bind]
    generalize (stackJob far h0 watcher Q' start j).run (world hM H blocks h0 ee es) = h at *
    have hseen : (clad keys h.1 :: h.2.map (clad keys)).map SNet.seen = (h.1 :: h.2).map SNet.seen := map_seen_clad keys (h.1 :: h.2)
    obtain ⟨a1, -, a4⟩ := attackJob_spec hM P H blocks hQ hh rest (.stack (.toI [])) (watcher ((h.1 :: h.2).map SNet.seen)) (hb _) l2
    obtain ⟨a2, a3⟩ := attackJob_rows hM P H blocks hQ hh rest (.stack (.toI [])) (watcher ((h.1 :: h.2).map SNet.seen)) (hb _) l2
    have hact : watcher.forger Q rest blocks (clad keys h.1 :: h.2.map (clad keys)) =
        ((watcher ((h.1 :: h.2).map SNet.seen)).play Q rest blocks).result := by
      unfold Watcher.forger
      rw [hseen]
    have hrk := fun remote => hE (clad keys h.1) (h.2.map (clad keys)) remote
    rw [hact] at hrk
    obtain ⟨s1, s2⟩ := step_clad_of hLike hK hK' e2 (act := ((watcher ((h.1 :: h.2).map SNet.seen)).play Q rest blocks).result)
      (fun remote hr => Nat.lt_of_not_le fun hle => (hrk remote).1 hle hr)
      (fun remote hr => Nat.lt_of_not_le fun hle => (hrk remote).2 hle hr)
    have hstep : SNet.attacked (Q.withBlocks rest blocks) (watcher.forger Q rest blocks) (clad keys start) (j + 1) =
        (clad keys (h.1.step Q' ((watcher ((h.1 :: h.2).map SNet.seen)).play Q rest blocks).result),
          clad keys h.1 :: h.2.map (clad keys)) := by
      unfold SNet.attacked
      rw [e1]
      simp only [hact, s1]
    have hatt : SNet.attacked (Q.withBlocks rest blocks) ((asker watcher Q).forger Q rest blocks) (clad keys start) j =
        (clad keys h.1, h.2.map (clad keys)) := by rw [asker_forger]; exact e1
    rw [a1]
    refine ⟨hstep, s2, ?_, ?_⟩
    · intro k hk
      unfold Asker.used at hk
      simp only [hatt, asker_play, hseen] at hk
      rcases List.mem_append.mp hk with hk | hk
      · exact e3 k hk
      · unfold Played.used at hk
        rw [a3, List.flatMap_nil, List.append_nil] at hk
        exact a2 k hk
    · have hheard : watcher.heard Q rest blocks (clad keys start) (j + 1) = watcher.heard Q rest blocks (clad keys start) j ++
          ((watcher ((h.1 :: h.2).map SNet.seen)).play Q rest blocks).asked Q := by
        show watcher.heard Q rest blocks (clad keys start) j ++ _ = _
        simp only [e1, hseen]
      rw [hheard]
      exact (e4.mono fun x hx => List.mem_append_left _ hx).append
        ((a4.mono fun x hx => List.mem_append_right _ hx).append Asks.nil)

end

end SV2.Noise.Distant
