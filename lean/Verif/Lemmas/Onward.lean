import Verif.Lemmas.Renewed
/-!
# Later keys after a handshake that an attacker took part in

As in `Verif/Lemmas/Renewed.lean`, but the first two keys come from a handshake that depends on the blocks of other keys, and
the attacker may ask responders.
-/

namespace SV2.Noise

variable (P : Prims) (rest : Arr 32 → Arr 12 → Nat → UInt8)

/-! ## What the blocks of unused keys do not change -/

/-- The keys of a responder. -/
def Serving.uses (c : Serving) : List (Arr 32) :=
  [(NX.afterEE P (P.dh c.eR (keyIn c.first))).2, (NX.afterES P (P.dh c.eR (keyIn c.first)) (P.dh c.sR (keyIn c.first))).2]

theorem Serving.answer_keys {c : Serving} {B : Blocks} {a : Answer} (h : c.answer (P.withBlocks rest B) = some a) :
    a.keys P c.sR = c.uses P := by
  obtain ⟨-, rfl⟩ := (c.answer_iff a).mp h
  rfl

theorem enc_rows {B B' : Blocks} {k : Arr 32} (h : ∀ y, B' (k, y) = B (k, y)) (ad p : Bytes) :
    NX.enc (P.withBlocks rest B') k 0 ad p = NX.enc (P.withBlocks rest B) k 0 ad p := by
  refine enc_row (fun x hx => ?_) ad p
  unfold rowOf at hx
  obtain ⟨j, -, rfl⟩ := List.mem_map.mp hx
  exact h _

seal NX.enc in
theorem Serving.encS_blocks (c : Serving) (B : Blocks) : c.encS (P.withBlocks rest B) =
    NX.enc (P.withBlocks rest B) (NX.afterEE P (P.dh c.eR (keyIn c.first))).2 0
      (NX.transcript P [c.prologue, c.first.take 32, c.first.drop 32, (P.publicOf c.eR).toList]).toList (P.publicOf c.sR).toList := rfl

seal NX.enc in
theorem Serving.encP_blocks (c : Serving) (B : Blocks) : c.encP (P.withBlocks rest B) =
    NX.enc (P.withBlocks rest B) (NX.afterES P (P.dh c.eR (keyIn c.first)) (P.dh c.sR (keyIn c.first))).2 0
      (NX.transcript P [c.prologue, c.first.take 32, c.first.drop 32, (P.publicOf c.eR).toList, c.encS (P.withBlocks rest B)]).toList
      (body (c.buf.drop 80)) := rfl

theorem Serving.made_blocks (c : Serving) (B : Blocks) : c.made (P.withBlocks rest B) =
    ⟨c.prologue, c.eR, c.first, c.buf, (P.publicOf c.eR).toList ++ c.encS (P.withBlocks rest B) ++ c.encP (P.withBlocks rest B),
      done false EMPTY (NX.transcript P [c.prologue, c.first.take 32, c.first.drop 32, (P.publicOf c.eR).toList,
        c.encS (P.withBlocks rest B), c.encP (P.withBlocks rest B)])
        (NX.transportKeys P (P.dh c.eR (keyIn c.first)) (P.dh c.sR (keyIn c.first))) 1⟩ := rfl

theorem Serving.ok_blocks {c : Serving} {B B' : Blocks} (h : c.Ok (P.withBlocks rest B)) : c.Ok (P.withBlocks rest B') := by
  have e1 : ∀ B : Blocks, NX.afterEE (P.withBlocks rest B) = NX.afterEE P := fun _ => rfl
  have e2 : ∀ B : Blocks, NX.afterES (P.withBlocks rest B) = NX.afterES P := fun _ => rfl
  have e3 : ∀ B : Blocks, (P.withBlocks rest B).dh = P.dh := fun _ => rfl
  obtain ⟨h1, h2, h3, h4, h5⟩ := h
  rw [e1, e3] at h4
  rw [e2, e3] at h5
  refine ⟨h1, h2, h3, ?_, ?_⟩
  · rw [e1, e3]
    exact h4
  · rw [e2, e3]
    exact h5

theorem Serving.answer_local {c : Serving} {B B' : Blocks}
    (h : c.Ok (P.withBlocks rest B) → ∀ k ∈ c.uses P, ∀ y, B' (k, y) = B (k, y)) :
    c.answer (P.withBlocks rest B') = c.answer (P.withBlocks rest B) := by
  by_cases hok : c.Ok (P.withBlocks rest B)
  · have hok' : c.Ok (P.withBlocks rest B') := Serving.ok_blocks P rest hok
    rw [(c.answer_iff _).mpr ⟨hok, rfl⟩, (c.answer_iff _).mpr ⟨hok', rfl⟩]
    have h := h hok
    unfold Serving.uses at h
    have hS : c.encS (P.withBlocks rest B') = c.encS (P.withBlocks rest B) := by
      rw [Serving.encS_blocks, Serving.encS_blocks]
      exact enc_rows P rest (h _ List.mem_cons_self) _ _
    have hP : c.encP (P.withBlocks rest B') = c.encP (P.withBlocks rest B) := by
      rw [Serving.encP_blocks, Serving.encP_blocks, hS]
      exact enc_rows P rest (h _ (List.mem_cons_of_mem _ List.mem_cons_self)) _ _
    rw [Serving.made_blocks, Serving.made_blocks, hS, hP]
  · have hok' : ¬ c.Ok (P.withBlocks rest B') := fun hok' => hok (Serving.ok_blocks P rest hok')
    have none : ∀ Q : Prims, ¬ c.Ok Q → c.answer Q = none := by
      intro Q hQ
      rcases ha : c.answer Q with _ | a
      · rfl
      · exact absurd ((c.answer_iff a).mp ha).1 hQ
    rw [none _ hok, none _ hok']

theorem mem_used_serve {α : Type} {c : Serving} {next : Option Answer → Curious α} {B : Blocks} {k : Arr 32} :
    k ∈ ((Curious.serve c next).play P rest B).toPlayed.used P ↔
      (c.Ok (P.withBlocks rest B) ∧ k ∈ c.uses P) ∨
        k ∈ ((next (c.answer (P.withBlocks rest B))).play P rest B).toPlayed.used P := by
  have hs : ∀ s ∈ ((c.answer (P.withBlocks rest B)).map fun a => (c.sR, a)).toList, k ∈ s.2.keys P s.1 ↔ k ∈ c.uses P := by
    intro s hs
    obtain ⟨a, ha, rfl⟩ := Option.map_eq_some_iff.mp (Option.mem_toList.mp hs)
    rw [Serving.answer_keys P rest ha]
  simp only [Played.used, Curious.play, List.mem_append, List.flatMap_append]
  have e : k ∈ ((c.answer (P.withBlocks rest B)).map fun a => (c.sR, a)).toList.flatMap (fun s => s.2.keys P s.1) ↔
      c.Ok (P.withBlocks rest B) ∧ k ∈ c.uses P := by
    rw [List.mem_flatMap]
    constructor
    · rintro ⟨s, hm, hk⟩
      obtain ⟨a, ha, -⟩ := Option.map_eq_some_iff.mp (Option.mem_toList.mp hm)
      exact ⟨((c.answer_iff a).mp ha).1, (hs s hm).mp hk⟩
    · rintro ⟨ok, hk⟩
      have ha := (c.answer_iff _).mpr ⟨ok, rfl⟩
      refine ⟨(c.sR, c.made (P.withBlocks rest B)), ?_, ?_⟩
      · rw [ha]
        exact List.mem_singleton.mpr rfl
      · rw [Serving.answer_keys P rest ha]
        exact hk
  rw [e]
  tauto

/-- Blocks with keys that it uses in neither of two worlds do not change what it does. -/
theorem play_same {α : Type} {c : Curious α} {B C : Blocks} {K : Arr 32 → Prop} (hB : ∀ x : Arr 32 × Arr 12 × Fin 1025, ¬ K x.1 → B x = C x)
    (hk : ∀ k, K k → k ∉ (c.play P rest C).toPlayed.used P ∨ k ∉ (c.play P rest B).toPlayed.used P) :
    c.play P rest B = c.play P rest C := by
  induction c with
  | reply a => rfl
  | hash x next ih =>
    have := ih (P.hash x) hk
    simp only [Curious.play, this]
  | block x next ih =>
    have hx : ¬ K x.1 := fun h =>
      (hk _ h).elim (fun h => h (List.mem_cons.mpr (.inl rfl))) (fun h => h (List.mem_cons.mpr (.inl rfl)))
    have e : B x = C x := hB x hx
    have := ih (C x) fun k h => (hk k h).imp (fun h h' => h (List.mem_cons.mpr (.inr h'))) (fun h h' => h (by
      show k ∈ x.1 :: ((next (B x)).play P rest B).toPlayed.used P
      rw [e]
      exact List.mem_cons.mpr (.inr h')))
    simp only [Curious.play, e, this]
  | serve c next ih =>
    have ha : c.answer (P.withBlocks rest B) = c.answer (P.withBlocks rest C) := by
      refine Serving.answer_local P rest fun ok k hk' y => hB _ fun hK => ?_
      rcases hk k hK with h | h
      · exact h ((mem_used_serve P rest).mpr (.inl ⟨ok, hk'⟩))
      · exact h ((mem_used_serve P rest).mpr (.inl ⟨Serving.ok_blocks P rest ok, hk'⟩))
    have := ih (c.answer (P.withBlocks rest C)) fun k h => (hk k h).imp
      (fun h h' => h ((mem_used_serve P rest).mpr (.inr h')))
      (fun h h' => h ((mem_used_serve P rest).mpr (.inr (by rw [ha]; exact h'))))
    simp only [Curious.play, ha, this]

theorem used_length {α : Type} {c : Curious α} {M m : Nat} (hm : c.Within M m) (B : Blocks) :
    ((c.play P rest B).toPlayed.used P).length ≤ 2 * m := by
  induction c generalizing m with
  | reply a => exact Nat.zero_le _
  | hash x next ih =>
    cases m with
    | zero => exact hm.elim
    | succ m => exact (ih _ (hm _)).trans (by omega)
  | block x next ih =>
    cases m with
    | zero => exact hm.elim
    | succ m =>
      have := ih _ (hm (B x))
      have e : (((Curious.block x next).play P rest B).toPlayed.used P).length =
        (((next (B x)).play P rest B).toPlayed.used P).length + 1 := rfl
      omega
  | serve c next ih =>
    cases m with
    | zero => exact hm.elim
    | succ m =>
      have := ih _ (hm.2 (c.answer (P.withBlocks rest B)))
      have l : (((c.answer (P.withBlocks rest B)).map fun a => (c.sR, a)).toList.flatMap fun s => s.2.keys P s.1).length ≤ 2 := by
        rcases c.answer (P.withBlocks rest B) with _ | a
        · exact Nat.zero_le _
        · exact Nat.le_refl _
      simp only [Played.used, Curious.play, List.length_append, List.flatMap_append] at this ⊢
      omega

end SV2.Noise

namespace SV2.Stack
namespace Renewal
open Noise Veiled Stealing Function

variable {E : Nat}

section
variable (P : Prims) (rest : Arr 32 → Arr 12 → Nat → UInt8)

/-- The keys used by it and the responders, while it watches two sessions with another cipher. -/
def spends (watcher : Watcher) (Q : Prims) (C : Blocks) (start : SNet) : Nat → List (Arr 32)
  | 0 => []
  | j + 1 =>
    let h := SNet.attacked Q (watcher.forger P rest C) start j
    spends watcher Q C start j ++ ((watcher ((h.1 :: h.2).map SNet.seen)).play P rest C).toPlayed.used P

theorem spends_length {watcher : Watcher} {M m : Nat} (hm : ∀ past, (watcher past).Within M m) (Q : Prims) (C : Blocks) (start : SNet)
    (j : Nat) : (spends P rest watcher Q C start j).length ≤ 2 * (j * m) := by
  induction j with
  | zero => exact Nat.zero_le _
  | succ j ih =>
    unfold spends
    rw [List.length_append]
    have hj : (j + 1) * m = j * m + m := Nat.succ_mul j m
    have := used_length P rest (hm ((((SNet.attacked Q (watcher.forger P rest C) start j).1 ::
      (SNet.attacked Q (watcher.forger P rest C) start j).2)).map SNet.seen)) C
    omega

theorem attacked_both {keys labels : Fin (E + 2) → Arr 32} (hk : Injective keys) (hl : Injective labels) (hk0 : ∀ a, keys a ≠ EMPTY)
    (hl0 : ∀ a, labels a ≠ EMPTY) (rows : Fin (E + 2) → KeyRow) (C : Blocks) {watcher : Watcher}
    (hE : (watcher.forger P rest C).Rekeys E) {start : SNet} (hs : Labelled labels start) (j : Nat)
    (hj : ∀ a, keys a ∉ spends P rest watcher (P.withBlocks rest (build labels rows C)) C start j ∨
      keys a ∉ (asker watcher P).used P rest (build keys rows C) (clad keys start) j) :
    let B := build keys rows C
    let ideal := SNet.attacked (P.withBlocks rest (build labels rows C)) (watcher.forger P rest C) start j
    SNet.attacked (P.withBlocks rest B) (watcher.forger P rest B) (clad keys start) j =
      (clad keys ideal.1, ideal.2.map (clad keys)) ∧ Labelled labels ideal.1 ∧
    (asker watcher P).used P rest B (clad keys start) j =
      spends P rest watcher (P.withBlocks rest (build labels rows C)) C start j := by
  intro B
  have hB : ∀ x : Arr 32 × Arr 12 × Fin 1025, ¬ (∃ a, keys a = x.1) → B x = C x :=
    fun x hx => patch_off _ _ fun a e => hx ⟨a, e⟩
  induction j with
  | zero => exact ⟨rfl, hs, rfl⟩
  | succ j ih =>
    rw [spends, Asker.used] at hj
    simp only [List.mem_append, not_or] at hj
    obtain ⟨e, w, u⟩ := ih fun a => (hj a).imp And.left And.left
    have hj2 := fun a => (hj a).imp And.right And.right
    simp only [asker_forger, asker_play] at hj2
    have e' : SNet.attacked (P.withBlocks rest (build keys rows C)) (watcher.forger P rest (build keys rows C)) (clad keys start) j = _ := e
    rw [e'] at hj2
    intro ideal
    have hid : ideal = SNet.attacked (P.withBlocks rest (build labels rows C)) (watcher.forger P rest C) start (j + 1) := rfl
    clear_value ideal
    rw [SNet.attacked] at hid
    rw [SNet.attacked, Asker.used, spends]
    simp only [asker_forger] at u ⊢
    generalize SNet.attacked (P.withBlocks rest (build labels rows C)) (watcher.forger P rest C) start j = o at e w hj2 hid ⊢
    obtain ⟨n, past⟩ := o
    have hseen : (clad keys n :: past.map (clad keys)).map SNet.seen = (n :: past).map SNet.seen := map_seen_clad keys (n :: past)
    simp only [hseen] at hj2
    have p1 := play_same P rest (c := watcher ((n :: past).map SNet.seen)) (B := B) (C := C) (K := fun k => ∃ a, keys a = k) hB fun k ⟨a, hk⟩ => by
      rw [← hk]
      exact hj2 a
    have hf : watcher.forger P rest B (clad keys n :: past.map (clad keys)) = watcher.forger P rest C (n :: past) := by
      unfold Watcher.forger
      rw [hseen, p1]
    obtain ⟨s1, s2⟩ := step_clad P rest hk hl hk0 hl0 rows C w (act := watcher.forger P rest C (n :: past))
      (fun remote h => Nat.lt_of_not_le fun hle => (hE n past remote).1 hle h)
      (fun remote h => Nat.lt_of_not_le fun hle => (hE n past remote).2 hle h)
    subst hid
    simp only [e, hf]
    refine ⟨?_, s2, ?_⟩
    · rw [s1]
      rfl
    · rw [asker_play, hseen, u, p1]

end

/-! ## How many -/

theorem few_stale (k : Blocks × (Fin (E + 2) → KeyRow) → Arr 32 × Arr 32) (log : Blocks × (Fin (E + 2) → KeyRow) → List (Arr 32))
    {n : Nat} (hn : ∀ z, (log z).length ≤ n) :
    2 ^ 256 * Nat.card {w : Later E // (k w.2).1 ≠ (k w.2).2 ∧ ¬ Fresh (k w.2) log w} ≤ E * (n + E + 2) * Nat.card (Later E) := by
  classical
  have : Finite (Later E) := inferInstance
  let L : Fin E → Later E → List (Arr 32) := fun e w =>
    log w.2 ++ EMPTY :: (k w.2).1 :: (k w.2).2 :: ((List.finRange E).erase e).map w.1
  have hsub : ∀ w : Later E, (k w.2).1 ≠ (k w.2).2 ∧ ¬ Fresh (k w.2) log w → ∃ e, w.1 e ∈ L e w := by
    rintro w ⟨hk, hw⟩
    by_contra hc
    simp only [not_exists, L, List.mem_append, List.mem_cons, List.mem_map, not_or, not_and] at hc
    refine hw ⟨fun a b hab => ?_, fun e => (hc e).2.1, fun e => (hc e).1⟩
    have hinj : ∀ e e' : Fin E, w.1 e = w.1 e' → e = e' := by
      intro e e' h
      by_contra hne
      exact (hc e).2.2.2.2 e' ((List.mem_erase_of_ne (Ne.symm hne)).mpr (List.mem_finRange e')) h.symm
    rcases fin_cases a with rfl | rfl | ⟨e, rfl⟩ <;> rcases fin_cases b with rfl | rfl | ⟨e', rfl⟩ <;>
      simp only [joined_zero, joined_last, joined_later] at hab
    · rfl
    · exact absurd hab hk
    · exact absurd hab.symm (hc e').2.2.1
    · exact absurd hab.symm hk
    · rfl
    · exact absurd hab.symm (hc e').2.2.2.1
    · exact absurd hab (hc e).2.2.1
    · exact absurd hab (hc e).2.2.2.1
    · rw [hinj e e' hab]
  have hlen : ∀ e w, (L e w).length ≤ n + E + 2 := by
    intro e w
    have : ((List.finRange E).erase e).length = E - 1 := by
      rw [List.length_erase_of_mem (List.mem_finRange e), List.length_finRange]
    have hE : 0 < E := Nat.lt_of_le_of_lt (Nat.zero_le _) e.isLt
    simp only [L, List.length_append, List.length_cons, List.length_map, this]
    have := hn w.2
    omega
  have hone : ∀ e, 2 ^ 256 * Nat.card {w : Later E // w.1 e ∈ L e w} ≤ (n + E + 2) * Nat.card (Later E) := by
    intro e
    rw [← Crypto.Poly1305.card_keys]
    refine card_lens (fun w : Later E => w.1 e) (fun x w => (update w.1 e x, w.2)) (L e) _ (fun x w => update_self _ _ _)
      (fun w => by rw [update_eq_self]) (fun x x' w => by rw [update_idem]) (fun x w => ?_) (hlen e)
    simp only [L]
    congr 4
    refine List.map_congr_left fun b hb => update_of_ne ?_ _ _
    rintro rfl
    exact (List.Nodup.mem_erase_iff (List.nodup_finRange _)).mp hb |>.1 rfl
  have hsum : Nat.card {w : Later E // (k w.2).1 ≠ (k w.2).2 ∧ ¬ Fresh (k w.2) log w} ≤
      ∑ e : Fin E, Nat.card {w : Later E // w.1 e ∈ L e w} := by
    rw [← Nat.card_sigma]
    choose g hg using hsub
    exact Nat.card_le_card_of_injective (fun w : {w : Later E // (k w.2).1 ≠ (k w.2).2 ∧ ¬ Fresh (k w.2) log w} =>
      (⟨g w.1 w.2, w.1, hg w.1 w.2⟩ : Σ e : Fin E, {w : Later E // w.1 e ∈ L e w})) fun w w' h => by
        have := congrArg (fun z : Σ e : Fin E, {w : Later E // w.1 e ∈ L e w} => z.2.1) h
        exact Subtype.ext this
  calc 2 ^ 256 * Nat.card {w : Later E // (k w.2).1 ≠ (k w.2).2 ∧ ¬ Fresh (k w.2) log w}
      ≤ 2 ^ 256 * ∑ e : Fin E, Nat.card {w : Later E // w.1 e ∈ L e w} := Nat.mul_le_mul_left _ hsum
    _ = ∑ e : Fin E, 2 ^ 256 * Nat.card {w : Later E // w.1 e ∈ L e w} := Finset.mul_sum _ _ _
    _ ≤ ∑ _e : Fin E, (n + E + 2) * Nat.card (Later E) := Finset.sum_le_sum fun e _ => hone e
    _ = E * (n + E + 2) * Nat.card (Later E) := by
      rw [Finset.sum_const, Finset.card_univ, Fintype.card_fin, smul_eq_mul, Nat.mul_assoc]

section
variable {A : Type} (pre : Blocks → A) (S : Blocks → List (Arr 32)) (k : A → Arr 32 × Arr 32)

/-- The first two keys are different, not empty, and were not used before. -/
def Free (B : Blocks) : Prop :=
  (k (pre B)).1 ≠ (k (pre B)).2 ∧ (k (pre B)).1 ≠ EMPTY ∧ (k (pre B)).2 ≠ EMPTY ∧ (k (pre B)).1 ∉ S B ∧ (k (pre B)).2 ∉ S B

variable (hS : ∀ B B' : Blocks, (∀ s ∈ S B, ∀ y, B' (s, y) = B (s, y)) → pre B' = pre B ∧ S B' = S B)
include hS

theorem off_before {w : Later E} {log : Blocks × (Fin (E + 2) → KeyRow) → List (Arr 32)} (hlog : ∀ z, S z.1 ⊆ log z)
    (hf : Free pre S k w.2.1) (hw : Fresh (k (pre w.2.1)) log w) :
    (∀ a, joined (k (pre w.2.1)) w.1 a ∉ S w.2.1) ∧
    pre (build (joined (k (pre w.2.1)) w.1) w.2.2 w.2.1) = pre w.2.1 ∧ S (build (joined (k (pre w.2.1)) w.1) w.2.2 w.2.1) = S w.2.1 := by
  have hkS : ∀ a, joined (k (pre w.2.1)) w.1 a ∉ S w.2.1 := by
    intro a
    rcases fin_cases a with rfl | rfl | ⟨e, rfl⟩
    · exact hf.2.2.2.1
    · rw [joined_last]
      exact hf.2.2.2.2
    · rw [joined_later]
      exact fun h => hw.off e (hlog _ h)
  exact ⟨hkS, hS _ _ fun s hs y => patch_off _ _ fun a e => hkS a (e ▸ hs)⟩

/-- What is so for the blocks of all fresh worlds fails only for few blocks. -/
theorem few_worlds (log : Blocks × (Fin (E + 2) → KeyRow) → List (Arr 32)) (hlog : ∀ z, S z.1 ⊆ log z) {n : Nat}
    (hn : ∀ z, (log z).length ≤ n) (p : Blocks → Prop)
    (hp : ∀ w : Later E, Free pre S k w.2.1 → Fresh (k (pre w.2.1)) log w → p (build (joined (k (pre w.2.1)) w.1) w.2.2 w.2.1)) :
    2 ^ 256 * Nat.card {x // Free pre S k x ∧ ¬ p x} ≤ E * (n + E + 2) * Nat.card Blocks := by
  classical
  have hN : Nonempty (Rest E) := ⟨fun _ _ => Arr.replicate 64 0, fun _ => EMPTY⟩
  have hX : 0 < Nat.card (Rest E) := Nat.card_pos
  have hsplit : ∀ {A : Type} [Finite A] (f q : A → Prop), Nat.card {x // f x} = Nat.card {x // f x ∧ q x} + Nat.card {x // f x ∧ ¬ q x} := by
    intro A _ f q
    rw [← Nat.card_sum]
    refine Nat.card_congr ⟨fun x => if h : q x.1 then .inl ⟨x.1, x.2, h⟩ else .inr ⟨x.1, x.2, h⟩,
      fun x => x.elim (fun y => ⟨y.1, y.2.1⟩) (fun y => ⟨y.1, y.2.1⟩), fun x => ?_, fun x => ?_⟩
    · by_cases h : q x.1 <;> simp only [h, dif_pos, dif_neg, not_false_iff, Sum.elim_inl, Sum.elim_inr]
    · rcases x with x | x
      · exact dif_pos x.2.2
      · exact dif_neg x.2.2
  have hgood : Nat.card {w : Later E // Free pre S k w.2.1 ∧ Fresh (k (pre w.2.1)) log w} ≤
      Nat.card {x // Free pre S k x ∧ p x} * Nat.card (Rest E) := by
    rw [← Nat.card_prod]
    refine Nat.card_le_card_of_injective (fun w : {w : Later E // Free pre S k w.2.1 ∧ Fresh (k (pre w.2.1)) log w} =>
      ((⟨build (joined (k (pre w.1.2.1)) w.1.1) w.1.2.2 w.1.2.1, ?_, hp w.1 w.2.1 w.2.2⟩ : {x // Free pre S k x ∧ p x}),
        (shown (joined (k (pre w.1.2.1)) w.1.1, w.1.2)).2)) fun w w' h => ?_
    · obtain ⟨-, h2, h3⟩ := off_before pre S k hS hlog w.2.1 w.2.2
      have := w.2.1
      unfold Free at this ⊢
      rw [h2, h3]
      exact this
    obtain ⟨h1, h2⟩ := Prod.mk.inj h
    have h1 : build (joined (k (pre w.1.2.1)) w.1.1) w.1.2.2 w.1.2.1 = build (joined (k (pre w'.1.2.1)) w'.1.1) w'.1.2.2 w'.1.2.1 :=
      congrArg Subtype.val h1
    have hpre : pre w.1.2.1 = pre w'.1.2.1 := by
      rw [← (off_before pre S k hS hlog w.2.1 w.2.2).2.1, ← (off_before pre S k hS hlog w'.2.1 w'.2.2).2.1, h1]
    have h3 : shown (joined (k (pre w.1.2.1)) w.1.1, w.1.2) = shown (joined (k (pre w'.1.2.1)) w'.1.1, w'.1.2) := by
      refine Prod.ext (Prod.ext ?_ h1) h2
      exact (seat_joined _ _).trans ((congrArg k hpre).trans (seat_joined _ _).symm)
    have h6 := shown_inj w.2.2.inj w'.2.2.inj h3
    have h4 : joined (k (pre w.1.2.1)) w.1.1 = joined (k (pre w'.1.2.1)) w'.1.1 := congrArg Prod.fst h6
    have h5 : w.1.2 = w'.1.2 := (Prod.mk.inj h6).2
    refine Subtype.ext (Prod.ext ?_ h5)
    funext e
    rw [← joined_later (k (pre w.1.2.1)) w.1.1, h4, joined_later]
  have hall : Nat.card {w : Later E // Free pre S k w.2.1} = Nat.card {x // Free pre S k x} * Nat.card (Rest E) := by
    have e : {w : Later E // Free pre S k w.2.1} ≃ {x // Free pre S k x} × Rest E :=
      ⟨fun w => (⟨w.1.2.1, w.2⟩, w.1.2.2, w.1.1), fun y => ⟨(y.2.2, y.1.1, y.2.1), y.1.2⟩, fun _ => rfl, fun _ => rfl⟩
    rw [Nat.card_congr e, Nat.card_prod]
  have hbad : Nat.card {w : Later E // Free pre S k w.2.1 ∧ ¬ Fresh (k (pre w.2.1)) log w} ≤
      Nat.card {w : Later E // (k (pre w.2.1)).1 ≠ (k (pre w.2.1)).2 ∧ ¬ Fresh (k (pre w.2.1)) log w} :=
    Nat.card_le_card_of_injective (fun w => ⟨w.1, w.2.1.1, w.2.2⟩) fun a b h => Subtype.ext (congrArg (fun z => z.1) h)
  have h1 := hsplit (A := Later E) (fun w => Free pre S k w.2.1) (fun w => Fresh (k (pre w.2.1)) log w)
  have h2 := hsplit (A := Blocks) (Free pre S k) p
  have h3 := card_later (E := E)
  have h4 := few_stale (fun z => k (pre z.1)) log hn
  have h5 : Nat.card {x // Free pre S k x ∧ ¬ p x} * Nat.card (Rest E) ≤
      Nat.card {w : Later E // (k (pre w.2.1)).1 ≠ (k (pre w.2.1)).2 ∧ ¬ Fresh (k (pre w.2.1)) log w} := by
    rw [h2, Nat.add_mul] at hall
    omega
  refine Nat.le_of_mul_le_mul_right ?_ hX
  calc 2 ^ 256 * Nat.card {x // Free pre S k x ∧ ¬ p x} * Nat.card (Rest E)
      = 2 ^ 256 * (Nat.card {x // Free pre S k x ∧ ¬ p x} * Nat.card (Rest E)) := Nat.mul_assoc _ _ _
    _ ≤ 2 ^ 256 * Nat.card {w : Later E // (k (pre w.2.1)).1 ≠ (k (pre w.2.1)).2 ∧ ¬ Fresh (k (pre w.2.1)) log w} :=
      Nat.mul_le_mul_left _ h5
    _ ≤ E * (n + E + 2) * Nat.card (Later E) := h4
    _ = E * (n + E + 2) * Nat.card Blocks * Nat.card (Rest E) := by
      rw [h3]; ring

variable (P : Prims) (rest : Arr 32 → Arr 12 → Nat → UInt8)

/-- For all but few blocks, who does not use the first two keys uses none of the later ones. -/
theorem few_learn {s : Nat} (hs : ∀ B, (S B).length ≤ s)
    (watcher : A → Watcher) (i r : A → NoiseSession) (hi : ∀ a, 2 ≤ (i a).mc) (hr : ∀ a, 2 ≤ (r a).mc) (M m : Nat)
    (hm : ∀ a past, (watcher a past).Within M m)
    (hE : ∀ a blocks, ((watcher a).forger P rest blocks).Rekeys E) (rounds : Nat) :
    let used := fun B => (asker (watcher (pre B)) P).used P rest B (talk (i (pre B)) (r (pre B)) (k (pre B))) rounds
    2 ^ 256 * Nat.card {B : Blocks // Free pre S k B ∧ ¬ ((∀ e ≤ E, streamKey (B.stream rest) (k (pre B)).1 e ≠ EMPTY) ∧
      ((k (pre B)).1 ∈ used B ∨ (k (pre B)).2 ∈ used B ∨ Private (B.stream rest) (k (pre B)) E (S B ++ used B)))} ≤
    E * (2 * (rounds * m) + s + E + 2) * Nat.card Blocks := by
  intro used
  by_cases hbig : E + 3 ≤ 2 ^ 256
  · obtain ⟨labels, hl, hl0⟩ := labels_exist hbig
    refine few_worlds pre S k hS (fun z => S z.1 ++ spends P rest (watcher (pre z.1)) (P.withBlocks rest (build labels z.2 z.1)) z.1
        (talk (i (pre z.1)) (r (pre z.1)) (seat labels 0)) rounds) (fun z => List.subset_append_left _ _)
      (fun z => ?_) _ fun w hf hw => ?_
    · rw [List.length_append]
      have := spends_length P rest (hm (pre z.1)) (P.withBlocks rest (build labels z.2 z.1)) z.1
        (talk (i (pre z.1)) (r (pre z.1)) (seat labels 0)) rounds
      have := hs z.1
      omega
    obtain ⟨hkS, hpre, hSB⟩ := off_before pre S k hS (fun z => List.subset_append_left _ _) hf hw
    obtain ⟨later, C, rows⟩ := w
    obtain ⟨hinj, hfull, hoff⟩ := hw
    obtain ⟨-, hk1, hk2, -, -⟩ := hf
    simp only [List.mem_append, not_or] at hinj hfull hoff hkS hpre hSB hk1 hk2 ⊢
    have hu : used (build (joined (k (pre C)) later) rows C) = (asker (watcher (pre C)) P).used P rest (build (joined (k (pre C)) later) rows C)
        (talk (i (pre C)) (r (pre C)) (k (pre C))) rounds := by
      simp only [used, hpre]
    rw [hpre, hSB, hu]
    clear hu hpre hSB
    generalize k (pre C) = k at *
    generalize S C = S at *
    have hstream := streamKey_build rest hinj rows C
    have hseat := seat_joined k later
    rw [hseat] at hstream
    have hk0 : ∀ a, joined k later a ≠ EMPTY := by
      intro a
      rcases fin_cases a with rfl | rfl | ⟨e, rfl⟩
      · exact hk1
      · rw [joined_last]
        exact hk2
      · rw [joined_later]
        exact hfull e
    refine ⟨fun e he => ?_, ?_⟩
    · rw [hstream e he]
      exact hk0 _
    by_cases u1 : k.1 ∈ (asker (watcher (pre C)) P).used P rest (build (joined k later) rows C) (talk (i (pre C)) (r (pre C)) k) rounds
    · exact .inl u1
    by_cases u2 : k.2 ∈ (asker (watcher (pre C)) P).used P rest (build (joined k later) rows C) (talk (i (pre C)) (r (pre C)) k) rounds
    · exact .inr (.inl u2)
    refine .inr (.inr ?_)
    have hs : Labelled labels (talk (i (pre C)) (r (pre C)) (seat labels 0)) := ⟨⟨rfl, rfl, hi _⟩, ⟨rfl, rfl, hr _⟩⟩
    have hstart : clad (joined k later) (talk (i (pre C)) (r (pre C)) (seat labels 0)) = talk (i (pre C)) (r (pre C)) k := by
      have : clad (joined k later) (talk (i (pre C)) (r (pre C)) (seat labels 0)) =
        talk (i (pre C)) (r (pre C)) (seat (joined k later) 0) := rfl
      rw [this, hseat]
    obtain ⟨-, -, u⟩ := attacked_both P rest hinj hl hk0 hl0 rows C (hE (pre C) C) hs rounds (by
      rw [hstart]
      intro a
      rcases fin_cases a with rfl | rfl | ⟨e, rfl⟩
      · exact .inr u1
      · rw [joined_last]
        exact .inr u2
      · rw [joined_later]
        exact .inl (hoff e).2)
    rw [hstart] at u
    have hall : ∀ a, joined k later a ∉ S ++ (asker (watcher (pre C)) P).used P rest (build (joined k later) rows C)
        (talk (i (pre C)) (r (pre C)) k) rounds := by
      intro a
      rw [List.mem_append, not_or]
      refine ⟨hkS a, ?_⟩
      rcases fin_cases a with rfl | rfl | ⟨e, rfl⟩
      · exact u1
      · rw [joined_last]
        exact u2
      · rw [joined_later, u]
        exact (hoff e).2
    refine ⟨fun e he => ?_, fun x hx hsk => ?_⟩
    · rw [hstream e he, ← joined_last k later]
      intro hc
      have := congrArg Fin.val (hinj hc)
      simp only at this
      omega
    · rcases hsk with e | ⟨e, he, e'⟩
      · rw [e, ← joined_last k later] at hx
        exact hall _ hx
      · rw [← e', hstream e he] at hx
        exact hall _ hx
  · refine Nat.mul_le_mul ?_ (Nat.card_le_card_of_injective _ Subtype.val_injective)
    have : 2 ≤ E := by
      have : 2 ≤ 2 ^ 256 - 2 := by norm_num
      omega
    calc 2 ^ 256 ≤ E + 2 := by omega
      _ = 1 * (E + 2) := (Nat.one_mul _).symm
      _ ≤ E * (2 * (rounds * m) + s + E + 2) := Nat.mul_le_mul (by omega) (by omega)

end

end Renewal
end SV2.Stack
