import Verif.Spec.Snoop
import Verif.Lemmas.Renewal
import Verif.Props.Oracle
/-!
# Which text is sent cannot be told without the keys, also while the sides change them

In another world the sessions have fixed keys, with blocks of their own (`Verif/Lemmas/Renewal.lean`).  There the two texts can
be exchanged.
-/

namespace SV2.Noise

variable (P : Prims) (rest : Arr 32 → Arr 12 → Nat → UInt8)

/-- The exchange of block functions leaves those blocks alone that keys are made of. -/
theorem Duo.blocks_swap (i r : NoiseSession) (hi : i.i = true) (hr : r.i = false) (hi' : 2 ≤ i.mc) (hr' : 2 ≤ r.mc)
    (attacker : Attacker) (rounds : Nat) :
    ∃ e : Blocks ≃ Blocks, (∀ blocks, Duo.play (P.withBlocks rest blocks) false attacker rounds (i, r) [] =
        Duo.play (P.withBlocks rest (e blocks)) true attacker rounds (i, r) []) ∧
      ∀ blocks k c, e blocks (k, CipherState.rekeyNonce, c) = blocks (k, CipherState.rekeyNonce, c) := by
  have key : ∀ u : Unused, ∃ e : Pad ≃ Pad, (∀ pad,
      Duo.play (P.withBlocks rest (u.join pad)) false attacker rounds (i, r) [] =
        Duo.play (P.withBlocks rest (u.join (e pad))) true attacker rounds (i, r) []) ∧
      ∀ pad k, e pad k CipherState.rekeyNonce = pad k CipherState.rekeyNonce := by
    intro u
    obtain ⟨e, he, ho⟩ := Duo.play_swap P u.tag (u.more rest) attacker rounds (i, r) [] ⟨hi, hr, hi', hr'⟩
    exact ⟨e, fun pad => by rw [Unused.withBlocks, Unused.withBlocks, he], fun pad k => ho pad k _ (not_ahead_rekey _ _)⟩
  choose e he ho using key
  refine ⟨Blocks.pads.trans (((Equiv.refl Unused).prodShear e).trans Blocks.pads.symm), fun blocks => ?_, fun blocks k c => ?_⟩
  · have := he blocks.unused blocks.pad
    have h1 : blocks.unused.join blocks.pad = blocks := Blocks.pads.symm_apply_apply blocks
    rw [h1] at this
    exact this
  · have h1 : blocks.unused.join blocks.pad = blocks := Blocks.pads.symm_apply_apply blocks
    have h2 : blocks.unused.join (e blocks.unused blocks.pad) (k, CipherState.rekeyNonce, c) =
        blocks.unused.join blocks.pad (k, CipherState.rekeyNonce, c) := by
      refine Fin.cases rfl (fun c => ?_) c
      apply arr_ext
      rw [Unused.join_succ, Unused.join_succ]
      unfold Unused.byte
      rw [ho]
    rw [h1] at h2
    exact h2

/-- What the attacker sees, and the keys it computes blocks with, if these are not the blocks of the sessions. -/
def Snoop.run (snoop : Snoop) (Q : Prims) (C : Blocks) (second : Bool) : (rounds : Nat) → Duo → List Seen → List (Arr 32) →
    List Seen × List (Arr 32)
  | 0, _, seen, log => (seen, log)
  | rounds + 1, s, seen, log =>
    let c := (snoop.next seen).play P rest C
    let r := s.act Q second c.result
    Snoop.run snoop Q C second rounds r.2.2 (seen ++ [Seen.blind ⟨r.1, r.2.1, r.2.2.1, r.2.2.2⟩]) (log ++ c.keys)

theorem Snoop.watch_run (snoop : Snoop) (B : Blocks) (second : Bool) (rounds : Nat) (s : Duo) (seen : List Seen) (log : List (Arr 32)) :
    snoop.watch P rest B second rounds s seen = (snoop.run P rest (P.withBlocks rest B) B second rounds s seen log).1 := by
  induction rounds generalizing s seen log with
  | zero => rfl
  | succ n ih =>
    unfold Snoop.watch Snoop.run
    exact ih _ _ _

theorem Snoop.run_log (snoop : Snoop) (Q : Prims) (C : Blocks) (second : Bool) (rounds : Nat) (s : Duo) (seen : List Seen)
    (log : List (Arr 32)) {k : Arr 32} (h : k ∈ log) : k ∈ (snoop.run P rest Q C second rounds s seen log).2 := by
  induction rounds generalizing s seen log with
  | zero => exact h
  | succ n ih =>
    unfold Snoop.run
    exact ih _ _ _ (List.mem_append.mpr (.inl h))

theorem Snoop.run_length {snoop : Snoop} {M m : Nat} (hm : ∀ seen, (snoop.next seen).Within M m)
    (ha : ∀ seen, (snoop.next seen).Alone) (Q : Prims) (C : Blocks) (second : Bool) (rounds : Nat) (s : Duo) (seen : List Seen)
    (log : List (Arr 32)) : (snoop.run P rest Q C second rounds s seen log).2.length ≤ log.length + rounds * m := by
  induction rounds generalizing s seen log with
  | zero => exact Nat.le_add_right _ _
  | succ n ih =>
    unfold Snoop.run
    refine Nat.le_trans (ih _ _ _) ?_
    have := Stealing.keys_length P rest (hm seen) (ha seen) C
    rw [List.length_append, Nat.succ_mul]
    omega

end SV2.Noise

namespace SV2.Stack
namespace Renewal
open Noise Veiled Stealing Function

variable {E : Nat} (P : Prims) (rest : Arr 32 → Arr 12 → Nat → UInt8)

/-- It matters only for these keys which blocks there are, and it uses none of them. -/
theorem run_off {snoop : Snoop} (ha : ∀ seen, (snoop.next seen).Alone) (Q : Prims) {B C : Blocks} {keys : Fin (E + 2) → Arr 32}
    (hB : ∀ x : Arr 32 × Arr 12 × Fin 1025, (∀ a, keys a ≠ x.1) → B x = C x) (second : Bool) (rounds : Nat) (s : Duo)
    (seen : List Seen) (log log' : List (Arr 32)) (hk : ∀ a, keys a ∉ (snoop.run P rest Q C second rounds s seen log).2) :
    (snoop.run P rest Q B second rounds s seen log').1 = (snoop.run P rest Q C second rounds s seen log).1 := by
  induction rounds generalizing s seen log log' with
  | zero => rfl
  | succ n ih =>
    unfold Snoop.run at hk ⊢
    have hp := (play_off P rest (ha seen) hB fun a => .inl fun h =>
      hk a (Snoop.run_log P rest _ _ _ _ _ _ _ _ (List.mem_append.mpr (.inr h)))).1
    simp only [hp]
    exact ih _ _ _ _ hk

/-- Both sessions with the keys that belong to these numbers of changes. -/
def cladDuo (keys : Fin (E + 2) → Arr 32) (a b : Nat) (s : Duo) : Duo := (s.1.dressed (seat keys a), s.2.dressed (seat keys b))

/-- One session, and how often it rekeyed. -/
theorem act_clad {Q Q' : Prims} {keys labels : Fin (E + 2) → Arr 32} (hL : ∀ a, Like Q Q' (keys a) (labels a))
    (hK : ∀ (s : NoiseSession) (e : Nat) remote, e < E → (s.dressed (seat keys e)).rekeyed Q remote = s.dressed (seat keys (e + 1)))
    (hK' : ∀ (s : NoiseSession) (e : Nat) remote, e < E → s.Wears (seat labels e) →
      s.rekeyed Q' remote = s.dressed (seat labels (e + 1))) {a b : Nat} {s : Duo} (h1 : s.1.Wears (seat labels a))
    (h2 : s.2.Wears (seat labels b)) (ha : a < E) (hb : b < E) (second : Bool) (mv : Move) :
    ∃ a' b', a' ≤ a + 1 ∧ b' ≤ b + 1 ∧ (s.act Q' second mv).2.2.1.Wears (seat labels a') ∧
      (s.act Q' second mv).2.2.2.Wears (seat labels b') ∧
      (cladDuo keys a b s).act Q second mv =
        ((s.act Q' second mv).1, (s.act Q' second mv).2.1, cladDuo keys a' b' (s.act Q' second mv).2.2) := by
  obtain ⟨i, r⟩ := s
  simp only at h1 h2
  have rek : ∀ (remote : Bool) (x : NoiseSession) (e : Nat), e < E → x.Wears (seat labels e) →
      (x.rekeyed Q' remote).Wears (seat labels (e + 1)) ∧
      (x.dressed (seat keys e)).rekeyed Q remote = (x.rekeyed Q' remote).dressed (seat keys (e + 1)) := by
    intro remote x e he hx
    rw [hK' x e remote he hx, hK x e remote he]
    exact ⟨⟨rfl, rfl, hx.mc⟩, rfl⟩
  cases mv with
  | send who m0 m1 =>
    refine ⟨a, b, Nat.le_succ _, Nat.le_succ _, ?_⟩
    by_cases hl : m0.length = m1.length
    · cases who with
      | initiator =>
        obtain ⟨e, w⟩ := NoiseSession.send_like (hL _) (hL _) (k := seat keys a) h1 Keypair.empty Keypair.empty (if second then m1 else m0)
        simp only [Duo.act, if_pos hl, Duo.get, cladDuo, e]
        generalize i.sendMessage Q' Keypair.empty (if second then m1 else m0) = o at w
        obtain ⟨o1, o2, o3⟩ := o
        cases o1 <;> exact ⟨w, h2, rfl⟩
      | responder =>
        obtain ⟨e, w⟩ := NoiseSession.send_like (hL _) (hL _) (k := seat keys b) h2 Keypair.empty Keypair.empty (if second then m1 else m0)
        simp only [Duo.act, if_pos hl, Duo.get, cladDuo, e]
        generalize r.sendMessage Q' Keypair.empty (if second then m1 else m0) = o at w
        obtain ⟨o1, o2, o3⟩ := o
        cases o1 <;> exact ⟨h1, w, rfl⟩
    · simp only [Duo.act, if_neg hl]
      exact ⟨h1, h2, trivial⟩
  | deliver who bytes =>
    refine ⟨a, b, Nat.le_succ _, Nat.le_succ _, ?_⟩
    cases who with
    | initiator =>
      obtain ⟨e, w⟩ := NoiseSession.recv_like (hL _) (hL _) (k := seat keys a) h1 bytes
      simp only [Duo.act, Duo.get, cladDuo, e]
      exact ⟨w, h2, rfl⟩
    | responder =>
      obtain ⟨e, w⟩ := NoiseSession.recv_like (hL _) (hL _) (k := seat keys b) h2 bytes
      simp only [Duo.act, Duo.get, cladDuo, e]
      exact ⟨h1, w, rfl⟩
  | rekeyLocal who =>
    cases who with
    | initiator =>
      obtain ⟨w, e⟩ := rek false i a ha h1
      exact ⟨a + 1, b, Nat.le_refl _, Nat.le_succ _, w, h2, Prod.ext rfl (Prod.ext rfl (Prod.ext e rfl))⟩
    | responder =>
      obtain ⟨w, e⟩ := rek false r b hb h2
      exact ⟨a, b + 1, Nat.le_succ _, Nat.le_refl _, h1, w, Prod.ext rfl (Prod.ext rfl (Prod.ext rfl e))⟩
  | rekeyRemote who =>
    cases who with
    | initiator =>
      obtain ⟨w, e⟩ := rek true i a ha h1
      exact ⟨a + 1, b, Nat.le_refl _, Nat.le_succ _, w, h2, Prod.ext rfl (Prod.ext rfl (Prod.ext e rfl))⟩
    | responder =>
      obtain ⟨w, e⟩ := rek true r b hb h2
      exact ⟨a, b + 1, Nat.le_succ _, Nat.le_refl _, h1, w, Prod.ext rfl (Prod.ext rfl (Prod.ext rfl e))⟩

theorem run_clad {Q Q' : Prims} {keys labels : Fin (E + 2) → Arr 32} (hL : ∀ a, Like Q Q' (keys a) (labels a))
    (hK : ∀ (s : NoiseSession) (e : Nat) remote, e < E → (s.dressed (seat keys e)).rekeyed Q remote = s.dressed (seat keys (e + 1)))
    (hK' : ∀ (s : NoiseSession) (e : Nat) remote, e < E → s.Wears (seat labels e) →
      s.rekeyed Q' remote = s.dressed (seat labels (e + 1))) (snoop : Snoop) (C : Blocks) (second : Bool) (rounds : Nat) {a b : Nat}
    {s : Duo} (h1 : s.1.Wears (seat labels a)) (h2 : s.2.Wears (seat labels b)) (ha : a + rounds ≤ E) (hb : b + rounds ≤ E)
    (seen : List Seen) (log : List (Arr 32)) :
    snoop.run P rest Q C second rounds (cladDuo keys a b s) seen log = snoop.run P rest Q' C second rounds s seen log := by
  induction rounds generalizing a b s seen log with
  | zero => rfl
  | succ n ih =>
    unfold Snoop.run
    obtain ⟨a', b', la, lb, w1, w2, e⟩ := act_clad hL hK hK' h1 h2 (by omega) (by omega) second ((snoop.next seen).play P rest C).result
    simp only [e]
    exact ih w1 w2 (by omega) (by omega) _ _

/-- The attacker sees what the one of `C94_worlds` sees, but for the keys. -/
theorem run_play {Q : Prims} {labels : Fin (E + 2) → Arr 32} (hl : Injective labels) (hL : ∀ a, Like Q Q (labels a) (labels a))
    (hK : ∀ (s : NoiseSession) (e : Nat) remote, e < E → (s.dressed (seat labels e)).rekeyed Q remote = s.dressed (seat labels (e + 1))) (snoop : Snoop) (C : Blocks) (second : Bool) (rounds : Nat) {a b : Nat}
    {s : Duo} (h1 : s.1.Wears (seat labels a)) (h2 : s.2.Wears (seat labels b)) (ha : a + rounds ≤ E) (hb : b + rounds ≤ E)
    (seen : List Seen) (log : List (Arr 32)) :
    (snoop.run P rest Q C second rounds s (seen.map Seen.blind) log).1 =
      (s.play Q second (fun past => ((snoop.next (past.map Seen.blind)).play P rest C).result) rounds seen).map Seen.blind := by
  induction rounds generalizing a b s seen log with
  | zero => rfl
  | succ n ih =>
    unfold Snoop.run Duo.play
    simp only []
    have hne : s.1.cs1.k ≠ s.2.cs2.k := by
      rw [h1.k1, h2.k2]
      intro e
      have := congrArg Fin.val (hl e)
      simp only at this
      omega
    rw [if_neg hne]
    obtain ⟨a', b', la, lb, w1, w2, -⟩ := act_clad (keys := labels) hL hK (fun x e remote he hx => by
      have := hK x e remote he
      rwa [hx.eq] at this) h1 h2 (by omega) (by omega) second
      ((snoop.next (seen.map Seen.blind)).play P rest C).result
    generalize s.act Q second ((snoop.next (seen.map Seen.blind)).play P rest C).result = o at w1 w2 ⊢
    have := ih w1 w2 (by omega) (by omega) (seen ++ [⟨o.1, o.2.1, o.2.2.1, o.2.2.2⟩])
      (log ++ ((snoop.next (seen.map Seen.blind)).play P rest C).keys)
    rw [List.map_append] at this
    exact this

/-! ## The two worlds -/

theorem build_like_any {keys labels : Fin (E + 2) → Arr 32} (hk : Injective keys) (hl : Injective labels)
    (hk0 : ∀ a, keys a ≠ EMPTY) (hl0 : ∀ a, labels a ≠ EMPTY) (rows : Fin (E + 2) → KeyRow) (C C' : Blocks) (a : Fin (E + 2)) :
    Like (P.withBlocks rest (build keys rows C)) (P.withBlocks rest (build labels rows C')) (keys a) (labels a) := by
  refine like_blocks P rest (fun n c => ?_) ⟨fun e => absurd e (hk0 a), fun e => absurd e (hl0 a)⟩
  have hp : (prepNonce n, c) ≠ place := fun e => prep_ne n (congrArg Prod.fst e)
  exact (patch_at hk _ C a _).trans ((chained_other _ _ _ hp).trans
    ((chained_other _ _ _ hp).symm.trans (patch_at hl _ C' a _).symm))

theorem build_dressed {keys : Fin (E + 2) → Arr 32} (hk : Injective keys) (rows : Fin (E + 2) → KeyRow) (C : Blocks)
    (s : NoiseSession) (e : Nat) (remote : Bool) (he : e < E) :
    (s.dressed (seat keys e)).rekeyed (P.withBlocks rest (build keys rows C)) remote = s.dressed (seat keys (e + 1)) := by
  rw [NoiseSession.rekeyed_eq, after_build hk rows C he]

/-- The attacker says yes, when the sessions have blocks of their own. -/
def SaysSo (snoop : Snoop) (start : Duo) (rounds : Nat) (second : Bool) (C B : Blocks) : Prop :=
  ((snoop.verdict (snoop.run P rest (P.withBlocks rest B) C second rounds start [] []).1).play P rest C).result = true

/-- The keys it computes blocks with. -/
def soLog (snoop : Snoop) (start : Duo) (rounds : Nat) (second : Bool) (C B : Blocks) : List (Arr 32) :=
  (snoop.run P rest (P.withBlocks rest B) C second rounds start [] []).2 ++
    ((snoop.verdict (snoop.run P rest (P.withBlocks rest B) C second rounds start [] []).1).play P rest C).keys

variable {keys labels : Fin (E + 2) → Arr 32} {snoop : Snoop} {start : Duo} {rounds : Nat}

theorem yes_ideal (hk : Injective keys) (hk0 : ∀ a, keys a ≠ EMPTY) (hl : Injective labels) (hl0 : ∀ a, labels a ≠ EMPTY)
    (ha : ∀ seen, (snoop.next seen).Alone) (hv : ∀ seen, (snoop.verdict seen).Alone) (h1 : start.1.Wears (seat labels 0))
    (h2 : start.2.Wears (seat labels 0)) (hE : rounds ≤ E) (second : Bool) (rows : Fin (E + 2) → KeyRow) (C Z : Blocks)
    (hoff : ∀ a, keys a ∉ soLog P rest snoop start rounds second C (build labels rows Z)) :
    snoop.Yes P rest (build keys rows C) second rounds (cladDuo keys 0 0 start) ↔
      SaysSo P rest snoop start rounds second C (build labels rows Z) := by
  unfold soLog at hoff
  simp only [List.mem_append, not_or] at hoff
  have hB : ∀ x : Arr 32 × Arr 12 × Fin 1025, (∀ a, keys a ≠ x.1) → build keys rows C x = C x := fun x hx => patch_off _ _ hx
  have hc := run_clad P rest (build_like_any P rest hk hl hk0 hl0 rows C Z) (build_dressed P rest hk rows C)
    (build_rekeyed P rest hl rows Z) snoop C second rounds h1 h2 (by omega) (by omega) [] []
  have ho := run_off P rest ha (P.withBlocks rest (build keys rows C)) hB second rounds (cladDuo keys 0 0 start) [] [] []
    (fun a => by rw [hc]; exact (hoff a).1)
  rw [hc] at ho
  unfold Snoop.Yes SaysSo
  rw [Snoop.watch_run P rest _ _ _ _ _ _ [], ho, (play_off P rest (hv _) hB fun a => .inl (hoff a).2).1]

theorem ideal_any (hl : Injective labels) (hl0 : ∀ a, labels a ≠ EMPTY) (h1 : start.1.Wears (seat labels 0))
    (h2 : start.2.Wears (seat labels 0)) (hE : rounds ≤ E) (second : Bool) (rows : Fin (E + 2) → KeyRow) (C Z Z' : Blocks) :
    SaysSo P rest snoop start rounds second C (build labels rows Z) ↔ SaysSo P rest snoop start rounds second C (build labels rows Z') := by
  have hc := run_clad P rest (build_like_any P rest hl hl hl0 hl0 rows Z Z') (build_dressed P rest hl rows Z)
    (build_rekeyed P rest hl rows Z') snoop C second rounds h1 h2 (by omega) (by omega) [] []
  have hs : cladDuo labels 0 0 start = start := Prod.ext h1.eq h2.eq
  rw [hs] at hc
  unfold SaysSo
  rw [hc]

/-- An exchange of block functions that leaves the keys alone is one of rows. -/
theorem card_rows (hl : Injective labels) (e : Blocks ≃ Blocks)
    (he : ∀ B k c, e B (k, CipherState.rekeyNonce, c) = B (k, CipherState.rekeyNonce, c)) {p q : Blocks → Prop}
    (hpq : ∀ rows Z rows' Z', e (build labels rows Z) = build labels rows' Z' → p (build labels rows Z) → q (build labels rows' Z'))
    (hp : ∀ rows Z Z', p (build labels rows Z) → p (build labels rows Z'))
    (hq : ∀ rows Z Z', q (build labels rows Z) → q (build labels rows Z')) (Z : Blocks) :
    Nat.card {rows : Fin (E + 2) → KeyRow // p (build labels rows Z)} ≤ Nat.card {rows : Fin (E + 2) → KeyRow // q (build labels rows Z)} := by
  classical
  have : Nonempty Blocks := ⟨Z⟩
  have hpos : 0 < Nat.card Blocks := Nat.card_pos
  refine Nat.le_of_mul_le_mul_left ?_ hpos
  rw [← Nat.card_prod, ← Nat.card_prod]
  let rows' : Blocks → (Fin (E + 2) → KeyRow) → Fin (E + 2) → KeyRow := fun Z' rows a =>
    if a.val < E then relink (link (rows a)) fun y => e (build labels rows Z') (labels a, y)
    else fun y => e (build labels rows Z') (labels a, y)
  let rest' : Blocks → (Fin (E + 2) → KeyRow) → Blocks := fun Z' rows x =>
    if ∃ a, labels a = x.1 then Z' x else e (build labels rows Z') x
  have hb : ∀ Z' rows, build labels (rows' Z' rows) (rest' Z' rows) = e (build labels rows Z') := by
    intro Z' rows
    funext x
    by_cases hx : ∃ a, labels a = x.1
    · obtain ⟨a, ha⟩ := hx
      obtain ⟨k, y⟩ := x
      simp only at ha
      subst ha
      refine (patch_at hl _ _ a y).trans ?_
      unfold chained
      simp only [rows']
      by_cases hE : a.val < E
      · rw [dif_pos hE, if_pos hE, relink_relink]
        have hlink : labels ⟨a.val + 1, by omega⟩ = link fun y => e (build labels rows Z') (labels a, y) := by
          show _ = half (e (build labels rows Z') (labels a, CipherState.rekeyNonce, 1))
          rw [he]
          exact (link_build hl rows Z' hE).symm
        rw [hlink, relink_link]
      · rw [dif_neg hE, if_neg hE]
    · have hx' : ∀ a, labels a ≠ x.1 := fun a h => hx ⟨a, h⟩
      refine (patch_off _ _ hx').trans ?_
      simp only [rest', if_neg hx]
  refine Nat.card_le_card_of_injective
    (fun z : Blocks × {rows : Fin (E + 2) → KeyRow // p (build labels rows Z)} =>
      ((rest' z.1 z.2.1, ⟨rows' z.1 z.2.1, hq _ _ _ (hpq _ _ _ _ (hb z.1 z.2.1).symm (hp _ _ _ z.2.2))⟩) :
        Blocks × {rows : Fin (E + 2) → KeyRow // q (build labels rows Z)})) ?_
  rintro ⟨Z1, r1, h1⟩ ⟨Z2, r2, h2⟩ h
  obtain ⟨e1, e2⟩ := Prod.mk.inj h
  simp only [Subtype.mk.injEq] at e1 e2
  have hB : build labels r1 Z1 = build labels r2 Z2 := by
    apply e.injective
    rw [← hb, ← hb, e1, e2]
  have hw : ((labels, Z1, r1) : Whole E) = (labels, Z2, r2) := by
    refine shown_inj hl hl (Prod.ext (Prod.ext rfl hB) (Prod.ext ?_ ?_))
    · funext a x
      have := congrFun e1 (labels a, x)
      simp only [rest', if_pos (⟨a, rfl⟩ : ∃ b, labels b = labels a)] at this
      exact this
    · funext j
      have := congrArg link (congrFun e2 ⟨j.val, by omega⟩)
      simp only [rows', if_pos j.isLt, link_relink] at this
      exact this
  obtain ⟨-, hw⟩ := Prod.mk.inj hw
  obtain ⟨hZ, hr⟩ := Prod.mk.inj hw
  subst hZ hr
  rfl

/-- Good worlds are real ones, and almost all are good. -/
theorem card_real (log : Blocks × (Fin (E + 2) → KeyRow) → List (Arr 32)) {n : Nat} (hn : ∀ z, (log z).length ≤ n)
    (p : (Arr 32 × Arr 32) × Blocks → Prop) (q : Blocks × (Fin (E + 2) → KeyRow) → Prop)
    (hp : ∀ w : Whole E, Good log w → q w.2 → p (seat w.1 0, build w.1 w.2.2 w.2.1)) :
    2 ^ 256 * Nat.card {w : Whole E // q w.2} ≤ (2 ^ 256 * Nat.card {x // p x} +
      (E + 2) * (n + E + 2) * Nat.card ((Arr 32 × Arr 32) × Blocks)) * Nat.card (Rest E) := by
  classical
  have hgood : Nat.card {w : Whole E // Good log w ∧ q w.2} ≤ Nat.card {x // p x} * Nat.card (Rest E) := by
    rw [← Nat.card_prod]
    refine Nat.card_le_card_of_injective (fun w : {w : Whole E // Good log w ∧ q w.2} =>
      ((⟨(shown w.1).1, hp w.1 w.2.1 w.2.2⟩ : {x // p x}), (shown w.1).2)) fun w w' h => ?_
    obtain ⟨h1, h2⟩ := Prod.mk.inj h
    exact Subtype.ext (shown_inj w.2.1.inj w'.2.1.inj (Prod.ext (congrArg Subtype.val h1) h2))
  have hsum : Nat.card {w : Whole E // q w.2} ≤ Nat.card {w : Whole E // Good log w ∧ q w.2} + Nat.card {w : Whole E // ¬ Good log w} :=
    card_imp_or fun w hw => by
      by_cases hg : Good log w
      · exact .inl ⟨hg, hw⟩
      · exact .inr hg
  have h3 := card_whole (E := E)
  have h4 := few_not_good log hn
  calc 2 ^ 256 * Nat.card {w : Whole E // q w.2}
      ≤ 2 ^ 256 * (Nat.card {x // p x} * Nat.card (Rest E) + Nat.card {w : Whole E // ¬ Good log w}) :=
        Nat.mul_le_mul_left _ (Nat.le_trans hsum (Nat.add_le_add_right hgood _))
    _ = 2 ^ 256 * Nat.card {x // p x} * Nat.card (Rest E) + 2 ^ 256 * Nat.card {w : Whole E // ¬ Good log w} := by ring
    _ ≤ 2 ^ 256 * Nat.card {x // p x} * Nat.card (Rest E) + (E + 2) * (n + E + 2) * Nat.card (Whole E) := Nat.add_le_add_left h4 _
    _ = _ := by rw [h3]; ring

end Renewal
end SV2.Stack
