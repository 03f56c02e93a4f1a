import Verif.Spec.Lurk
import Verif.Lemmas.LurkCount
import Verif.Lemmas.Tap
import Verif.Lemmas.OnwardTalk
/-!
# The program for an attacker on the network that has the two sides rekey

As in `Verif/Lemmas/VeilEar.lean`; the rows of the later keys are got as in `Verif/Lemmas/Tap.lean`.
-/

namespace SV2.Noise.Veiled
open SV2.Veil SV2.Stack SV2.Stack.Renewal
open SV2.Noise.Distant (gathered trail seat_trail trail_rekeyed trail_like rowPrims heldTo opted build_again listen_mono)

section
variable (P : Prims) {M : Nat} (far : Bytes → Arr 32) (h0 : Arr 32) (D : List (Arr 32)) (rest : Arr 32 → Arr 12 → Nat → UInt8)

def bugJob (snoop : Snoop) (Q' : Prims) (second : Bool) : Nat → Duo → List Seen → Job M h0 D (List Seen)
  | 0, _, seen => .ret seen
  | j + 1, s, seen => (attackJob P far h0 D (snoop.next seen)).bind fun mv =>
    let r := s.act Q' second mv
    bugJob snoop Q' second j r.2.2 (seen ++ [Seen.blind ⟨r.1, r.2.1, r.2.2.1, r.2.2.2⟩])

/-- And what the attacker says in the end. -/
def bugSayJob (snoop : Snoop) (Q' : Prims) (second : Bool) (rounds : Nat) (s : Duo) : Job M h0 D Bool :=
  (bugJob P far h0 D snoop Q' second rounds s []).bind fun v => attackJob P far h0 D (snoop.verdict v)

open Classical in
/-- The rows of the later keys, and then the attacker; `dflt` if a key is empty. -/
noncomputable def bugLateJob (snoop : Snoop) {E : Nat} (labels : Fin (E + 2) → Arr 32) (rounds : Nat) (dflt second : Bool) (s : Duo)
    (a b : KeyRow) : Job M h0 D Bool :=
  (laterJob h0 D a E).bind fun f => if ∃ e < E, link (f e) = EMPTY then .ret dflt
    else bugSayJob P far h0 D snoop (rowPrims P rest labels (gathered E f b)) second rounds s

/-- All of it. -/
noncomputable def lurkJob (prologue : Bytes) (eI : Arr 32) (first : Bytes) (servers : List (Arr 32)) (impostor : Curious Bytes)
    (snoop : Snoop) {E : Nat} (labels : Fin (E + 2) → Arr 32) (rounds : Nat) (dflt second : Bool) : Job M h0 D Bool :=
  (preJob P far h0 D prologue eI first impostor).bind (withRows (chosen P h0 D prologue eI first servers) fun x a b =>
    bugLateJob P far h0 D rest snoop labels rounds dflt second (talking x.2.2.2 x.2.2.1 (seat labels 0)) a b)

theorem bugJob_modest (snoop : Snoop) (Q' : Prims) (second : Bool) (j : Nat) (s : Duo) (seen : List Seen) :
    (bugJob (M := M) P far h0 D snoop Q' second j s seen).Modest := by
  induction j generalizing s seen with
  | zero => trivial
  | succ j ih => exact (attackJob_modest P far h0 D _).bind fun t => ih _ _

theorem laterJob_modest (r : KeyRow) (e : Nat) : (laterJob (M := M) h0 D r e).Modest := by
  induction e with
  | zero => trivial
  | succ e ih => exact ih.bind fun f r' => trivial

theorem bugLateJob_modest (snoop : Snoop) {E : Nat} (labels : Fin (E + 2) → Arr 32) (rounds : Nat) (dflt second : Bool) (s : Duo)
    (a b : KeyRow) : (bugLateJob (M := M) P far h0 D rest snoop labels rounds dflt second s a b).Modest := by
  refine (laterJob_modest h0 D a E).bind fun f => ?_
  split
  · trivial
  · exact (bugJob_modest P far h0 D _ _ _ _ _ _).bind fun _ => attackJob_modest P far h0 D _

theorem bugJob_calls (snoop : Snoop) (Q' : Prims) (second : Bool) (m : Nat) (hm : ∀ past, (snoop.next past).Within M m)
    (j : Nat) (s : Duo) (seen : List Seen) : Calls (M := M) h0 D (20 * (j * m)) (bugJob P far h0 D snoop Q' second j s seen) := by
  induction j generalizing s seen with
  | zero => exact (Calls.ret _).mono (by omega)
  | succ j ih =>
    refine ((attackJob_calls P far h0 D _ m (hm _)).bind fun t => ih _ _).mono ?_
    have := Nat.add_one_mul j m
    omega

theorem bugSayJob_calls (snoop : Snoop) (Q' : Prims) (second : Bool) (m : Nat) (hm : ∀ past, (snoop.next past).Within M m)
    (hv : ∀ past, (snoop.verdict past).Within M m) (rounds : Nat) (s : Duo) :
    Calls (M := M) h0 D (20 * ((rounds + 1) * m)) (bugSayJob P far h0 D snoop Q' second rounds s) := by
  refine ((bugJob_calls P far h0 D snoop Q' second m hm rounds s []).bind fun v => attackJob_calls P far h0 D _ m (hv v)).mono ?_
  have := Nat.add_one_mul rounds m
  omega

theorem preJob_calls (prologue : Bytes) (eI : Arr 32) (first : Bytes) (impostor : Curious Bytes) (n : Nat) (hn : impostor.Within M n) :
    Calls (M := M) h0 D (20 * n + 13) (preJob P far h0 D prologue eI first impostor) :=
  (attackJob_calls P far h0 D _ n (recorded_within impostor [] n hn)).bind fun _ =>
    (earlyJob_calls P far h0 D _ _ _ _).bind fun _ => Calls.ret _

theorem lurkJob_calls (prologue : Bytes) (eI : Arr 32) (first : Bytes) (servers : List (Arr 32)) (impostor : Curious Bytes)
    (snoop : Snoop) {E : Nat} (labels : Fin (E + 2) → Arr 32) (rounds n m : Nat) (hn : impostor.Within M n)
    (hm : ∀ past, (snoop.next past).Within M m) (hv : ∀ past, (snoop.verdict past).Within M m) (dflt second : Bool) :
    Calls (M := M) h0 D (20 * (n + (rounds + 1) * m + 1) + E)
      (lurkJob P far h0 D rest prologue eI first servers impostor snoop labels rounds dflt second) := by
  refine ((preJob_calls P far h0 D prologue eI first impostor n hn).bind (b := E + 20 * ((rounds + 1) * m) + 1) fun x => ?_).mono (by omega)
  intro w
  unfold withRows
  split
  · exact Nat.zero_le _
  · refine Nat.succ_le_succ (((laterJob_calls h0 D _ E).bind fun f => ?_) w)
    split
    · exact (Calls.ret _).mono (Nat.zero_le _)
    · exact bugSayJob_calls P far h0 D snoop _ second m hm hv rounds _

end

/-! ## Whichever text is sent -/

section
variable (P : Prims) {M : Nat} {far : Bytes → Arr 32} {h0 : Arr 32} {D : List (Arr 32)} (rest : Arr 32 → Arr 12 → Nat → UInt8)
variable {E : Nat} {labels : Fin (E + 2) → Arr 32} (hl : Function.Injective labels) (hl0 : ∀ a, labels a ≠ EMPTY)

/-- The program is the same for other keys with the same rows. -/
theorem bugJob_clad {Q Q' : Prims} {keys labels : Fin (E + 2) → Arr 32} (hL : ∀ a, Like Q Q' (keys a) (labels a))
    (hK : ∀ (s : NoiseSession) (e : Nat) remote, e < E → (s.dressed (seat keys e)).rekeyed Q remote = s.dressed (seat keys (e + 1)))
    (hK' : ∀ (s : NoiseSession) (e : Nat) remote, e < E → s.Wears (seat labels e) →
      s.rekeyed Q' remote = s.dressed (seat labels (e + 1))) (snoop : Snoop) (second : Bool) (rounds : Nat) {a b : Nat}
    {s : Duo} (h1 : s.1.Wears (seat labels a)) (h2 : s.2.Wears (seat labels b)) (ha : a + rounds ≤ E) (hb : b + rounds ≤ E)
    (seen : List Seen) :
    bugJob (M := M) P far h0 D snoop Q second rounds (cladDuo keys a b s) seen = bugJob P far h0 D snoop Q' second rounds s seen := by
  induction rounds generalizing a b s seen with
  | zero => rfl
  | succ n ih =>
    unfold bugJob
    congr 1
    funext mv
    obtain ⟨a', b', la, lb, w1, w2, e⟩ := act_clad hL hK hK' h1 h2 (by omega) (by omega) second mv
    simp only [e]
    exact ih w1 w2 (by omega) (by omega) _

include hl hl0 in
theorem bugJob_run (A : Deep h0 D → Ask M) (w : World (Ask M) (Arr 32) (Deep h0 D) KeyRow) (snoop : Snoop) (rows : Fin (E + 2) → KeyRow) (Z : Blocks)
    (second : Bool) {f : List Seen → Option Move}
    (hf : ∀ v, f v = ((attackJob P far h0 D (snoop.next v)).guard A).run w) (rounds : Nat) {s : Duo} {a b : Nat}
    (h1 : s.1.Wears (seat labels a)) (h2 : s.2.Wears (seat labels b)) (ha : a + rounds ≤ E) (hb : b + rounds ≤ E)
    (l : List Seen) (hl' : ∀ j < l.length, f ((l.take j).map Seen.blind) ≠ none) :
    ((bugJob P far h0 D snoop (P.withBlocks rest (build labels rows Z)) second rounds s (l.map Seen.blind)).guard A).run w =
      heldTo f (Duo.play (P.withBlocks rest (build labels rows Z)) second (opted f) rounds s l) := by
  obtain ⟨Q', hQ'⟩ : ∃ Q', Q' = P.withBlocks rest (build labels rows Z) := ⟨_, rfl⟩
  have hL : ∀ a, Like Q' Q' (labels a) (labels a) := by
    rw [hQ']
    exact build_like_any P rest hl hl hl0 hl0 rows Z Z
  have hK := build_dressed P rest hl rows Z
  rw [← hQ'] at hK ⊢
  induction rounds generalizing s l a b with
  | zero => exact (if_pos hl').symm
  | succ rounds ih =>
    have hne : s.1.cs1.k ≠ s.2.cs2.k := by
      rw [h1.k1, h2.k2]
      intro e
      have := congrArg Fin.val (hl e)
      simp only at this
      omega
    unfold bugJob
    rw [Prog.guard_run_bind, ← hf]
    unfold Duo.play
    rw [if_neg hne]
    rcases hc : f (l.map Seen.blind) with _ | t
    · have hp := Duo.play_prefix Q' second (opted f) rounds (s.act Q' second (opted f l)).2.2
        (l ++ [⟨(s.act Q' second (opted f l)).1, (s.act Q' second (opted f l)).2.1,
          (s.act Q' second (opted f l)).2.2.1, (s.act Q' second (opted f l)).2.2.2⟩])
      obtain ⟨l', hl''⟩ := hp
      simp only [Option.bind_none]
      symm
      refine if_neg fun h => h l.length ?_ ?_
      · rw [← hl'', List.length_append, List.length_append]
        simp only [List.length_cons]
        omega
      · rw [← hl'', List.append_assoc, List.take_left' rfl]
        exact hc
    · have e : opted f l = t := by unfold opted; rw [hc]; rfl
      obtain ⟨a', b', la, lb, w1, w2, -⟩ := act_clad (keys := labels) hL hK (fun x e remote he hx => by
        have := hK x e remote he
        rwa [hx.eq] at this) h1 h2 (by omega) (by omega) second t
      simp only [Option.bind_some, e]
      rw [← ih w1 w2 (by omega) (by omega)]
      · rw [List.map_append]
        rfl
      · intro j hj
        rw [List.length_append] at hj
        by_cases h : j < l.length
        · rw [List.take_append_of_le_length (by omega)]
          exact hl' j h
        · have : j = l.length := by simp only [List.length_cons, List.length_nil] at hj; omega
          subst this
          rw [List.take_left' rfl, hc]
          exact Option.some_ne_none _

include hl hl0 in
/-- With blocks of their own for all keys, it makes no difference which texts are sent. -/
theorem bugSayJob_alike (A : Deep h0 D → Ask M) (w : World (Ask M) (Arr 32) (Deep h0 D) KeyRow) (snoop : Snoop) {rounds : Nat} {start : Duo}
    (h1 : start.1.Wears (seat labels 0)) (h2 : start.2.Wears (seat labels 0)) (hi : start.1.i = true)
    (hr : start.2.i = false) (hE : rounds ≤ E) (second : Bool) :
    Nat.card {rows : Fin (E + 2) → KeyRow //
      ((bugSayJob P far h0 D snoop (rowPrims P rest labels rows) second rounds start).guard A).run w = some true} ≤
    Nat.card {rows : Fin (E + 2) → KeyRow //
      ((bugSayJob P far h0 D snoop (rowPrims P rest labels rows) (!second) rounds start).guard A).run w = some true} := by
  obtain ⟨f, hf⟩ : ∃ f : List Seen → Option Move,
      ∀ v, f v = ((attackJob P far h0 D (snoop.next v)).guard A).run w := ⟨_, fun _ => rfl⟩
  let test : List Seen → Prop := fun l =>
    ((heldTo f l).bind fun v => ((attackJob P far h0 D (snoop.verdict v)).guard A).run w) = some true
  let played : Bool → Blocks → Prop := fun second B => ((bugSayJob P far h0 D snoop (P.withBlocks rest B) second rounds start).guard A).run w =
    some true
  have e1 : ∀ second rows Z, played second (build labels rows Z) ↔
      test (Duo.play (P.withBlocks rest (build labels rows Z)) second (opted f) rounds start []) := by
    intro second rows Z
    have := bugJob_run P rest hl hl0 A w snoop rows Z second hf rounds h1 h2 (by omega) (by omega) []
      (fun j hj => absurd hj (Nat.not_lt_zero _))
    rw [List.map_nil] at this
    simp only [played]
    unfold bugSayJob
    rw [Prog.guard_run_bind, this]
  obtain ⟨e, he, hk⟩ := Duo.blocks_swap P rest start.1 start.2 hi hr h1.mc h2.mc (opted f) rounds
  have hany : ∀ second rows Z Z', played second (build labels rows Z) → played second (build labels rows Z') := by
    intro second rows Z Z' h
    have hc := bugJob_clad P (M := M) (far := far) (h0 := h0) (D := D) (build_like_any P rest hl hl hl0 hl0 rows Z Z') (build_dressed P rest hl rows Z)
      (build_rekeyed P rest hl rows Z') snoop second rounds h1 h2 (by omega) (by omega) []
    have hs : cladDuo labels 0 0 start = start := Prod.ext h1.eq h2.eq
    rw [hs] at hc
    simp only [played] at h ⊢
    unfold bugSayJob at h ⊢
    rw [← hc]
    exact h
  show Nat.card {rows // played second (build labels rows _)} ≤ Nat.card {rows // played (!second) (build labels rows _)}
  cases second with
  | false =>
    refine card_rows hl e hk (fun rows Z1 rows' Z2 h hp => ?_) (hany _) (hany _) _
    rw [e1] at hp
    rw [Bool.not_false, e1, ← h]
    have := he (build labels rows Z1)
    rw [Prod.mk.eta] at this
    rw [← this]
    exact hp
  | true =>
    have hk' : ∀ B k c, e.symm B (k, CipherState.rekeyNonce, c) = B (k, CipherState.rekeyNonce, c) := by
      intro B k c
      have := hk (e.symm B) k c
      rw [e.apply_symm_apply] at this
      exact this.symm
    refine card_rows hl e.symm hk' (fun rows Z1 rows' Z2 h hp => ?_) (hany _) (hany _) _
    rw [e1] at hp
    rw [Bool.not_true, e1, ← h]
    have := he (e.symm (build labels rows Z1))
    rw [Prod.mk.eta, e.apply_symm_apply] at this
    rw [this]
    exact hp

/-! ## The rows of the later keys -/

/-- The keys whose rows are asked for. -/
def wanted (L : Log M h0 D) : List (Arr 32) := L.filterMap fun | .row k => some k | _ => none

theorem mem_wanted {L : Log M h0 D} {k : Arr 32} : k ∈ wanted L ↔ .row k ∈ L := by
  unfold wanted
  rw [List.mem_filterMap]
  constructor
  · rintro ⟨e, he, h⟩
    cases e <;> simp_all
  · exact fun h => ⟨_, h, rfl⟩

theorem wanted_length (L : Log M h0 D) : (wanted L).length ≤ L.length := List.length_filterMap_le _ _

/-- The rows of the later keys are there, with others for the first two keys. -/
theorem laterJob_late (A : Deep h0 D → Ask M) {w : World (Ask M) (Arr 32) (Deep h0 D) KeyRow} {d : Arr 32 × Arr 32} {later : Fin E → Arr 32}
    (hinj : Function.Injective (joined d later)) (rows : Fin (E + 2) → KeyRow) (C : Blocks) (c : KeyRow × KeyRow)
    (hw : w.row = fun k x => veil d c (build (joined d later) rows C) (k, x)) {j : Nat} (hj : j ≤ E) :
    ∃ f, ((laterJob h0 D (fun x => build (joined d later) rows C (d.1, x)) j).guard A).run w = some f ∧
      ∀ e (he : e ≤ j), f e = fun x => build (joined d later) rows C (joined d later ⟨e, by omega⟩, x) := by
  induction j with
  | zero =>
    refine ⟨_, rfl, fun e he => ?_⟩
    obtain rfl := Nat.le_zero.mp he
    rfl
  | succ j ih =>
    obtain ⟨f, hf, hrow⟩ := ih (by omega)
    unfold laterJob
    rw [Prog.guard_run_bind, hf]
    refine ⟨_, rfl, fun e he => ?_⟩
    have hlink : link (f j) = joined d later ⟨j + 1, by omega⟩ := by
      rw [hrow j (Nat.le_refl _)]
      exact link_build hinj rows C (by omega)
    by_cases h : e = j + 1
    · subst h
      rw [Function.update_self]
      funext x
      rw [hw]
      show veil d c _ (link (f j), x) = _
      rw [hlink]
      have n1 : joined d later ⟨j + 1, by omega⟩ ≠ d.1 := by
        rw [← joined_zero d later]
        intro e
        have := congrArg Fin.val (hinj e)
        simp only at this
        omega
      have n2 : joined d later ⟨j + 1, by omega⟩ ≠ d.2 := by
        rw [← joined_last d later]
        intro e
        have := congrArg Fin.val (hinj e)
        simp only at this
        omega
      unfold veil
      simp only [if_neg n1, if_neg n2]
    · rw [Function.update_of_ne h]
      exact hrow e (by omega)

theorem bugLateJob_late (A : Deep h0 D → Ask M) {w : World (Ask M) (Arr 32) (Deep h0 D) KeyRow} (snoop : Snoop) (rounds : Nat)
    (dflt second : Bool) (start : Duo) {d : Arr 32 × Arr 32} {later : Fin E → Arr 32}
    (hinj : Function.Injective (joined d later)) (hfull : ∀ e, later e ≠ EMPTY) (rows : Fin (E + 2) → KeyRow) (C : Blocks) (c : KeyRow × KeyRow)
    (hw : w.row = fun k x => veil d c (build (joined d later) rows C) (k, x)) :
    ((bugLateJob P far h0 D rest snoop labels rounds dflt second start (fun x => build (joined d later) rows C (d.1, x))
        (fun x => build (joined d later) rows C (d.2, x))).guard A).run w =
      ((bugSayJob P far h0 D snoop (rowPrims P rest labels rows) second rounds start).guard A).run w := by
  obtain ⟨f, hf, hrow⟩ := laterJob_late A hinj rows C c hw (Nat.le_refl E)
  unfold bugLateJob
  rw [Prog.guard_run_bind, hf, Option.bind_some, if_neg]
  · have hg : gathered E f (fun x => build (joined d later) rows C (d.2, x)) = chained (joined d later) rows := by
      funext a
      unfold gathered
      by_cases h : a.val ≤ E
      · rw [if_pos h, hrow _ h]
        funext x
        exact patch_at hinj _ _ _ _
      · rw [if_neg h]
        funext x
        have ha : a = ⟨E + 1, by omega⟩ := Fin.ext (by show a.val = E + 1; omega)
        rw [ha, ← joined_last d later]
        exact patch_at hinj _ _ _ _
    rw [hg]
    have hp : rowPrims P rest labels (chained (joined d later) rows) = rowPrims P rest labels rows := by
      unfold rowPrims
      rw [build_again]
    rw [hp]
  · rintro ⟨e, he, h⟩
    rw [hrow e (by omega)] at h
    refine hfull ⟨e, he⟩ ?_
    rw [← joined_later d later]
    exact (link_build hinj rows C he).symm.trans h

/-- The attacker with all rows given. -/
noncomputable def boldJob (prologue : Bytes) (eI : Arr 32) (first : Bytes) (servers : List (Arr 32)) (impostor : Curious Bytes)
    (snoop : Snoop) {E : Nat} (labels : Fin (E + 2) → Arr 32) (rounds : Nat) (rows : Fin (E + 2) → KeyRow) (second : Bool) : Job M h0 D Bool :=
  (preJob P far h0 D prologue eI first impostor).bind fun x => if (chosen P h0 D prologue eI first servers x).isSome then
    bugSayJob P far h0 D snoop (rowPrims P rest labels rows) second rounds (talking x.2.2.2 x.2.2.1 (seat labels 0)) else .ret false

/-- The world with these hashes and rows. -/
def calmed (Z : Place (Ask M) (Deep h0 D) → Arr 32) (U : Deep h0 D → KeyRow) (C : Blocks) :
    World (Ask M) (Arr 32) (Deep h0 D) KeyRow := calm (fun _ => Arr.replicate 64 0) Z U fun k x => C (k, x)

theorem lurkJob_fresh (A : Deep h0 D → Ask M) (Z : Place (Ask M) (Deep h0 D) → Arr 32) (U : Deep h0 D → KeyRow) (prologue : Bytes)
    (eI : Arr 32) (first : Bytes) (servers : List (Arr 32)) (impostor : Curious Bytes) (snoop : Snoop) (rounds : Nat) (dflt second : Bool)
    {d : Arr 32 × Arr 32} {later : Fin E → Arr 32} (hinj : Function.Injective (joined d later)) (hfull : ∀ e, later e ≠ EMPTY)
    (rows : Fin (E + 2) → KeyRow) (C : Blocks) (c : KeyRow × KeyRow)
    (hoff : ∀ e, later e ∉ wanted (((boldJob P (far := far) rest prologue eI first servers impostor snoop labels rounds rows second).guard A).log
      (calmed Z U (veil d c C)))) :
    behind A (fun _ => Arr.replicate 64 0) (preJob P far h0 D prologue eI first impostor) (chosen P h0 D prologue eI first servers)
      (fun x a b => bugLateJob P far h0 D rest snoop labels rounds dflt second (talking x.2.2.2 x.2.2.1 (seat labels 0)) a b) (Z, U)
      ((fun x => build (joined d later) rows C (d.1, x), fun x => build (joined d later) rows C (d.2, x)),
        fun k x => veil d c (build (joined d later) rows C) (k, x)) ↔
    ((boldJob P (far := far) rest prologue eI first servers impostor snoop labels rounds rows second).guard A).run (calmed Z U (veil d c C)) =
      some true := by
  have hc : ((boldJob P (far := far) rest prologue eI first servers impostor snoop labels rounds rows second).guard A).run
      (calmed Z U (veil d c (build (joined d later) rows C))) =
      ((boldJob P (far := far) rest prologue eI first servers impostor snoop labels rounds rows second).guard A).run
        (calmed Z U (veil d c C)) := by
    refine (Prog.congr _ _ _ ?_).1
    rintro (x | k | q) hx
    · rfl
    · show (fun x => veil d c (build (joined d later) rows C) (k, x)) = fun x => veil d c C (k, x)
      funext x
      unfold veil
      by_cases h1 : k = d.1
      · simp only [if_pos h1]
      by_cases h2 : k = d.2
      · simp only [if_neg h1, if_pos h2]
      simp only [if_neg h1, if_neg h2]
      refine patch_off _ _ fun a e => ?_
      simp only at e
      rcases fin_cases a with rfl | rfl | ⟨e', rfl⟩
      · exact h1 e.symm
      · rw [joined_last] at e
        exact h2 e.symm
      · rw [joined_later] at e
        exact hoff e' (mem_wanted.mpr (e ▸ hx))
    · show (calmed Z U _).mix q = (calmed Z U _).mix q
      refine Prod.ext ?_ rfl
      funext j
      fin_cases j <;> rfl
  rw [← hc]
  unfold behind boldJob
  rw [Prog.guard_run_bind]
  refine Eq.congr_left (congrArg (Option.bind _) (funext fun x => ?_))
  split
  · exact bugLateJob_late P rest A snoop rounds dflt second _ hinj hfull rows C c rfl
  · rfl

set_option maxHeartbeats 1000000 in
include hl hl0 in
/-- For a random cipher it makes little difference which texts are sent. -/
theorem behind_near (A : Deep h0 D → Ask M) (u : (Place (Ask M) (Deep h0 D) → Arr 32) × (Deep h0 D → KeyRow)) (prologue : Bytes)
    (eI : Arr 32) (first : Bytes) (servers : List (Arr 32)) (impostor : Curious Bytes) (snoop : Snoop) {rounds : Nat} (hE : rounds ≤ E)
    (n m : Nat) (hn : impostor.Within M n) (hm : ∀ past, (snoop.next past).Within M m) (hv : ∀ past, (snoop.verdict past).Within M m)
    (dflt dflt' second : Bool) :
    2 ^ 256 * Nat.card {y : (KeyRow × KeyRow) × (Arr 32 → KeyRow) // behind A (fun _ => Arr.replicate 64 0)
      (preJob P far h0 D prologue eI first impostor) (chosen P h0 D prologue eI first servers)
      (fun x a b => bugLateJob P far h0 D rest snoop labels rounds dflt second (talking x.2.2.2 x.2.2.1 (seat labels 0)) a b) u y} ≤
    2 ^ 256 * Nat.card {y : (KeyRow × KeyRow) × (Arr 32 → KeyRow) // behind A (fun _ => Arr.replicate 64 0)
      (preJob P far h0 D prologue eI first impostor) (chosen P h0 D prologue eI first servers)
      (fun x a b => bugLateJob P far h0 D rest snoop labels rounds dflt' (!second) (talking x.2.2.2 x.2.2.1 (seat labels 0)) a b) u y} +
      2 * (E * (20 * (n + (rounds + 1) * m + 1) + E + 2)) * Nat.card ((KeyRow × KeyRow) × (Arr 32 → KeyRow)) := by
  obtain ⟨Z, U⟩ := u
  let d : Arr 32 × Arr 32 := (Arr.replicate 32 1, Arr.replicate 32 2)
  have hd : d.1 ≠ d.2 := by decide
  let φ : Bool → Bool → KeyRow × KeyRow → Blocks → Prop := fun dflt second r C => behind A (fun _ => Arr.replicate 64 0)
      (preJob P far h0 D prologue eI first impostor) (chosen P h0 D prologue eI first servers)
      (fun x a b => bugLateJob P far h0 D rest snoop labels rounds dflt second (talking x.2.2.2 x.2.2.1 (seat labels 0)) a b) (Z, U)
      (r, fun k x => C (k, x))
  let cur : (KeyRow × KeyRow) × (Arr 32 → KeyRow) ≃ (KeyRow × KeyRow) × Blocks :=
    (Equiv.refl _).prodCongr (Equiv.curry (Arr 32) (Arr 12 × Fin 1025) (Arr 64)).symm
  have hsw : ∀ dflt second, Nat.card {y : (KeyRow × KeyRow) × (Arr 32 → KeyRow) // behind A (fun _ => Arr.replicate 64 0)
      (preJob P far h0 D prologue eI first impostor) (chosen P h0 D prologue eI first servers)
      (fun x a b => bugLateJob P far h0 D rest snoop labels rounds dflt second (talking x.2.2.2 x.2.2.1 (seat labels 0)) a b) (Z, U) y} =
      Nat.card {z : (KeyRow × KeyRow) × Blocks // φ dflt second ((veiling hd z).1) ((veiling hd z).2)} := fun dflt second =>
    (Nat.card_congr (cur.subtypeEquiv (q := fun z => φ dflt second z.1 z.2) fun z => Iff.rfl)).trans
      (Nat.card_congr ((veiling hd).subtypeEquiv fun z => Iff.rfl)).symm
  rw [hsw, hsw, Nat.card_congr cur]
  refine card_prod_diff (2 ^ 256) (2 * (E * (20 * (n + (rounds + 1) * m + 1) + E + 2)))
    (fun c B => φ dflt second (veiling hd (c, B)).1 (veiling hd (c, B)).2)
    (fun c B => φ dflt' (!second) (veiling hd (c, B)).1 (veiling hd (c, B)).2) fun c => ?_
  let job : Bool → (Fin (E + 2) → KeyRow) → Job M h0 D (Option Bool) := fun second rows =>
    (boldJob P (far := far) rest prologue eI first servers impostor snoop labels rounds rows second).guard A
  have hn : ∀ second (z : Blocks × (Fin (E + 2) → KeyRow)),
      (wanted ((job second z.2).log (calmed Z U (veil d c z.1)))).length ≤ 20 * (n + (rounds + 1) * m + 1) := fun second z => by
    refine (wanted_length _).trans ((Prog.guard_prefix _ _ _).length_le.trans ((((preJob_calls P far h0 D prologue eI first impostor n hn).bind
      (b := 20 * ((rounds + 1) * m)) fun x => ?_).mono (by omega)) _))
    split
    · exact bugSayJob_calls P far h0 D snoop _ second m hm hv rounds _
    · exact (Calls.ret _).mono (Nat.zero_le _)
  refine near_later hd (fun z => wanted ((job second z.2).log (calmed Z U (veil d c z.1))))
    (fun z => wanted ((job (!second) z.2).log (calmed Z U (veil d c z.1)))) (hn _) (hn _) _ _
    (fun z => (job second z.2).run (calmed Z U (veil d c z.1)) = some true)
    (fun z => (job (!second) z.2).run (calmed Z U (veil d c z.1)) = some true) (fun w hw => ?_) (fun w hw => ?_) fun C => ?_
  · exact lurkJob_fresh P rest A Z U prologue eI first servers impostor snoop rounds dflt second hw.inj hw.full w.2.2 w.2.1 c hw.off
  · exact lurkJob_fresh P rest A Z U prologue eI first servers impostor snoop rounds dflt' (!second) hw.inj hw.full w.2.2 w.2.1 c hw.off
  · have hrun : ∀ second rows, (job second rows).run (calmed Z U (veil d c C)) =
        (((preJob P far h0 D prologue eI first impostor).guard A).run (calmed Z U (veil d c C))).bind fun x =>
          ((if (chosen P h0 D prologue eI first servers x).isSome then
            bugSayJob P far h0 D snoop (rowPrims P rest labels rows) second rounds (talking x.2.2.2 x.2.2.1 (seat labels 0))
              else .ret false).guard A).run (calmed Z U (veil d c C)) := fun second rows => Prog.guard_run_bind _ _ _ _
    simp only [hrun]
    rcases ((preJob P far h0 D prologue eI first impostor).guard A).run (calmed Z U (veil d c C)) with _ | x
    · simp
    · simp only [Option.bind_some]
      by_cases hx : (chosen P h0 D prologue eI first servers x).isSome = true
      · simp only [hx, if_true]
        exact bugSayJob_alike (far := far) (h0 := h0) P rest hl hl0 A (calmed Z U (veil d c C)) snoop ⟨rfl, rfl, Nat.le_refl _⟩
          ⟨rfl, rfl, Nat.le_refl _⟩ rfl rfl hE second
      · simp only [hx]
        exact Nat.le_refl _

include hl hl0 in
theorem lurkJob_alike [Finite (Ask M)] (A : Deep h0 D → Ask M) (prologue : Bytes)
    (eI : Arr 32) (first : Bytes) (servers : List (Arr 32)) (impostor : Curious Bytes) (snoop : Snoop) {rounds : Nat} (hE : rounds ≤ E)
    (n m : Nat) (hn : impostor.Within M n) (hm : ∀ past, (snoop.next past).Within M m) (hv : ∀ past, (snoop.verdict past).Within M m)
    (dflt dflt' second : Bool) :
    2 ^ 256 * Nat.card {z : (Place (Ask M) (Deep h0 D) → Arr 32) × (Arr 32 ⊕ Deep h0 D × Fin 3 → KeyRow) //
      ((lurkJob P far h0 D rest prologue eI first servers impostor snoop labels rounds dflt second).guard A).run
        (ideal z.1 z.2) = some true} ≤
    2 ^ 256 * Nat.card {z : (Place (Ask M) (Deep h0 D) → Arr 32) × (Arr 32 ⊕ Deep h0 D × Fin 3 → KeyRow) //
      ((lurkJob P far h0 D rest prologue eI first servers impostor snoop labels rounds dflt' (!second)).guard A).run
        (ideal z.1 z.2) = some true} + 2 * (E * (20 * (n + (rounds + 1) * m + 1) + E + 2)) *
          Nat.card ((Place (Ask M) (Deep h0 D) → Arr 32) × (Arr 32 ⊕ Deep h0 D × Fin 3 → KeyRow)) := by
  have : Nonempty KeyRow := ⟨fun _ => Arr.replicate 64 0⟩
  exact card_behind_near A (fun _ => Arr.replicate 64 0) (preJob P far h0 D prologue eI first impostor) (preJob_modest P far h0 D _ _ _ _)
    (chosen P h0 D prologue eI first servers) _ _ (fun x a b => bugLateJob_modest P far h0 D rest _ _ _ _ _ _ _ _)
    (fun x a b => bugLateJob_modest P far h0 D rest _ _ _ _ _ _ _ _) (2 ^ 256) _ fun u =>
      behind_near P rest hl hl0 A u prologue eI first servers impostor snoop hE n m hn hm hv dflt dflt' second

end

/-! ## What comes of it -/

section
variable {M : Nat} (hM : 97 ≤ M) {far : Bytes → Arr 32} {h0 : Arr 32} (D : List (Arr 32)) (P : Prims) (H : Hashes M)
variable (blocks : Blocks) {Q : Prims} (hQ : Q = P.withHash (H.at far)) (hh : NX.h0 Q = h0)
variable (rest : Arr 32 → Arr 12 → Nat → UInt8) (hM' : 65567 ≤ M)

include hQ hh hM'

theorem bugJob_spec {snoop : Snoop} {m : Nat} (hm : ∀ past, (snoop.next past).Within M m) (hb : ∀ past, (snoop.next past).Blind) {E : Nat} {keys labels : Fin (E + 2) → Arr 32} {Q' : Prims}
    (hLike : ∀ a, Like (Q.withBlocks rest blocks) Q' (keys a) (labels a))
    (hK : ∀ (s : NoiseSession) (e : Nat) remote, e < E →
      (s.dressed (seat keys e)).rekeyed (Q.withBlocks rest blocks) remote = s.dressed (seat keys (e + 1)))
    (hK' : ∀ (s : NoiseSession) (e : Nat) remote, e < E → s.Wears (seat labels e) →
      s.rekeyed Q' remote = s.dressed (seat labels (e + 1)))
    (second : Bool) (j : Nat) {s : Duo} {a b : Nat} (h1 : s.1.Wears (seat labels a)) (h2 : s.2.Wears (seat labels b)) (ha : a + j ≤ E)
    (hb' : b + j ≤ E) (seen : List Seen) (asked : List Bytes) {L : Log M h0 D}
    (hL : (bugJob P far h0 D snoop Q' second j s seen).log (world hM H blocks h0 D) ⊆ L) :
    (bugJob P far h0 D snoop Q' second j s seen).run (world hM H blocks h0 D) =
      (snoop.listen Q rest blocks second j (cladDuo keys a b s) seen asked).1 ∧
    (∀ x ∈ (snoop.listen Q rest blocks second j (cladDuo keys a b s) seen asked).2, x ∈ asked ∨ (x.length ≤ M → Logged L x)) ∧
    Asks ((bugJob P far h0 D snoop Q' second j s seen).log (world hM H blocks h0 D))
      fun x => Unlike h0 D x ∨ x ∈ (snoop.listen Q rest blocks second j (cladDuo keys a b s) seen asked).2 := by
  induction j generalizing s seen asked a b with
  | zero => exact ⟨rfl, fun x hx => .inl hx, Asks.nil⟩
  | succ j ih =>
    unfold bugJob at hL ⊢
    rw [Prog.log_bind] at hL
    obtain ⟨l1, l2⟩ := List.append_subset.mp hL
    obtain ⟨a1, -, -, a4⟩ := attackJob_spec hM D P H blocks hQ hh rest hM' (snoop.next seen) m (hm _) (hb _) l1
    have a5 := attackJob_logged hM D P H blocks hQ hh rest hM' (snoop.next seen) m (hm _) (hb _) l1
    rw [Prog.run_bind, Prog.log_bind]
    rw [a1] at l2 ⊢
    obtain ⟨a', b', la, lb, w1, w2, e⟩ := act_clad hLike hK hK' h1 h2 (by omega) (by omega) second
      ((snoop.next seen).play Q rest blocks).result
    unfold Snoop.listen
    simp only [e]
    obtain ⟨i1, i2, i3⟩ := ih w1 w2 (by omega) (by omega) (seen ++ [Seen.blind _])
      (asked ++ ((snoop.next seen).play Q rest blocks).asked Q) l2
    refine ⟨i1, fun x hx => ?_, (a4.mono fun x hx => ?_).append i3⟩
    · rcases i2 x hx with hx | hx
      · exact (List.mem_append.mp hx).imp_right (a5 x)
      · exact .inr hx
    · exact hx.imp_right fun hx => listen_mono Q rest blocks snoop second j _ _ _ (List.mem_append_right _ hx)

theorem bugSayJob_spec {snoop : Snoop} {m : Nat} (hm : ∀ past, (snoop.next past).Within M m) (hb : ∀ past, (snoop.next past).Blind) (hv : ∀ past, (snoop.verdict past).Within M m)
    (hv' : ∀ past, (snoop.verdict past).Blind)
    {E : Nat} {keys labels : Fin (E + 2) → Arr 32} {Q' : Prims}
    (hLike : ∀ a, Like (Q.withBlocks rest blocks) Q' (keys a) (labels a))
    (hK : ∀ (s : NoiseSession) (e : Nat) remote, e < E →
      (s.dressed (seat keys e)).rekeyed (Q.withBlocks rest blocks) remote = s.dressed (seat keys (e + 1)))
    (hK' : ∀ (s : NoiseSession) (e : Nat) remote, e < E → s.Wears (seat labels e) →
      s.rekeyed Q' remote = s.dressed (seat labels (e + 1)))
    (second : Bool) {rounds : Nat} (hE : rounds ≤ E) {s : Duo} (h1 : s.1.Wears (seat labels 0)) (h2 : s.2.Wears (seat labels 0))
    {h : List Seen × List Bytes} (hlisten : h = snoop.listen Q rest blocks second rounds (cladDuo keys 0 0 s) [] [])
    {v : Spied Bool} (hverdict : v = (snoop.verdict h.1).play Q rest blocks) {L : Log M h0 D}
    (hL : (bugSayJob P far h0 D snoop Q' second rounds s).log (world hM H blocks h0 D) ⊆ L) :
    (bugSayJob P far h0 D snoop Q' second rounds s).run (world hM H blocks h0 D) = v.result ∧
    (∀ x ∈ h.2 ++ v.asked Q, x.length ≤ M → Logged L x) ∧
    Asks ((bugSayJob P far h0 D snoop Q' second rounds s).log (world hM H blocks h0 D)) fun x => Unlike h0 D x ∨ x ∈ h.2 ++ v.asked Q := by
  unfold bugSayJob at hL ⊢
  rw [Prog.log_bind] at hL
  obtain ⟨l1, l2⟩ := List.append_subset.mp hL
  obtain ⟨e1, e2, e3⟩ := bugJob_spec hM D P H blocks hQ hh rest hM' hm hb hLike hK hK' second rounds h1 h2 (by omega) (by omega) [] [] l1
  rw [← hlisten] at e1 e2 e3
  rw [e1] at l2
  obtain ⟨a1, -, -, a4⟩ := attackJob_spec hM D P H blocks hQ hh rest hM' (snoop.verdict h.1) m (hv _) (hv' _) l2
  have a5 := attackJob_logged hM D P H blocks hQ hh rest hM' (snoop.verdict h.1) m (hv _) (hv' _) l2
  rw [← hverdict] at a1 a4 a5
  rw [Prog.run_bind, Prog.log_bind, e1]
  refine ⟨a1, fun x hx hl => ?_, (e3.mono fun x hx => hx.imp_right (List.mem_append_left _)).append
    (a4.mono fun x hx => hx.imp_right (List.mem_append_right _))⟩
  rcases List.mem_append.mp hx with hx | hx
  · rcases e2 x hx with hx | hx
    · cases hx
    · exact hx hl
  · exact a5 x hx hl

/-- If no key is empty, the program does what the attacker does; otherwise it gives `dflt`. -/
theorem bugLateJob_spec {snoop : Snoop} {m : Nat} (hm : ∀ past, (snoop.next past).Within M m) (hb : ∀ past, (snoop.next past).Blind)
    (hv : ∀ past, (snoop.verdict past).Within M m) (hv' : ∀ past, (snoop.verdict past).Blind)
    {E : Nat} {labels : Fin (E + 2) → Arr 32} (hl : Function.Injective labels) (hl0 : ∀ a, labels a ≠ EMPTY) {k : Arr 32 × Arr 32}
    (hk1 : k.1 ≠ EMPTY) (hk2 : k.2 ≠ EMPTY) (dflt second : Bool) {rounds : Nat} (hE : rounds ≤ E)
    (rs t : Arr 32) {h : List Seen × List Bytes} (hlisten : h = snoop.listen Q rest blocks second rounds (talking rs t k) [] [])
    {v : Spied Bool} (hverdict : v = (snoop.verdict h.1).play Q rest blocks) {L : Log M h0 D}
    (hL : (bugLateJob P far h0 D rest snoop labels rounds dflt second (talking rs t (seat labels 0)) (fun x => blocks (k.1, x))
      (fun x => blocks (k.2, x))).log (world hM H blocks h0 D) ⊆ L) :
    ((bugLateJob P far h0 D rest snoop labels rounds dflt second (talking rs t (seat labels 0)) (fun x => blocks (k.1, x))
      (fun x => blocks (k.2, x))).run (world hM H blocks h0 D) = dflt ∨
    (bugLateJob P far h0 D rest snoop labels rounds dflt second (talking rs t (seat labels 0)) (fun x => blocks (k.1, x))
      (fun x => blocks (k.2, x))).run (world hM H blocks h0 D) = v.result ∧
    ∀ x ∈ h.2 ++ v.asked Q, x.length ≤ M → Logged L x) ∧
    Asks ((bugLateJob P far h0 D rest snoop labels rounds dflt second (talking rs t (seat labels 0)) (fun x => blocks (k.1, x))
      (fun x => blocks (k.2, x))).log (world hM H blocks h0 D)) fun x => Unlike h0 D x ∨ x ∈ h.2 ++ v.asked Q := by
  unfold bugLateJob at hL ⊢
  rw [Prog.log_bind] at hL
  obtain ⟨-, l2⟩ := List.append_subset.mp hL
  obtain ⟨c1, c2⟩ := laterJob_spec (h0 := h0) hM D H blocks rest k.1 E
  rw [Prog.run_bind, Prog.log_bind]
  generalize (laterJob h0 D (fun x => blocks (k.1, x)) E).run (world hM H blocks h0 D) = f at *
  by_cases hex : ∃ e < E, link (f e) = EMPTY
  · rw [if_pos hex]
    exact ⟨.inl rfl, (c2 _).append Asks.nil⟩
  · rw [if_neg hex] at l2 ⊢
    have hk : ∀ e ≤ E, streamKey (blocks.stream rest) k.1 e ≠ EMPTY := by
      intro e he
      cases e with
      | zero => exact hk1
      | succ e =>
        intro h0
        refine hex ⟨e, by omega, ?_⟩
        rw [c1 e (by omega), ← h0, streamKey_succ]
        rfl
    have hclad : talking rs t k = cladDuo (trail blocks rest k E) 0 0 (talking rs t (seat labels 0)) := by
      have : cladDuo (trail blocks rest k E) 0 0 (talking rs t (seat labels 0)) = talking rs t (seat (trail blocks rest k E) 0) := rfl
      rw [this, seat_trail blocks rest k (Nat.zero_le E)]
      rfl
    rw [hclad] at hlisten
    obtain ⟨e1, e2, e3⟩ := bugSayJob_spec hM D P H blocks hQ hh rest hM' hm hb hv hv'
      (trail_like blocks rest Q P hk hk2 hl hl0 (fun e he => c1 e he) rfl fun _ => Arr.replicate 64 0)
      (trail_rekeyed blocks rest Q k E) (build_rekeyed P rest hl _ _) second hE ⟨rfl, rfl, Nat.le_refl _⟩ ⟨rfl, rfl, Nat.le_refl _⟩
      hlisten hverdict l2
    exact ⟨.inr ⟨e1, e2⟩, (c2 _).append e3⟩

end

end SV2.Noise.Veiled
