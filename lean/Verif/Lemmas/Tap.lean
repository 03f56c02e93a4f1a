import Verif.Spec.Tap
import Verif.Lemmas.TapCount
import Verif.Lemmas.DistantRun
/-!
# The program for an attacker that has the two sides rekey, and wants to know which text is sent

As in `Verif/Lemmas/Distant.lean`; the rows of the later keys are got as in `Verif/Lemmas/Renewed.lean`.
-/

namespace SV2.Noise.Distant
open SV2.Long SV2.Stack SV2.Stack.Renewal
open SV2.Noise.Veiled (Ask cut talking)

section
variable (P : Prims) {M : Nat} (far : Bytes → Arr 32) (h0 : Arr 32) (rest : Arr 32 → Arr 12 → Nat → UInt8)

def tapJob (snoop : Snoop) (Q' : Prims) (second : Bool) : Nat → Duo → List Seen → Job M (List Seen)
  | 0, _, seen => .ret seen
  | j + 1, s, seen => (attackJob far h0 (.deliver .initiator []) (snoop.next seen)).bind fun mv =>
    let r := s.act Q' second mv
    tapJob snoop Q' second j r.2.2 (seen ++ [Seen.blind ⟨r.1, r.2.1, r.2.2.1, r.2.2.2⟩])

/-- And what the attacker says in the end. -/
def sayJob (snoop : Snoop) (Q' : Prims) (second : Bool) (rounds : Nat) (s : Duo) : Job M Bool :=
  (tapJob far h0 snoop Q' second rounds s []).bind fun v => attackJob far h0 false (snoop.verdict v)

/-- A cipher with these rows. -/
noncomputable def rowPrims {E : Nat} (labels : Fin (E + 2) → Arr 32) (rows : Fin (E + 2) → KeyRow) : Prims :=
  P.withBlocks rest (build labels rows fun _ => Arr.replicate 64 0)

/-- The rows of the later keys, and then the attacker. -/
noncomputable def lateJob (snoop : Snoop) {E : Nat} (labels : Fin (E + 2) → Arr 32) (rounds : Nat) (second : Bool) (s : Duo)
    (r2 r3 : KeyRow) : Job M Bool :=
  (chainJob r2 E).bind fun f => sayJob far h0 snoop (rowPrims P rest labels (gathered E f r3)) second rounds s

/-- All of it after the chain. -/
noncomputable def wiredJob (c : Serving) (snoop : Bytes → Bytes → Snoop) {E : Nat} (labels : Fin (E + 2) → Arr 32) (rounds : Nat)
    (second : Bool) (r : Fin 4 → KeyRow) : Job M Bool :=
  (replyJob P far h0 c (r 0) (r 1)).bind fun x => lateJob P far h0 rest (snoop c.first x.1) labels rounds second
    (talking (P.publicOf c.sR) x.2 (seat labels 0)) (r 2) (r 3)

noncomputable def wireJob (c : Serving) (snoop : Bytes → Bytes → Snoop) {E : Nat} (labels : Fin (E + 2) → Arr 32) (rounds : Nat)
    (second : Bool) : Job M Bool := .mix () fun r => wiredJob P far h0 rest c snoop labels rounds second r

theorem tapJob_calls (snoop : Snoop) (Q' : Prims) (second : Bool) (m : Nat) (hm : ∀ past, (snoop.next past).Within M m)
    (j : Nat) (s : Duo) (seen : List Seen) : Calls (M := M) (j * m) (tapJob far h0 snoop Q' second j s seen) := by
  induction j generalizing s seen with
  | zero => exact (Calls.ret _).mono (by omega)
  | succ j ih =>
    refine ((attackJob_calls far h0 _ _ m (hm _)).bind fun t => ih _ _).mono ?_
    have := Nat.add_one_mul j m
    omega

theorem sayJob_calls (snoop : Snoop) (Q' : Prims) (second : Bool) (m : Nat) (hm : ∀ past, (snoop.next past).Within M m)
    (hv : ∀ past, (snoop.verdict past).Within M m) (rounds : Nat) (s : Duo) :
    Calls (M := M) ((rounds + 1) * m) (sayJob far h0 snoop Q' second rounds s) := by
  refine ((tapJob_calls far h0 snoop Q' second m hm rounds s []).bind fun v => attackJob_calls far h0 _ _ m (hv v)).mono ?_
  have := Nat.add_one_mul rounds m
  omega

theorem wireJob_calls (c : Serving) (snoop : Bytes → Bytes → Snoop) {E : Nat} (labels : Fin (E + 2) → Arr 32) (rounds m : Nat)
    (hm : ∀ a b past, ((snoop a b).next past).Within M m) (hv : ∀ a b past, ((snoop a b).verdict past).Within M m)
    (second : Bool) : Calls (M := M) ((rounds + 1) * m + E + 7) (wireJob P far h0 rest c snoop labels rounds second) := by
  intro w
  refine Nat.succ_le_succ ?_
  refine (((replyJob_calls P far h0 c _ _).bind fun x => (chainJob_calls _ E).bind fun f =>
    sayJob_calls far h0 (snoop c.first x.1) _ second m (hm _ _) (hv _ _) rounds _).mono ?_) w
  omega

theorem tapJob_plain (snoop : Snoop) (Q' : Prims) (second : Bool) (j : Nat) (s : Duo) (seen : List Seen) :
    (tapJob (M := M) far h0 snoop Q' second j s seen).Plain := by
  induction j generalizing s seen with
  | zero => trivial
  | succ j ih => exact (attackJob_plain far h0 _ _).bind fun t => ih _ _

theorem chainJob_plain (r : KeyRow) (e : Nat) : (chainJob (M := M) r e).Plain := by
  induction e with
  | zero => trivial
  | succ e ih => exact ih.bind fun f r' => trivial

theorem lateJob_plain (snoop : Snoop) {E : Nat} (labels : Fin (E + 2) → Arr 32) (rounds : Nat) (second : Bool) (s : Duo)
    (r2 r3 : KeyRow) : (lateJob (M := M) P far h0 rest snoop labels rounds second s r2 r3).Plain :=
  (chainJob_plain _ _).bind fun _ => (tapJob_plain far h0 _ _ _ _ _ _).bind fun _ => attackJob_plain far h0 _ _

theorem wiredJob_plain (c : Serving) (snoop : Bytes → Bytes → Snoop) {E : Nat} (labels : Fin (E + 2) → Arr 32) (rounds : Nat)
    (second : Bool) (r : Fin 4 → KeyRow) : (wiredJob (M := M) P far h0 rest c snoop labels rounds second r).Plain :=
  (replyJob_plain P far h0 c _ _).bind fun _ => lateJob_plain P far h0 rest _ _ _ _ _ _ _

theorem hashJob_dry (x : Bytes) : (hashJob (M := M) far h0 x).Dry := by
  unfold hashJob
  split
  · trivial
  · split
    · exact fun _ => trivial
    · trivial

theorem foldJob_dry (ds : List Bytes) (h : Arr 32) : (foldJob (M := M) far h0 h ds).Dry := by
  induction ds generalizing h with
  | nil => trivial
  | cons d ds ih => exact (hashJob_dry far h0 _).bind fun _ => ih _

theorem replyJob_dry (c : Serving) (r1 r2 : KeyRow) : (replyJob (M := M) P far h0 c r1 r2).Dry :=
  (foldJob_dry far h0 _ _).bind fun _ => (foldJob_dry far h0 _ _).bind fun _ => (foldJob_dry far h0 _ _).bind fun _ => trivial

theorem wiredJob_stamp (c c' : Serving) (hc : c' = { c with buf := c'.buf }) (hl : c.buf.length = c'.buf.length)
    (hb : c'.buf.length ≤ 65536) (snoop : Bytes → Bytes → Snoop) {E : Nat} (labels : Fin (E + 2) → Arr 32) (rounds : Nat)
    (second : Bool) (r : Fin 4 → KeyRow) :
    wiredJob (M := M) P far h0 rest c' snoop labels rounds second
      (Function.update r 1 (stamp (body (c.buf.drop 80)) (body (c'.buf.drop 80)) (r 1))) =
    wiredJob P far h0 rest c snoop labels rounds second r := by
  obtain ⟨e2, e4⟩ : c'.sR = c.sR ∧ c'.first = c.first := by
    rw [hc]
    exact ⟨rfl, rfl⟩
  unfold wiredJob
  rw [Function.update_self, Function.update_of_ne (by decide), Function.update_of_ne (by decide), Function.update_of_ne (by decide),
    replyJob_stamp P far h0 c c' hc hl hb, e2, e4]

end

/-! ## Whichever text is sent -/

section
variable (P : Prims) {M : Nat} {far : Bytes → Arr 32} {h0 : Arr 32} (rest : Arr 32 → Arr 12 → Nat → UInt8)
variable {E : Nat} {labels : Fin (E + 2) → Arr 32} (hl : Function.Injective labels) (hl0 : ∀ a, labels a ≠ EMPTY)

/-- The program is the same for other keys with the same rows. -/
theorem tapJob_clad {Q Q' : Prims} {keys labels : Fin (E + 2) → Arr 32} (hL : ∀ a, Like Q Q' (keys a) (labels a))
    (hK : ∀ (s : NoiseSession) (e : Nat) remote, e < E → (s.dressed (seat keys e)).rekeyed Q remote = s.dressed (seat keys (e + 1)))
    (hK' : ∀ (s : NoiseSession) (e : Nat) remote, e < E → s.Wears (seat labels e) →
      s.rekeyed Q' remote = s.dressed (seat labels (e + 1))) (snoop : Snoop) (second : Bool) (rounds : Nat) {a b : Nat}
    {s : Duo} (h1 : s.1.Wears (seat labels a)) (h2 : s.2.Wears (seat labels b)) (ha : a + rounds ≤ E) (hb : b + rounds ≤ E)
    (seen : List Seen) :
    tapJob (M := M) far h0 snoop Q second rounds (cladDuo keys a b s) seen = tapJob far h0 snoop Q' second rounds s seen := by
  induction rounds generalizing a b s seen with
  | zero => rfl
  | succ n ih =>
    unfold tapJob
    congr 1
    funext mv
    obtain ⟨a', b', la, lb, w1, w2, e⟩ := act_clad hL hK hK' h1 h2 (by omega) (by omega) second mv
    simp only [e]
    exact ih w1 w2 (by omega) (by omega) _

open Classical in
/-- What it has seen, unless it stopped. -/
noncomputable def heldTo (f : List Seen → Option Move) (l : List Seen) : Option (List Seen) :=
  if ∀ j < l.length, f ((l.take j).map Seen.blind) ≠ none then some (l.map Seen.blind) else none

/-- What it does, unless it stopped. -/
def opted (f : List Seen → Option Move) (l : List Seen) : Move := (f (l.map Seen.blind)).getD (.deliver .initiator [])

include hl hl0 in
theorem tapJob_run (A : Unit → Ask M) (w : World (Ask M) (Arr 32) Unit KeyRow) (snoop : Snoop) (rows : Fin (E + 2) → KeyRow) (Z : Blocks)
    (second : Bool) {f : List Seen → Option Move}
    (hf : ∀ v, f v = ((attackJob far h0 (.deliver .initiator []) (snoop.next v)).guard A).run w) (rounds : Nat) {s : Duo} {a b : Nat}
    (h1 : s.1.Wears (seat labels a)) (h2 : s.2.Wears (seat labels b)) (ha : a + rounds ≤ E) (hb : b + rounds ≤ E)
    (l : List Seen) (hl' : ∀ j < l.length, f ((l.take j).map Seen.blind) ≠ none) :
    ((tapJob far h0 snoop (P.withBlocks rest (build labels rows Z)) second rounds s (l.map Seen.blind)).guard A).run w =
      heldTo f (Duo.play (P.withBlocks rest (build labels rows Z)) second (opted f) rounds s l) := by
  obtain ⟨Q', hQ'⟩ : ∃ Q', Q' = P.withBlocks rest (build labels rows Z) := ⟨_, rfl⟩
  have hL : ∀ a, Like Q' Q' (labels a) (labels a) := by
    rw [hQ']
    exact build_like_any P rest hl hl hl0 hl0 rows Z Z
  have hK := build_dressed P rest hl rows Z
  rw [← hQ'] at hK ⊢
  induction rounds generalizing s l a b with
  | zero => exact (if_pos hl').symm
  | succ rounds ih =>
    have hne : s.1.cs1.k ≠ s.2.cs2.k := by
      rw [h1.k1, h2.k2]
      intro e
      have := congrArg Fin.val (hl e)
      simp only at this
      omega
    unfold tapJob
    rw [Prog.guard_run_bind, ← hf]
    unfold Duo.play
    rw [if_neg hne]
    rcases hc : f (l.map Seen.blind) with _ | t
    · have hp := Duo.play_prefix Q' second (opted f) rounds (s.act Q' second (opted f l)).2.2
        (l ++ [⟨(s.act Q' second (opted f l)).1, (s.act Q' second (opted f l)).2.1,
          (s.act Q' second (opted f l)).2.2.1, (s.act Q' second (opted f l)).2.2.2⟩])
      obtain ⟨l', hl''⟩ := hp
      simp only [Option.bind_none]
      symm
      refine if_neg fun h => h l.length ?_ ?_
      · rw [← hl'', List.length_append, List.length_append]
        simp only [List.length_cons]
        omega
      · rw [← hl'', List.append_assoc, List.take_left' rfl]
        exact hc
    · have e : opted f l = t := by unfold opted; rw [hc]; rfl
      obtain ⟨a', b', la, lb, w1, w2, -⟩ := act_clad (keys := labels) hL hK (fun x e remote he hx => by
        have := hK x e remote he
        rwa [hx.eq] at this) h1 h2 (by omega) (by omega) second t
      simp only [Option.bind_some, e]
      rw [← ih w1 w2 (by omega) (by omega)]
      · rw [List.map_append]
        rfl
      · intro j hj
        rw [List.length_append] at hj
        by_cases h : j < l.length
        · rw [List.take_append_of_le_length (by omega)]
          exact hl' j h
        · have : j = l.length := by simp only [List.length_cons, List.length_nil] at hj; omega
          subst this
          rw [List.take_left' rfl, hc]
          exact Option.some_ne_none _

include hl hl0 in
/-- With blocks of their own for all keys, it makes no difference which texts are sent. -/
theorem sayJob_alike (A : Unit → Ask M) (w : World (Ask M) (Arr 32) Unit KeyRow) (snoop : Snoop) {rounds : Nat} {start : Duo}
    (h1 : start.1.Wears (seat labels 0)) (h2 : start.2.Wears (seat labels 0)) (hi : start.1.i = true)
    (hr : start.2.i = false) (hE : rounds ≤ E) (second : Bool) :
    Nat.card {rows : Fin (E + 2) → KeyRow //
      ((sayJob far h0 snoop (rowPrims P rest labels rows) second rounds start).guard A).run w = some true} ≤
    Nat.card {rows : Fin (E + 2) → KeyRow //
      ((sayJob far h0 snoop (rowPrims P rest labels rows) (!second) rounds start).guard A).run w = some true} := by
  obtain ⟨f, hf⟩ : ∃ f : List Seen → Option Move,
      ∀ v, f v = ((attackJob far h0 (.deliver .initiator []) (snoop.next v)).guard A).run w := ⟨_, fun _ => rfl⟩
  let test : List Seen → Prop := fun l =>
    ((heldTo f l).bind fun v => ((attackJob far h0 false (snoop.verdict v)).guard A).run w) = some true
  let played : Bool → Blocks → Prop := fun second B => ((sayJob far h0 snoop (P.withBlocks rest B) second rounds start).guard A).run w =
    some true
  have e1 : ∀ second rows Z, played second (build labels rows Z) ↔
      test (Duo.play (P.withBlocks rest (build labels rows Z)) second (opted f) rounds start []) := by
    intro second rows Z
    have := tapJob_run P rest hl hl0 A w snoop rows Z second hf rounds h1 h2 (by omega) (by omega) []
      (fun j hj => absurd hj (Nat.not_lt_zero _))
    rw [List.map_nil] at this
    simp only [played]
    unfold sayJob
    rw [Prog.guard_run_bind, this]
  obtain ⟨e, he, hk⟩ := Duo.blocks_swap P rest start.1 start.2 hi hr h1.mc h2.mc (opted f) rounds
  have hany : ∀ second rows Z Z', played second (build labels rows Z) → played second (build labels rows Z') := by
    intro second rows Z Z' h
    have hc := tapJob_clad (M := M) (far := far) (h0 := h0) (build_like_any P rest hl hl hl0 hl0 rows Z Z') (build_dressed P rest hl rows Z)
      (build_rekeyed P rest hl rows Z') snoop second rounds h1 h2 (by omega) (by omega) []
    have hs : cladDuo labels 0 0 start = start := Prod.ext h1.eq h2.eq
    rw [hs] at hc
    simp only [played] at h ⊢
    unfold sayJob at h ⊢
    rw [← hc]
    exact h
  show Nat.card {rows // played second (build labels rows _)} ≤ Nat.card {rows // played (!second) (build labels rows _)}
  cases second with
  | false =>
    refine card_rows hl e hk (fun rows Z1 rows' Z2 h hp => ?_) (hany _) (hany _) _
    rw [e1] at hp
    rw [Bool.not_false, e1, ← h]
    have := he (build labels rows Z1)
    rw [Prod.mk.eta] at this
    rw [← this]
    exact hp
  | true =>
    have hk' : ∀ B k c, e.symm B (k, CipherState.rekeyNonce, c) = B (k, CipherState.rekeyNonce, c) := by
      intro B k c
      have := hk (e.symm B) k c
      rw [e.apply_symm_apply] at this
      exact this.symm
    refine card_rows hl e.symm hk' (fun rows Z1 rows' Z2 h hp => ?_) (hany _) (hany _) _
    rw [e1] at hp
    rw [Bool.not_true, e1, ← h]
    have := he (e.symm (build labels rows Z1))
    rw [Prod.mk.eta, e.apply_symm_apply] at this
    rw [this]
    exact hp

/-! ## The rows of the later keys -/

/-- The world with these hashes and blocks. -/
def plainWorld (g : Ask M → Arr 32) (C : Blocks) : World (Ask M) (Arr 32) Unit KeyRow := ⟨g, fun k x => C (k, x), fun _ _ _ => Arr.replicate 64 0⟩

/-- The keys whose rows are asked for. -/
def rowsOf (L : Log M) : List (Arr 32) := L.filterMap fun | .row k => some k | _ => none

theorem mem_rowsOf {L : Log M} {k : Arr 32} : k ∈ rowsOf L ↔ .row k ∈ L := by
  unfold rowsOf
  rw [List.mem_filterMap]
  constructor
  · rintro ⟨e, he, h⟩
    cases e <;> simp_all
  · exact fun h => ⟨_, h, rfl⟩

theorem rowsOf_length (L : Log M) : (rowsOf L).length ≤ L.length := List.length_filterMap_le _ _

theorem build_again {keys : Fin (E + 2) → Arr 32} (rows : Fin (E + 2) → KeyRow) (Z : Blocks) :
    build labels (chained keys rows) Z = build labels rows Z := by
  have : chained labels (chained keys rows) = chained labels rows := by
    funext a
    unfold chained
    by_cases h : a.val < E
    · rw [dif_pos h, dif_pos h, dif_pos h, relink_relink]
    · rw [dif_neg h, dif_neg h, dif_neg h]
  unfold build
  rw [this]

/-- The rows of the later keys are there, with others for the first two keys. -/
theorem chainJob_late (A : Unit → Ask M) (g : Ask M → Arr 32) {d : Arr 32 × Arr 32} {later : Fin E → Arr 32}
    (hinj : Function.Injective (joined d later)) (rows : Fin (E + 2) → KeyRow) (C : Blocks) (c : KeyRow × KeyRow) {j : Nat} (hj : j ≤ E) :
    ∃ f, ((chainJob (fun x => build (joined d later) rows C (d.1, x)) j).guard A).run
        (plainWorld g (veil d c (build (joined d later) rows C))) = some f ∧
      ∀ e (he : e ≤ j), f e = fun x => build (joined d later) rows C (joined d later ⟨e, by omega⟩, x) := by
  induction j with
  | zero =>
    refine ⟨_, rfl, fun e he => ?_⟩
    obtain rfl := Nat.le_zero.mp he
    rfl
  | succ j ih =>
    obtain ⟨f, hf, hrow⟩ := ih (by omega)
    unfold chainJob
    rw [Prog.guard_run_bind, hf]
    refine ⟨_, rfl, fun e he => ?_⟩
    have hlink : link (f j) = joined d later ⟨j + 1, by omega⟩ := by
      rw [hrow j (Nat.le_refl _)]
      exact link_build hinj rows C (by omega)
    by_cases h : e = j + 1
    · subst h
      rw [Function.update_self]
      funext x
      show veil d c _ (link (f j), x) = _
      rw [hlink]
      have n1 : joined d later ⟨j + 1, by omega⟩ ≠ d.1 := by
        rw [← joined_zero d later]
        intro e
        have := congrArg Fin.val (hinj e)
        simp only at this
        omega
      have n2 : joined d later ⟨j + 1, by omega⟩ ≠ d.2 := by
        rw [← joined_last d later]
        intro e
        have := congrArg Fin.val (hinj e)
        simp only at this
        omega
      unfold veil
      simp only [if_neg n1, if_neg n2]
    · rw [Function.update_of_ne h]
      exact hrow e (by omega)

theorem lateJob_fresh (A : Unit → Ask M) (g : Ask M → Arr 32) (snoop : Snoop) (rounds : Nat) (second : Bool) (start : Duo)
    {d : Arr 32 × Arr 32} {later : Fin E → Arr 32}
    (hinj : Function.Injective (joined d later)) (rows : Fin (E + 2) → KeyRow) (C : Blocks) (c : KeyRow × KeyRow)
    (hoff : ∀ e, later e ∉ rowsOf (((sayJob far h0 snoop (rowPrims P rest labels rows) second rounds start).guard A).log
      (plainWorld g (veil d c C)))) :
    ((lateJob P far h0 rest snoop labels rounds second start (fun x => build (joined d later) rows C (d.1, x))
        (fun x => build (joined d later) rows C (d.2, x))).guard A).run (plainWorld g (veil d c (build (joined d later) rows C))) =
      ((sayJob far h0 snoop (rowPrims P rest labels rows) second rounds start).guard A).run (plainWorld g (veil d c C)) := by
  obtain ⟨f, hf, hrow⟩ := chainJob_late A g hinj rows C c (Nat.le_refl E)
  unfold lateJob
  rw [Prog.guard_run_bind, hf, Option.bind_some]
  have hg : gathered E f (fun x => build (joined d later) rows C (d.2, x)) = chained (joined d later) rows := by
    funext a
    unfold gathered
    by_cases h : a.val ≤ E
    · rw [if_pos h, hrow _ h]
      funext x
      exact patch_at hinj _ _ _ _
    · rw [if_neg h]
      funext x
      have ha : a = ⟨E + 1, by omega⟩ := Fin.ext (by show a.val = E + 1; omega)
      rw [ha, ← joined_last d later]
      exact patch_at hinj _ _ _ _
  rw [hg]
  have hp : rowPrims P rest labels (chained (joined d later) rows) = rowPrims P rest labels rows := by
    unfold rowPrims
    rw [build_again]
  rw [hp]
  refine (Prog.congr _ _ _ ?_).1
  rintro (x | k | q) hx
  · rfl
  · show (fun x => veil d c (build (joined d later) rows C) (k, x)) = fun x => veil d c C (k, x)
    funext x
    unfold veil
    by_cases h1 : k = d.1
    · simp only [if_pos h1]
    by_cases h2 : k = d.2
    · simp only [if_neg h1, if_pos h2]
    simp only [if_neg h1, if_neg h2]
    refine patch_off _ _ fun a e => ?_
    simp only at e
    rcases fin_cases a with rfl | rfl | ⟨e', rfl⟩
    · exact h1 e.symm
    · rw [joined_last] at e
      exact h2 e.symm
    · rw [joined_later] at e
      exact hoff e' (mem_rowsOf.mpr (e ▸ hx))
  · rfl

include hl hl0 in
/-- For a random cipher it makes little difference which texts are sent. -/
theorem lateJob_near (A : Unit → Ask M) (g : Ask M → Arr 32) (snoop : Snoop) {rounds : Nat} {start : Duo}
    (h1 : start.1.Wears (seat labels 0)) (h2 : start.2.Wears (seat labels 0)) (hi : start.1.i = true)
    (hr : start.2.i = false) (hE : rounds ≤ E) (m : Nat) (hm : ∀ past, (snoop.next past).Within M m)
    (hv : ∀ past, (snoop.verdict past).Within M m) (second : Bool) :
    2 ^ 256 * Nat.card {z : (KeyRow × KeyRow) × Blocks //
      ((lateJob P far h0 rest snoop labels rounds second start z.1.1 z.1.2).guard A).run (plainWorld g z.2) = some true} ≤
    2 ^ 256 * Nat.card {z : (KeyRow × KeyRow) × Blocks //
      ((lateJob P far h0 rest snoop labels rounds (!second) start z.1.1 z.1.2).guard A).run (plainWorld g z.2) = some true} +
      2 * (E * ((rounds + 1) * m + E + 2)) * Nat.card ((KeyRow × KeyRow) × Blocks) := by
  let d : Arr 32 × Arr 32 := (Arr.replicate 32 1, Arr.replicate 32 2)
  have hd : d.1 ≠ d.2 := by decide
  let φ : Bool → KeyRow × KeyRow → Blocks → Prop := fun second r C =>
    ((lateJob P far h0 rest snoop labels rounds second start r.1 r.2).guard A).run (plainWorld g C) = some true
  have hsw : ∀ second, Nat.card {z : (KeyRow × KeyRow) × Blocks // φ second z.1 z.2} =
      Nat.card {z : (KeyRow × KeyRow) × Blocks // φ second ((veiling hd z).1) ((veiling hd z).2)} := fun second =>
    (Nat.card_congr ((veiling hd).subtypeEquiv fun z => Iff.rfl)).symm
  show 2 ^ 256 * Nat.card {z : (KeyRow × KeyRow) × Blocks // φ second z.1 z.2} ≤
    2 ^ 256 * Nat.card {z : (KeyRow × KeyRow) × Blocks // φ (!second) z.1 z.2} + _
  rw [hsw, hsw]
  refine card_prod_diff (2 ^ 256) (2 * (E * ((rounds + 1) * m + E + 2)))
    (fun c B => φ second (veiling hd (c, B)).1 (veiling hd (c, B)).2) (fun c B => φ (!second) (veiling hd (c, B)).1 (veiling hd (c, B)).2)
    fun c => ?_
  let job : Bool → (Fin (E + 2) → KeyRow) → Job M (Option Bool) := fun second rows =>
    (sayJob far h0 snoop (rowPrims P rest labels rows) second rounds start).guard A
  have hn : ∀ second (z : Blocks × (Fin (E + 2) → KeyRow)),
      (rowsOf ((job second z.2).log (plainWorld g (veil d c z.1)))).length ≤ (rounds + 1) * m := fun second z =>
    (rowsOf_length _).trans ((Prog.guard_prefix _ _ _).length_le.trans (sayJob_calls far h0 snoop _ second m hm hv rounds start _))
  refine near_later hd (fun z => rowsOf ((job second z.2).log (plainWorld g (veil d c z.1))))
    (fun z => rowsOf ((job (!second) z.2).log (plainWorld g (veil d c z.1)))) (hn _) (hn _) _ _
    (fun z => (job second z.2).run (plainWorld g (veil d c z.1)) = some true)
    (fun z => (job (!second) z.2).run (plainWorld g (veil d c z.1)) = some true) (fun w hw => ?_) (fun w hw => ?_) fun C =>
      sayJob_alike (far := far) (h0 := h0) P rest hl hl0 A (plainWorld g (veil d c C)) snoop h1 h2 hi hr hE second
  · have := lateJob_fresh P rest A g snoop rounds second start (labels := labels) (far := far) (h0 := h0) hw.inj w.2.2 w.2.1 c hw.off
    exact Eq.congr_left this
  · have := lateJob_fresh P rest A g snoop rounds (!second) start (labels := labels) (far := far) (h0 := h0) hw.inj w.2.2 w.2.1 c hw.off
    exact Eq.congr_left this

/-- The parts of an ideal world. -/
def parted : (Place (Ask M) Unit → Arr 32) × (Arr 32 ⊕ Unit × Fin 4 → KeyRow) ≃
    ((Place (Ask M) Unit → Arr 32) × KeyRow × KeyRow) × ((KeyRow × KeyRow) × Blocks) where
  toFun z := ((z.1, z.2 (.inr ((), 0)), z.2 (.inr ((), 1))), ((z.2 (.inr ((), 2)), z.2 (.inr ((), 3))), fun x => z.2 (.inl x.1) x.2))
  invFun y := (y.1.1, Sum.elim (fun k x => y.2.2 (k, x)) fun q => ![y.1.2.1, y.1.2.2, y.2.1.1, y.2.1.2] q.2)
  left_inv z := by
    refine Prod.ext rfl ?_
    funext k
    rcases k with k | ⟨⟨⟩, j⟩
    · rfl
    · fin_cases j <;> rfl
  right_inv y := rfl

include hl hl0 in
theorem wireJob_near [Finite (Ask M)] (A : Unit → Ask M) (c : Serving) (snoop : Bytes → Bytes → Snoop) {rounds : Nat} (hE : rounds ≤ E) (m : Nat)
    (hm : ∀ a b past, ((snoop a b).next past).Within M m) (hv : ∀ a b past, ((snoop a b).verdict past).Within M m) (second : Bool) :
    2 ^ 256 * Nat.card {z : (Place (Ask M) Unit → Arr 32) × (Arr 32 ⊕ Unit × Fin 4 → KeyRow) //
      ((wireJob P far h0 rest c snoop labels rounds second).guard A).run (ideal z.1 z.2) = some true} ≤
    2 ^ 256 * Nat.card {z : (Place (Ask M) Unit → Arr 32) × (Arr 32 ⊕ Unit × Fin 4 → KeyRow) //
      ((wireJob P far h0 rest c snoop labels rounds (!second)).guard A).run (ideal z.1 z.2) = some true} +
      2 * (E * ((rounds + 1) * m + E + 2)) * Nat.card ((Place (Ask M) Unit → Arr 32) × (Arr 32 ⊕ Unit × Fin 4 → KeyRow)) := by
  let φ : Bool → (Place (Ask M) Unit → Arr 32) × KeyRow × KeyRow → (KeyRow × KeyRow) × Blocks → Prop := fun second u v =>
    (((replyJob P far h0 c u.2.1 u.2.2).guard A).run (plainWorld (fun x => u.1 (.inl x)) v.2)).bind (fun x =>
      ((lateJob P far h0 rest (snoop c.first x.1) labels rounds second (talking (P.publicOf c.sR) x.2 (seat labels 0)) v.1.1 v.1.2).guard
        A).run (plainWorld (fun x => u.1 (.inl x)) v.2)) = some true
  have e : ∀ second, Nat.card {z : (Place (Ask M) Unit → Arr 32) × (Arr 32 ⊕ Unit × Fin 4 → KeyRow) //
      ((wireJob P far h0 rest c snoop labels rounds second).guard A).run (ideal z.1 z.2) = some true} =
      Nat.card {y : ((Place (Ask M) Unit → Arr 32) × KeyRow × KeyRow) × ((KeyRow × KeyRow) × Blocks) // φ second y.1 y.2} := by
    intro second
    refine Nat.card_congr (parted.subtypeEquiv fun z => ?_)
    show ((wiredJob P far h0 rest c snoop labels rounds second (fun j => z.2 (.inr ((), j)))).guard A).run (ideal z.1 z.2) = some true ↔ _
    unfold wiredJob
    rw [Prog.guard_run_bind]
    refine Eq.congr_left (congr (congrArg Option.bind ?_) ?_)
    · exact ((replyJob_plain P far h0 c _ _).guard A).run rfl rfl
    · funext x
      exact ((lateJob_plain P far h0 rest _ _ _ _ _ _ _).guard A).run rfl rfl
  rw [e, e, Nat.card_congr (parted (M := M))]
  refine card_prod_diff _ _ _ _ fun u => ?_
  obtain ⟨o, ho⟩ : ∃ o, o = ((replyJob P far h0 c u.2.1 u.2.2).guard A).run (plainWorld (fun x => u.1 (.inl x)) fun _ => Arr.replicate 64 0) :=
    ⟨_, rfl⟩
  have hdry : ∀ B, ((replyJob P far h0 c u.2.1 u.2.2).guard A).run (plainWorld (fun x => u.1 (.inl x)) B) = o := fun B => by
    rw [ho]
    exact (replyJob_dry P far h0 c _ _).run A rfl
  simp only [φ, hdry]
  rcases o with _ | x
  · exact Nat.le_add_right _ _
  · exact lateJob_near P rest hl hl0 A (fun x => u.1 (.inl x)) (snoop c.first x.1) ⟨rfl, rfl, Nat.le_refl _⟩ ⟨rfl, rfl, Nat.le_refl _⟩ rfl rfl hE m
      (hm _ _) (hv _ _) second

theorem wireJob_stamp [Finite (Ask M)] (A : Unit → Ask M) (c c' : Serving) (hc : c' = { c with buf := c'.buf })
    (hl : c.buf.length = c'.buf.length) (hb : c'.buf.length ≤ 65536) (snoop : Bytes → Bytes → Snoop) (rounds : Nat) (s : Bool) :
    Nat.card {z : (Place (Ask M) Unit → Arr 32) × (Arr 32 ⊕ Unit × Fin 4 → KeyRow) //
      ((wireJob P far h0 rest c snoop labels rounds s).guard A).run (ideal z.1 z.2) = some true} =
    Nat.card {z : (Place (Ask M) Unit → Arr 32) × (Arr 32 ⊕ Unit × Fin 4 → KeyRow) //
      ((wireJob P far h0 rest c' snoop labels rounds s).guard A).run (ideal z.1 z.2) = some true} := by
  let σ := stamp (body (c.buf.drop 80)) (body (c'.buf.drop 80))
  let τ : (Arr 32 ⊕ Unit × Fin 4 → KeyRow) ≃ (Arr 32 ⊕ Unit × Fin 4 → KeyRow) :=
    Equiv.piCongrRight fun k => if k = .inr ((), 1) then σ else Equiv.refl _
  have t1 : ∀ W, τ W (.inr ((), 1)) = σ (W (.inr ((), 1))) := fun W => rfl
  have t2 : ∀ W k, k ≠ .inr ((), 1) → τ W k = W k := fun W k hk => by
    show (if k = .inr ((), 1) then σ else Equiv.refl _) (W k) = _
    rw [if_neg hk]
    rfl
  refine Nat.card_congr ((Equiv.prodCongr (Equiv.refl _) τ).subtypeEquiv fun z => ?_)
  have hr : ((wiredJob P far h0 rest c snoop labels rounds s (fun j => z.2 (.inr ((), j)))).guard A).run (ideal z.1 z.2) =
      ((wiredJob P far h0 rest c' snoop labels rounds s (fun j => τ z.2 (.inr ((), j)))).guard A).run (ideal z.1 (τ z.2)) := by
    have e : (fun j => τ z.2 (.inr ((), j))) = Function.update (fun j => z.2 (.inr ((), j))) 1 (σ (z.2 (.inr ((), 1)))) := by
      funext j
      by_cases hj : j = 1
      · subst hj
        rw [Function.update_self, t1]
      · rw [Function.update_of_ne hj, t2 _ _ (fun h => hj (Prod.mk.inj (Sum.inr.inj h)).2)]
    rw [e, wiredJob_stamp P far h0 rest c c' hc hl hb]
    exact ((wiredJob_plain P far h0 rest c snoop labels rounds s _).guard A).run rfl (funext fun k => (t2 _ _ (by simp)).symm)
  show ((wiredJob P far h0 rest c snoop labels rounds s (fun j => z.2 (.inr ((), j)))).guard A).run (ideal z.1 z.2) = some true ↔
    ((wiredJob P far h0 rest c' snoop labels rounds s (fun j => τ z.2 (.inr ((), j)))).guard A).run (ideal z.1 (τ z.2)) = some true
  rw [hr]

include hl hl0 in
theorem wireJob_alike [Finite (Ask M)] (A : Unit → Ask M) (c c' : Serving) (hc : c' = { c with buf := c'.buf })
    (hbuf : c.buf.length = c'.buf.length) (hb : c'.buf.length ≤ 65536) (snoop : Bytes → Bytes → Snoop) {rounds : Nat} (hE : rounds ≤ E) (m : Nat)
    (hm : ∀ a b past, ((snoop a b).next past).Within M m) (hv : ∀ a b past, ((snoop a b).verdict past).Within M m)
    (second second' : Bool) :
    2 ^ 256 * Nat.card {z : (Place (Ask M) Unit → Arr 32) × (Arr 32 ⊕ Unit × Fin 4 → KeyRow) //
      ((wireJob P far h0 rest c snoop labels rounds second).guard A).run (ideal z.1 z.2) = some true} ≤
    2 ^ 256 * Nat.card {z : (Place (Ask M) Unit → Arr 32) × (Arr 32 ⊕ Unit × Fin 4 → KeyRow) //
      ((wireJob P far h0 rest c' snoop labels rounds second').guard A).run (ideal z.1 z.2) = some true} +
      2 * (E * ((rounds + 1) * m + E + 2)) * Nat.card ((Place (Ask M) Unit → Arr 32) × (Arr 32 ⊕ Unit × Fin 4 → KeyRow)) := by
  rw [← wireJob_stamp P rest A c c' hc hbuf hb]
  by_cases h : second' = second
  · rw [h]
    exact Nat.le_add_right _ _
  · have two : ∀ a b : Bool, ¬ a = b → a = !b := by decide
    rw [two _ _ h]
    exact wireJob_near P rest hl hl0 A c snoop hE m hm hv second

end

/-! ## The real world -/

theorem listen_mono (P : Prims) (rest : Arr 32 → Arr 12 → Nat → UInt8) (blocks : Blocks) (snoop : Snoop) (second : Bool)
    (rounds : Nat) (s : Duo) (seen : List Seen) (asked : List Bytes) :
    asked ⊆ (snoop.listen P rest blocks second rounds s seen asked).2 := by
  induction rounds generalizing s seen asked with
  | zero => exact List.Subset.refl _
  | succ rounds ih => exact List.Subset.trans (List.subset_append_left _ _) (ih _ _ _)

section
variable {M : Nat} (hM : 97 ≤ M) {far : Bytes → Arr 32} {h0 ee es : Arr 32} (P : Prims) (H : Hashes M)
variable (blocks : Blocks) {Q : Prims} (hQ : Q = P.withHash (H.at far)) (hh : NX.h0 Q = h0)
variable (rest : Arr 32 → Arr 12 → Nat → UInt8)

include hQ hh

theorem tapJob_spec {snoop : Snoop} (hb : ∀ past, (snoop.next past).Alone) {E : Nat} {keys labels : Fin (E + 2) → Arr 32} {Q' : Prims}
    (hLike : ∀ a, Like (Q.withBlocks rest blocks) Q' (keys a) (labels a))
    (hK : ∀ (s : NoiseSession) (e : Nat) remote, e < E →
      (s.dressed (seat keys e)).rekeyed (Q.withBlocks rest blocks) remote = s.dressed (seat keys (e + 1)))
    (hK' : ∀ (s : NoiseSession) (e : Nat) remote, e < E → s.Wears (seat labels e) →
      s.rekeyed Q' remote = s.dressed (seat labels (e + 1)))
    (second : Bool) (j : Nat) {s : Duo} {a b : Nat} (h1 : s.1.Wears (seat labels a)) (h2 : s.2.Wears (seat labels b)) (ha : a + j ≤ E)
    (hb' : b + j ≤ E) (seen : List Seen) (asked : List Bytes) {L : Log M}
    (hL : (tapJob far h0 snoop Q' second j s seen).log (world hM H blocks h0 ee es) ⊆ L) :
    (tapJob far h0 snoop Q' second j s seen).run (world hM H blocks h0 ee es) =
      (snoop.listen Q rest blocks second j (cladDuo keys a b s) seen asked).1 ∧
    (∀ x ∈ (snoop.listen Q rest blocks second j (cladDuo keys a b s) seen asked).2, x ∈ asked ∨ (x.length ≤ M → Logged L x)) ∧
    Asks ((tapJob far h0 snoop Q' second j s seen).log (world hM H blocks h0 ee es))
      (· ∈ (snoop.listen Q rest blocks second j (cladDuo keys a b s) seen asked).2) := by
  induction j generalizing s seen asked a b with
  | zero => exact ⟨rfl, fun x hx => .inl hx, Asks.nil⟩
  | succ j ih =>
    unfold tapJob at hL ⊢
    rw [Prog.log_bind] at hL
    obtain ⟨l1, l2⟩ := List.append_subset.mp hL
    obtain ⟨a1, a5, a4⟩ := attackJob_spec hM P H blocks hQ hh rest (.deliver .initiator []) (snoop.next seen) (hb _) l1
    rw [Prog.run_bind, Prog.log_bind]
    rw [a1] at l2 ⊢
    obtain ⟨a', b', la, lb, w1, w2, e⟩ := act_clad hLike hK hK' h1 h2 (by omega) (by omega) second
      ((snoop.next seen).play Q rest blocks).result
    unfold Snoop.listen
    simp only [e]
    obtain ⟨i1, i2, i3⟩ := ih w1 w2 (by omega) (by omega) (seen ++ [Seen.blind _])
      (asked ++ ((snoop.next seen).play Q rest blocks).asked Q) l2
    refine ⟨i1, fun x hx => ?_, (a4.mono fun x hx => ?_).append i3⟩
    · rcases i2 x hx with hx | hx
      · exact (List.mem_append.mp hx).imp_right (a5 x)
      · exact .inr hx
    · exact listen_mono Q rest blocks snoop second j _ _ _ (List.mem_append_right _ hx)

theorem sayJob_spec {snoop : Snoop} (hb : ∀ past, (snoop.next past).Alone) (hv : ∀ past, (snoop.verdict past).Alone)
    {E : Nat} {keys labels : Fin (E + 2) → Arr 32} {Q' : Prims}
    (hLike : ∀ a, Like (Q.withBlocks rest blocks) Q' (keys a) (labels a))
    (hK : ∀ (s : NoiseSession) (e : Nat) remote, e < E →
      (s.dressed (seat keys e)).rekeyed (Q.withBlocks rest blocks) remote = s.dressed (seat keys (e + 1)))
    (hK' : ∀ (s : NoiseSession) (e : Nat) remote, e < E → s.Wears (seat labels e) →
      s.rekeyed Q' remote = s.dressed (seat labels (e + 1)))
    (second : Bool) {rounds : Nat} (hE : rounds ≤ E) {s : Duo} (h1 : s.1.Wears (seat labels 0)) (h2 : s.2.Wears (seat labels 0))
    {h : List Seen × List Bytes} (hlisten : h = snoop.listen Q rest blocks second rounds (cladDuo keys 0 0 s) [] [])
    {v : Spied Bool} (hverdict : v = (snoop.verdict h.1).play Q rest blocks) {L : Log M}
    (hL : (sayJob far h0 snoop Q' second rounds s).log (world hM H blocks h0 ee es) ⊆ L) :
    (sayJob far h0 snoop Q' second rounds s).run (world hM H blocks h0 ee es) = v.result ∧
    (∀ x ∈ h.2 ++ v.asked Q, x.length ≤ M → Logged L x) ∧
    Asks ((sayJob far h0 snoop Q' second rounds s).log (world hM H blocks h0 ee es)) (· ∈ h.2 ++ v.asked Q) := by
  unfold sayJob at hL ⊢
  rw [Prog.log_bind] at hL
  obtain ⟨l1, l2⟩ := List.append_subset.mp hL
  obtain ⟨e1, e2, e3⟩ := tapJob_spec hM P H blocks hQ hh rest hb hLike hK hK' second rounds h1 h2 (by omega) (by omega) [] [] l1
  rw [← hlisten] at e1 e2 e3
  rw [e1] at l2
  obtain ⟨a1, a5, a4⟩ := attackJob_spec hM P H blocks hQ hh rest false (snoop.verdict h.1) (hv _) l2
  rw [← hverdict] at a1 a4 a5
  rw [Prog.run_bind, Prog.log_bind, e1]
  refine ⟨a1, fun x hx hl => ?_, (e3.mono fun x hx => List.mem_append_left _ hx).append
    (a4.mono fun x hx => List.mem_append_right _ hx)⟩
  rcases List.mem_append.mp hx with hx | hx
  · rcases e2 x hx with hx | hx
    · cases hx
    · exact hx hl
  · exact a5 x hx hl

/-- If no key is empty, the program does what the attacker does. -/
theorem lateJob_spec {snoop : Snoop} (hb : ∀ past, (snoop.next past).Alone) (hv : ∀ past, (snoop.verdict past).Alone)
    {E : Nat} {labels : Fin (E + 2) → Arr 32} (hl : Function.Injective labels) (hl0 : ∀ a, labels a ≠ EMPTY) {k : Arr 32 × Arr 32}
    (hk : ∀ e ≤ E, streamKey (blocks.stream rest) k.1 e ≠ EMPTY) (hk2 : k.2 ≠ EMPTY) (second : Bool) {rounds : Nat} (hE : rounds ≤ E)
    (rs t : Arr 32) {h : List Seen × List Bytes} (hlisten : h = snoop.listen Q rest blocks second rounds (talking rs t k) [] [])
    {v : Spied Bool} (hverdict : v = (snoop.verdict h.1).play Q rest blocks) {L : Log M}
    (hL : (lateJob P far h0 rest snoop labels rounds second (talking rs t (seat labels 0)) (fun x => blocks (k.1, x))
      (fun x => blocks (k.2, x))).log (world hM H blocks h0 ee es) ⊆ L) :
    (lateJob P far h0 rest snoop labels rounds second (talking rs t (seat labels 0)) (fun x => blocks (k.1, x))
      (fun x => blocks (k.2, x))).run (world hM H blocks h0 ee es) = v.result ∧
    (∀ x ∈ h.2 ++ v.asked Q, x.length ≤ M → Logged L x) ∧
    Asks ((lateJob P far h0 rest snoop labels rounds second (talking rs t (seat labels 0)) (fun x => blocks (k.1, x))
      (fun x => blocks (k.2, x))).log (world hM H blocks h0 ee es)) (· ∈ h.2 ++ v.asked Q) := by
  unfold lateJob at hL ⊢
  rw [Prog.log_bind] at hL
  obtain ⟨-, l2⟩ := List.append_subset.mp hL
  obtain ⟨c1, c2⟩ := chainJob_spec (ee := ee) (es := es) (h0 := h0) hM H blocks rest k.1 E
  have hclad : talking rs t k = cladDuo (trail blocks rest k E) 0 0 (talking rs t (seat labels 0)) := by
    have : cladDuo (trail blocks rest k E) 0 0 (talking rs t (seat labels 0)) = talking rs t (seat (trail blocks rest k E) 0) := rfl
    rw [this, seat_trail blocks rest k (Nat.zero_le E)]
    rfl
  rw [hclad] at hlisten
  obtain ⟨e1, e2, e3⟩ := sayJob_spec hM P H blocks hQ hh rest hb hv
    (trail_like blocks rest Q P hk hk2 hl hl0 (fun e he => c1 e he) rfl fun _ => Arr.replicate 64 0)
    (trail_rekeyed blocks rest Q k E) (build_rekeyed P rest hl _ _) second hE ⟨rfl, rfl, Nat.le_refl _⟩ ⟨rfl, rfl, Nat.le_refl _⟩
    hlisten hverdict l2
  rw [Prog.run_bind, Prog.log_bind]
  exact ⟨e1, e2, (c2 _).append e3⟩

end

end SV2.Noise.Distant
