import Verif.Lemmas.VeilEar
import Verif.Lemmas.Long
import Verif.Spec.Forward
/-!
# A handshake that nobody disturbs, as a program

The client, the server and the attacker as one program in the sense of `Verif/Lemmas/Long.lean`.  There is one chain: it
begins where the shared secret of the ephemeral keys is mixed in, and ends with the session keys.
-/

namespace SV2.Long
open Function

variable {X V P R α β : Type}

/-! ## Programs that ask for no chain -/

def Prog.Plain : Prog X V P R α → Prop
  | .ret _ => True
  | .hash _ next => ∀ v, (next v).Plain
  | .row _ next => ∀ r, (next r).Plain
  | .mix _ _ => False

theorem Prog.Plain.bind {m : Prog X V P R α} {f : α → Prog X V P R β} (hm : m.Plain) (hf : ∀ a, (f a).Plain) :
    (m.bind f).Plain := by
  induction m with
  | ret a => exact hf a
  | hash x next ih => exact fun v => ih v (hm v)
  | row k next ih => exact fun r => ih r (hm r)
  | mix p next ih => exact hm.elim

theorem Prog.Plain.guard (A : P → X) {m : Prog X V P R α} (hm : m.Plain) : (m.guard A).Plain := by
  induction m with
  | ret a => trivial
  | hash x next ih =>
    unfold Prog.guard
    split
    · trivial
    · exact fun v => ih v (hm v)
  | row k next ih => exact fun r => ih r (hm r)
  | mix p next ih => exact hm.elim

theorem Prog.Plain.run {m : Prog X V P R α} (hm : m.Plain) {w w' : World X V P R} (h1 : w.hash = w'.hash) (h2 : w.row = w'.row) :
    m.run w = m.run w' := by
  induction m with
  | ret a => rfl
  | hash x next ih =>
    simp only [Prog.run, ← h1]
    exact ih _ (hm _)
  | row k next ih =>
    simp only [Prog.run, ← h2]
    exact ih _ (hm _)
  | mix p next ih => exact hm.elim

/-! ## Two values of a function -/

theorem card_pair {I : Type} [Finite I] [Finite R] [Nonempty R] {i j : I} (hij : i ≠ j) {φ ψ : (I → R) → R → R → Prop}
    (hφ : ∀ f f', (∀ k, k ≠ i → k ≠ j → f k = f' k) → φ f = φ f') (hψ : ∀ f f', (∀ k, k ≠ i → k ≠ j → f k = f' k) → ψ f = ψ f')
    (h : ∀ f, Nat.card {y : R × R // φ f y.1 y.2} = Nat.card {y : R × R // ψ f y.1 y.2}) :
    Nat.card {f : I → R // φ f (f i) (f j)} = Nat.card {f : I → R // ψ f (f i) (f j)} := by
  classical
  have key : ∀ φ : (I → R) → R → R → Prop, (∀ f f', (∀ k, k ≠ i → k ≠ j → f k = f' k) → φ f = φ f') →
      Nat.card {f : I → R // φ f (f i) (f j)} * Nat.card (R × R) =
        Nat.card {x : (I → R) × (R × R) // φ x.1 x.2.1 x.2.2} := by
    intro φ hφ
    have hu : ∀ f a b, φ (update (update f i a) j b) = φ f := fun f a b =>
      hφ _ _ fun k h1 h2 => by rw [update_of_ne h2, update_of_ne h1]
    rw [← Nat.card_prod]
    refine Nat.card_congr
      { toFun := fun z => ⟨(update (update z.1.1 i z.2.1) j z.2.2, (z.1.1 i, z.1.1 j)), ?_⟩
        invFun := fun z => (⟨update (update z.1.1 i z.1.2.1) j z.1.2.2, ?_⟩, (z.1.1 i, z.1.1 j))
        left_inv := ?_
        right_inv := ?_ }
    · simp only [hu]
      exact z.1.2
    · rw [hu, update_of_ne hij, update_self, update_self]
      exact z.2
    · rintro ⟨⟨f, hf⟩, a, b⟩
      refine Prod.ext (Subtype.ext ?_) ?_
      · funext k
        by_cases hk : k = j
        · subst hk; simp
        · by_cases hk' : k = i
          · subst hk'; simp [hk]
          · simp [hk, hk']
      · simp [hij]
    · rintro ⟨⟨f, a, b⟩, hy⟩
      refine Subtype.ext (Prod.ext ?_ ?_)
      · funext k
        by_cases hk : k = j
        · subst hk; simp
        · by_cases hk' : k = i
          · subst hk'; simp [hk]
          · simp [hk, hk']
      · simp [hij]
  have e : Nat.card {x : (I → R) × (R × R) // φ x.1 x.2.1 x.2.2} = Nat.card {x : (I → R) × (R × R) // ψ x.1 x.2.1 x.2.2} := by
    have := Fintype.ofFinite (I → R)
    rw [Nat.card_congr (Equiv.subtypeProdEquivSigmaSubtype fun f (y : R × R) => φ f y.1 y.2), Nat.card_sigma,
      Nat.card_congr (Equiv.subtypeProdEquivSigmaSubtype fun f (y : R × R) => ψ f y.1 y.2), Nat.card_sigma]
    exact Finset.sum_congr rfl fun f _ => h f
  rw [← key φ hφ, ← key ψ hψ] at e
  exact Nat.eq_of_mul_eq_mul_right Nat.card_pos e

/-- Two programs that begin with the same chain.  If for all that is known otherwise they say yes for equally many pairs of
the last two rows, then in equally many ideal worlds. -/
theorem card_alike [Finite X] [Finite V] [Finite P] [Finite R] [Nonempty R] (A : P → X) (p : P)
    (f f' : (Fin 4 → R) → Prog X V P R Bool) (hf : ∀ r, (f r).Plain) (hf' : ∀ r, (f' r).Plain)
    (heq : ∀ (a b : R) w, Nat.card {y : R × R // ((f ![a, b, y.1, y.2]).guard A).run w = some true} =
      Nat.card {y : R × R // ((f' ![a, b, y.1, y.2]).guard A).run w = some true}) :
    Nat.card {z : (Place X P → V) × (V ⊕ P × Fin 4 → R) // ((Prog.mix p f).guard A).run (ideal z.1 z.2) = some true} =
    Nat.card {z : (Place X P → V) × (V ⊕ P × Fin 4 → R) // ((Prog.mix p f').guard A).run (ideal z.1 z.2) = some true} := by
  have := Fintype.ofFinite (Place X P → V)
  rw [Nat.card_congr (Equiv.subtypeProdEquivSigmaSubtype fun Z (W : V ⊕ P × Fin 4 → R) =>
      ((Prog.mix p f).guard A).run (ideal Z W) = some true), Nat.card_sigma,
    Nat.card_congr (Equiv.subtypeProdEquivSigmaSubtype fun Z (W : V ⊕ P × Fin 4 → R) =>
      ((Prog.mix p f').guard A).run (ideal Z W) = some true), Nat.card_sigma]
  refine Finset.sum_congr rfl fun Z _ => ?_
  have e : ∀ (f : (Fin 4 → R) → Prog X V P R Bool) (W : V ⊕ P × Fin 4 → R), ((Prog.mix p f).guard A).run (ideal Z W) =
      ((f ![W (.inr (p, 0)), W (.inr (p, 1)), W (.inr (p, 2)), W (.inr (p, 3))]).guard A).run (ideal Z W) := by
    intro f W
    have : (fun j => W (.inr (p, j))) = ![W (.inr (p, 0)), W (.inr (p, 1)), W (.inr (p, 2)), W (.inr (p, 3))] := by
      funext j
      fin_cases j <;> rfl
    rw [← this]
    rfl
  simp only [e]
  have ind : ∀ f : (Fin 4 → R) → Prog X V P R Bool, (∀ r, (f r).Plain) → ∀ W W' : V ⊕ P × Fin 4 → R,
      (∀ k, k ≠ .inr (p, 2) → k ≠ .inr (p, 3) → W k = W' k) →
      (fun a b => ((f ![W (.inr (p, 0)), W (.inr (p, 1)), a, b]).guard A).run (ideal Z W) = some true) =
      (fun a b => ((f ![W' (.inr (p, 0)), W' (.inr (p, 1)), a, b]).guard A).run (ideal Z W') = some true) := by
    intro f hf W W' h
    funext a b
    rw [h (.inr (p, 0)) (by simp) (by simp), h (.inr (p, 1)) (by simp) (by simp)]
    rw [((hf _).guard A).run (w := ideal Z W) (w' := ideal Z W') rfl (funext fun k => h (.inl k) (by simp) (by simp))]
  exact card_pair (i := (.inr (p, 2) : V ⊕ P × Fin 4)) (j := .inr (p, 3)) (by simp)
    (φ := fun W a b => ((f ![W (.inr (p, 0)), W (.inr (p, 1)), a, b]).guard A).run (ideal Z W) = some true)
    (ψ := fun W a b => ((f' ![W (.inr (p, 0)), W (.inr (p, 1)), a, b]).guard A).run (ideal Z W) = some true)
    (ind f hf) (ind f' hf') fun W => heq _ _ _

end SV2.Long

namespace SV2.Noise.Distant
open SV2.Long
open SV2.Noise.Veiled (Ask kind ne_name length_96 length_65 length_97 length_64 kindOf_E cut pairPrims talking talking_wears kept
  choice mocks mockPrims)

abbrev Job (M : Nat) (α : Type) := Prog (Ask M) (Arr 32) Unit KeyRow α
abbrev Log (M : Nat) := List (Event (Ask M) (Arr 32) Unit)

/-- The inputs of the eighteen hashes. -/
def shape {M : Nat} (hM : 97 ≤ M) (h0 ee es : Arr 32) : Shape (Ask M) (Arr 32) Unit where
  A _ := ⟨padded 0x36 h0 ++ ee.toList, by rw [length_96]; omega, ne_name (by rw [length_96]; decide)⟩
  B k u := ⟨padded 0x5c k ++ u.toList, by rw [length_96]; omega, ne_name (by rw [length_96]; decide)⟩
  C k := ⟨padded 0x36 k ++ [0x01], by rw [length_65]; omega, ne_name (by rw [length_65]; decide)⟩
  D k u := ⟨padded 0x36 k ++ (u.toList ++ [0x02]), by rw [length_97]; omega, ne_name (by rw [length_97]; decide)⟩
  E k := ⟨padded 0x36 k ++ [], by rw [length_64]; omega, ne_name (by rw [length_64]; decide)⟩
  F k := ⟨padded 0x36 k ++ es.toList, by rw [length_96]; omega, ne_name (by rw [length_96]; decide)⟩
  ck _ := h0
  bad := NX.zeros
  start := h0
  head x := some (headOf x.1)
  tail x := some (keyIn (x.1.drop 64))
  kind x := kind x.1
  A_inj _ _ _ := rfl
  head_B k u := by
    simp only [headOf, kindOf_B]
    exact congrArg some (keyIn_padded _ _ _)
  tail_B k u := congrArg some (drop_padded _ _ _)
  head_C k := by
    simp only [headOf, kindOf_C]
    exact congrArg some (keyIn_padded _ _ _)
  head_D k u := by
    simp only [headOf, kindOf_D]
    exact congrArg some (keyIn_padded _ _ _)
  head_E k := by
    simp only [headOf, kindOf_E]
    exact congrArg some (keyIn_padded _ _ _)
  head_F k := by
    simp only [headOf, kindOf_A]
    exact congrArg some (keyIn_padded _ _ _)
  kind_A p := by rw [kind, if_neg (by rw [length_96]; decide)]; exact kindOf_A _ _
  kind_B k u := by rw [kind, if_neg (by rw [length_96]; decide)]; exact kindOf_B _ _
  kind_C k := by rw [kind, if_neg (by rw [length_65]; decide)]; exact kindOf_C _
  kind_D k u := by rw [kind, if_neg (by rw [length_97]; decide)]; exact kindOf_D _ _
  kind_E k := by rw [kind, if_pos (length_64 _ _)]
  kind_F k := by rw [kind, if_neg (by rw [length_96]; decide)]; exact kindOf_A _ _
  A_F p k h := by
    have h := congrArg Subtype.val h
    simp only at h
    have h1 := keyIn_padded 0x36 h0 ee.toList
    rw [h, keyIn_padded] at h1
    exact h1

/-! ## The parts of the program -/

section
variable (P : Prims) {M : Nat} (far : Bytes → Arr 32) (h0 : Arr 32)

def hashJob (x : Bytes) : Job M (Arr 32) :=
  if hn : x = nameBytes then .ret h0 else if h : x.length ≤ M then .hash ⟨x, h, hn⟩ .ret else .ret (far x)

/-- Mixes parts into the handshake hash. -/
def foldJob : Arr 32 → List Bytes → Job M (Arr 32)
  | h, [] => .ret h
  | h, d :: ds => (hashJob far h0 (h.toList ++ d)).bind fun h' => foldJob h' ds

/-- The server's message and the handshake hash. -/
def replyJob (c : Serving) (r1 r2 : KeyRow) : Job M (Bytes × Arr 32) :=
  (foldJob far h0 h0 [c.prologue, c.first.take 32, c.first.drop 32, (P.publicOf c.eR).toList]).bind fun t1 =>
  (foldJob far h0 t1 [encRow P r1 t1.toList (P.publicOf c.sR).toList]).bind fun t2 =>
  (foldJob far h0 t2 [encRow P r2 t2.toList (body (c.buf.drop 80))]).bind fun t3 =>
  .ret ((P.publicOf c.eR).toList ++ encRow P r1 t1.toList (P.publicOf c.sR).toList ++
    encRow P r2 t2.toList (body (c.buf.drop 80)), t3)

def attackJob {α : Type} (fallback : α) : Curious α → Job M α
  | .reply a => .ret a
  | .hash x next => (hashJob far h0 x).bind fun y => attackJob fallback (next y)
  | .block x next => .row x.1 fun r => attackJob fallback (next (r x.2))
  | .serve _ _ => .ret fallback

def earJob (listener : Listener) (Q' : Prims) (second : Bool) : Nat → Duo → List Seen → Job M (List Seen)
  | 0, _, seen => .ret seen
  | j + 1, s, seen => (attackJob far h0 (.deliver .initiator []) (listener.next seen)).bind fun t =>
    let r := s.act Q' second t.move
    earJob listener Q' second j r.2.2 (seen ++ [Seen.blind ⟨r.1, r.2.1, r.2.2.1, r.2.2.2⟩])

/-- And what the attacker says in the end. -/
def verdictJob (listener : Listener) (Q' : Prims) (second : Bool) (rounds : Nat) (s : Duo) : Job M Bool :=
  (earJob far h0 listener Q' second rounds s []).bind fun v => attackJob far h0 false (listener.verdict v)

/-- All of it after the chain. -/
def afterJob (c : Serving) (listener : Bytes → Bytes → Listener) (rounds : Nat) (second : Bool) (r : Fin 4 → KeyRow) : Job M Bool :=
  (replyJob P far h0 c (r 0) (r 1)).bind fun x => verdictJob far h0 (listener c.first x.1) (pairPrims P (r 2) (r 3)) second rounds
    (talking (P.publicOf c.sR) x.2 mocks)

/-! ## No further chain -/

theorem hashJob_plain (x : Bytes) : (hashJob (M := M) far h0 x).Plain := by
  unfold hashJob
  split
  · trivial
  · split
    · exact fun _ => trivial
    · trivial

theorem foldJob_plain (ds : List Bytes) (h : Arr 32) : (foldJob (M := M) far h0 h ds).Plain := by
  induction ds generalizing h with
  | nil => trivial
  | cons d ds ih => exact (hashJob_plain far h0 _).bind fun _ => ih _

theorem replyJob_plain (c : Serving) (r1 r2 : KeyRow) : (replyJob (M := M) P far h0 c r1 r2).Plain :=
  (foldJob_plain far h0 _ _).bind fun _ => (foldJob_plain far h0 _ _).bind fun _ => (foldJob_plain far h0 _ _).bind fun _ => trivial

theorem attackJob_plain {α : Type} (fallback : α) (c : Curious α) : (attackJob (M := M) far h0 fallback c).Plain := by
  induction c with
  | reply a => trivial
  | hash x next ih => exact (hashJob_plain far h0 _).bind fun y => ih y
  | block x next ih => exact fun r => ih _
  | serve c next ih => trivial

theorem earJob_plain (listener : Listener) (Q' : Prims) (second : Bool) (j : Nat) (s : Duo) (seen : List Seen) :
    (earJob (M := M) far h0 listener Q' second j s seen).Plain := by
  induction j generalizing s seen with
  | zero => trivial
  | succ j ih => exact (attackJob_plain far h0 _ _).bind fun t => ih _ _

theorem afterJob_plain (c : Serving) (listener : Bytes → Bytes → Listener) (rounds : Nat) (second : Bool) (r : Fin 4 → KeyRow) :
    (afterJob (M := M) P far h0 c listener rounds second r).Plain :=
  (replyJob_plain P far h0 c _ _).bind fun _ => (earJob_plain far h0 _ _ _ _ _ _).bind fun _ => attackJob_plain far h0 _ _

/-! ## How often they ask -/

variable {α β : Type}

/-- At most `n` questions. -/
def Calls (n : Nat) (m : Job M α) : Prop := ∀ w, (m.log w).length ≤ n

theorem Calls.bind {a b : Nat} {m : Job M α} {f : α → Job M β} (hm : Calls a m) (hf : ∀ x, Calls b (f x)) :
    Calls (a + b) (m.bind f) := by
  intro w
  rw [Prog.log_bind, List.length_append]
  exact Nat.add_le_add (hm w) (hf _ w)

theorem Calls.mono {a b : Nat} {m : Job M α} (h : Calls a m) (hab : a ≤ b) : Calls b m :=
  fun w => (h w).trans hab

theorem Calls.ret (a : α) : Calls (M := M) 0 (.ret a) := fun _ => Nat.le_refl _

theorem hashJob_calls (x : Bytes) : Calls (M := M) 1 (hashJob far h0 x) := by
  intro w
  unfold hashJob
  split
  · exact Nat.zero_le _
  · split
    · exact Nat.le_refl _
    · exact Nat.zero_le _

theorem foldJob_calls (ds : List Bytes) (h : Arr 32) : Calls (M := M) ds.length (foldJob far h0 h ds) := by
  induction ds generalizing h with
  | nil => exact Calls.ret _
  | cons d ds ih => exact ((hashJob_calls far h0 _).bind fun _ => ih _).mono (by simp only [List.length_cons]; omega)

theorem replyJob_calls (c : Serving) (r1 r2 : KeyRow) : Calls (M := M) 6 (replyJob P far h0 c r1 r2) := by
  have f1 : ∀ h (d : Bytes), Calls (M := M) 1 (foldJob far h0 h [d]) := fun h d => foldJob_calls far h0 [d] h
  have f4 : Calls (M := M) 4 (foldJob far h0 h0 [c.prologue, c.first.take 32, c.first.drop 32, (P.publicOf c.eR).toList]) :=
    foldJob_calls far h0 _ h0
  exact f4.bind (b := 2) fun t1 => (f1 _ _).bind (b := 1) fun t2 => (f1 _ _).bind (b := 0) fun t3 => Calls.ret _

theorem attackJob_calls (fallback : α) (c : Curious α) (n : Nat) (hn : c.Within M n) :
    Calls (M := M) n (attackJob far h0 fallback c) := by
  induction c generalizing n with
  | reply a => exact (Calls.ret _).mono (by omega)
  | hash x next ih =>
    cases n with
    | zero => exact hn.elim
    | succ n => exact ((hashJob_calls far h0 _).bind fun y => ih y n (hn y)).mono (by omega)
  | block x next ih =>
    cases n with
    | zero => exact hn.elim
    | succ n =>
      intro w
      exact Nat.succ_le_succ (ih _ n (hn _) w)
  | serve c next ih => exact (Calls.ret _).mono (by omega)

theorem earJob_calls (listener : Listener) (Q' : Prims) (second : Bool) (m : Nat) (hm : ∀ past, (listener.next past).Within M m)
    (j : Nat) (s : Duo) (seen : List Seen) : Calls (M := M) (j * m) (earJob far h0 listener Q' second j s seen) := by
  induction j generalizing s seen with
  | zero => exact (Calls.ret _).mono (by omega)
  | succ j ih =>
    refine ((attackJob_calls far h0 _ _ m (hm _)).bind fun t => ih _ _).mono ?_
    have := Nat.add_one_mul j m
    omega

theorem afterJob_calls (c : Serving) (listener : Bytes → Bytes → Listener) (rounds m : Nat)
    (hm : ∀ a b past, ((listener a b).next past).Within M m) (hv : ∀ a b past, ((listener a b).verdict past).Within M m)
    (second : Bool) (r : Fin 4 → KeyRow) :
    Calls (M := M) ((rounds + 1) * m + 6) (afterJob P far h0 c listener rounds second r) := by
  refine ((replyJob_calls P far h0 c _ _).bind fun x => (earJob_calls far h0 (listener c.first x.1) _ second m (hm _ _) rounds _ []).bind
    fun v => attackJob_calls far h0 _ _ m (hv _ _ v)).mono ?_
  have := Nat.add_one_mul rounds m
  omega

end

/-! ## Whichever text is sent -/

section
variable (P : Prims) {M : Nat} {far : Bytes → Arr 32} {h0 : Arr 32}

theorem earJob_run (A : Unit → Ask M) (w : World (Ask M) (Arr 32) Unit KeyRow) (listener : Listener) (Q' : Prims)
    (second : Bool) {f : List Seen → Option Talk}
    (hf : ∀ v, f v = ((attackJob far h0 (.deliver .initiator []) (listener.next v)).guard A).run w) (rounds : Nat) {s : Duo}
    (hs : s.Wears mocks) (l : List Seen) (hl : ∀ j < l.length, f ((l.take j).map Seen.blind) ≠ none) :
    ((earJob far h0 listener Q' second rounds s (l.map Seen.blind)).guard A).run w =
      kept f (Duo.play Q' second (fun l => (choice f l).move) rounds s l) := by
  have t1 : Twin Q' Q' mocks.1 mocks.1 := ⟨fun _ _ _ => rfl, fun _ _ _ _ => rfl, by decide, by decide⟩
  have t2 : Twin Q' Q' mocks.2 mocks.2 := ⟨fun _ _ _ => rfl, fun _ _ _ _ => rfl, by decide, by decide⟩
  induction rounds generalizing s l with
  | zero => exact (if_pos hl).symm
  | succ rounds ih =>
    have hne : s.1.cs1.k ≠ s.2.cs2.k := by
      rw [hs.i.k1, hs.r.k2]
      decide
    unfold earJob
    rw [Prog.guard_run_bind, ← hf]
    unfold Duo.play
    rw [if_neg hne]
    rcases hc : f (l.map Seen.blind) with _ | t
    · have hp := Duo.play_prefix Q' second (fun l => (choice f l).move) rounds (s.act Q' second (choice f l).move).2.2
        (l ++ [⟨(s.act Q' second (choice f l).move).1, (s.act Q' second (choice f l).move).2.1,
          (s.act Q' second (choice f l).move).2.2.1, (s.act Q' second (choice f l).move).2.2.2⟩])
      obtain ⟨l', hl'⟩ := hp
      simp only [Option.bind_none]
      symm
      refine if_neg fun h => h l.length ?_ ?_
      · rw [← hl', List.length_append, List.length_append]
        simp only [List.length_cons]
        omega
      · rw [← hl', List.append_assoc, List.take_left' rfl]
        exact hc
    · have e : choice f l = t := by unfold choice; rw [hc]; rfl
      obtain ⟨-, w⟩ := Duo.act_twin t1 t2 hs second t
      simp only [Option.bind_some, e]
      rw [← ih w]
      · rw [List.map_append]
        rfl
      · intro j hj
        rw [List.length_append] at hj
        by_cases h : j < l.length
        · rw [List.take_append_of_le_length (by omega)]
          exact hl j h
        · have : j = l.length := by simp only [List.length_cons, List.length_nil] at hj; omega
          subst this
          rw [List.take_left' rfl, hc]
          exact Option.some_ne_none _

theorem verdictJob_alike (A : Unit → Ask M) (w : World (Ask M) (Arr 32) Unit KeyRow) (listener : Listener)
    (second : Bool) (rounds : Nat) (rs t : Arr 32) :
    Nat.card {y : KeyRow × KeyRow // ((verdictJob far h0 listener (pairPrims P y.1 y.2) second rounds
      (talking rs t mocks)).guard A).run w = some true} =
    Nat.card {y : KeyRow × KeyRow // ((verdictJob far h0 listener (pairPrims P y.1 y.2) (!second) rounds
      (talking rs t mocks)).guard A).run w = some true} := by
  obtain ⟨f, hf⟩ : ∃ f : List Seen → Option Talk,
      ∀ v, f v = ((attackJob far h0 (.deliver .initiator []) (listener.next v)).guard A).run w := ⟨_, fun _ => rfl⟩
  let test : List Seen → Prop := fun l =>
    ((kept f l).bind fun v => ((attackJob far h0 false (listener.verdict v)).guard A).run w) = some true
  let played : Bool → KeyRow → KeyRow → Prop := fun second a b =>
    test (Duo.play (pairPrims P a b) second (fun l => (choice f l).move) rounds (talking rs t mocks) [])
  have e1 : ∀ second a b, ((verdictJob far h0 listener (pairPrims P a b) second rounds (talking rs t mocks)).guard A).run w =
      some true ↔ played second a b := by
    intro second a b
    unfold verdictJob
    rw [Prog.guard_run_bind]
    have := earJob_run A w listener (pairPrims P a b) second hf rounds (talking_wears rs t mocks) []
      (fun j hj => absurd hj (Nat.not_lt_zero _))
    rw [List.map_nil] at this
    rw [this]
  have e2 : ∀ second, Nat.card {b : Arr 32 → KeyRow // played second (b mocks.1) (b mocks.2)} =
      Nat.card {blocks : Blocks // test (Duo.play (P.withBlocks (fun _ _ _ => 0) blocks) second (fun l => (choice f l).move)
        rounds (talking rs t mocks) [])} := by
    intro second
    refine Nat.card_congr ((Equiv.curry (Arr 32) (Arr 12 × Fin 1025) (Arr 64)).symm.subtypeEquiv fun b => ?_)
    show test _ ↔ test _
    rw [Duo.play_twin (Q := P.withBlocks (fun _ _ _ => 0) _) (Q' := pairPrims P (b mocks.1) (b mocks.2)) (k := mocks) ?_ ?_
      second (choice f) rounds (talking_wears rs t mocks) []]
    · exact twin_blocks P P (fun n c => rfl) (by decide) (by decide)
    · refine twin_blocks P P (fun n c => ?_) (by decide) (by decide)
      rw [if_neg (show mocks.2 ≠ mocks.1 by decide)]
      rfl
  have e3 := C94_secret P (fun _ _ _ => 0) (talking rs t mocks).1 (talking rs t mocks).2 rfl rfl (Nat.le_refl _) (Nat.le_refl _)
    (fun l => (choice f l).move) rounds test
  have e4 : Nat.card {b : Arr 32 → KeyRow // played second (b mocks.1) (b mocks.2)} =
      Nat.card {b : Arr 32 → KeyRow // played (!second) (b mocks.1) (b mocks.2)} := by
    rw [e2, e2]
    cases second
    · exact e3
    · exact e3.symm
  have : Nonempty KeyRow := ⟨fun _ => Arr.replicate 64 0⟩
  have e5 := Veil.card_two_eq' (I := Arr 32) (R := KeyRow) (i := mocks.1) (j := mocks.2) (by decide) e4
  simp only [e1]
  exact e5

theorem afterJob_alike (A : Unit → Ask M) (w : World (Ask M) (Arr 32) Unit KeyRow) (c : Serving)
    (listener : Bytes → Bytes → Listener) (rounds : Nat) (second : Bool) (a b : KeyRow) :
    Nat.card {y : KeyRow × KeyRow // ((afterJob P far h0 c listener rounds second ![a, b, y.1, y.2]).guard A).run w = some true} =
    Nat.card {y : KeyRow × KeyRow // ((afterJob P far h0 c listener rounds (!second) ![a, b, y.1, y.2]).guard A).run w =
      some true} := by
  have e : ∀ (second : Bool) (y : KeyRow × KeyRow), ((afterJob P far h0 c listener rounds second ![a, b, y.1, y.2]).guard A).run w =
      (((replyJob P far h0 c a b).guard A).run w).bind fun x => ((verdictJob far h0 (listener c.first x.1) (pairPrims P y.1 y.2)
        second rounds (talking (P.publicOf c.sR) x.2 mocks)).guard A).run w := by
    intro second y
    unfold afterJob
    rw [Prog.guard_run_bind]
    rfl
  simp only [e]
  rcases ((replyJob P far h0 c a b).guard A).run w with _ | x
  · rfl
  · exact verdictJob_alike P A w (listener c.first x.1) second rounds _ _

end

end SV2.Noise.Distant
