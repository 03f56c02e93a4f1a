import Verif.Lemmas.VeilHide
import Verif.Spec.Eavesdrop
import Verif.Props.Ideal
/-!
# Somebody listens to the two sides

The part of the program after the client has accepted: the two sessions with other keys, and the attacker that has them send
one of two texts.  For all else that is known, it says yes for as many pairs of rows whichever text is sent.
-/

namespace SV2.Noise

/-! ## Other keys -/

/-- Both sessions with these keys. -/
def Duo.dressed (k : Arr 32 × Arr 32) (s : Duo) : Duo := (s.1.dressed k, s.2.dressed k)

structure Duo.Wears (k : Arr 32 × Arr 32) (s : Duo) : Prop where
  i : s.1.Wears k
  r : s.2.Wears k

theorem NoiseSession.dressed_self {k : Arr 32 × Arr 32} {s : NoiseSession} (h : s.Wears k) : s.dressed k = s := by
  unfold NoiseSession.dressed
  rw [← h.k1, ← h.k2]

theorem Duo.dressed_self {k : Arr 32 × Arr 32} {s : Duo} (h : s.Wears k) : s.dressed k = s :=
  Prod.ext (NoiseSession.dressed_self h.i) (NoiseSession.dressed_self h.r)

theorem Duo.get_dressed (k : Arr 32 × Arr 32) (s : Duo) (who : Party) : (s.dressed k).get who = (s.get who).dressed k := by
  cases who <;> rfl

theorem Duo.set_dressed (k : Arr 32 × Arr 32) (s : Duo) (who : Party) (x : NoiseSession) :
    (s.dressed k).set who (x.dressed k) = (s.set who x).dressed k := by
  cases who <;> rfl

theorem Duo.Wears.get {k : Arr 32 × Arr 32} {s : Duo} (h : s.Wears k) (who : Party) : (s.get who).Wears k := by
  cases who
  · exact h.i
  · exact h.r

theorem Duo.Wears.set {k : Arr 32 × Arr 32} {s : Duo} (h : s.Wears k) (who : Party) {x : NoiseSession} (hx : x.Wears k) :
    (s.set who x).Wears k := by
  cases who
  · exact ⟨hx, h.r⟩
  · exact ⟨h.i, hx⟩

theorem Duo.act_twin {Q Q' : Prims} {k k' : Arr 32 × Arr 32} (h1 : Twin Q Q' k.1 k'.1) (h2 : Twin Q Q' k.2 k'.2) {s : Duo}
    (hs : s.Wears k') (second : Bool) (t : Talk) :
    (s.dressed k).act Q second t.move =
      ((s.act Q' second t.move).1, (s.act Q' second t.move).2.1, (s.act Q' second t.move).2.2.dressed k) ∧
    (s.act Q' second t.move).2.2.Wears k' := by
  cases t with
  | send who m0 m1 =>
    simp only [Talk.move, Duo.act]
    split
    · obtain ⟨e, w⟩ := NoiseSession.send_twin h1 h2 (hs.get who) Keypair.empty Keypair.empty (if second then m1 else m0)
      rw [Duo.get_dressed, e]
      generalize (s.get who).sendMessage Q' Keypair.empty (if second then m1 else m0) = x at w ⊢
      obtain ⟨o, x, wire⟩ := x
      have ws := hs.set who w
      cases o with
      | ok u =>
        cases u
        simp only [Duo.set_dressed]
        exact ⟨trivial, ws⟩
      | err e =>
        simp only [Duo.set_dressed]
        exact ⟨trivial, ws⟩
      | panic =>
        simp only [Duo.set_dressed]
        exact ⟨trivial, ws⟩
    · exact ⟨rfl, hs⟩
  | deliver who bytes =>
    obtain ⟨e, w⟩ := NoiseSession.recv_twin h1 h2 (hs.get who) bytes
    simp only [Talk.move, Duo.act]
    rw [Duo.get_dressed, e]
    simp only [Duo.set_dressed]
    exact ⟨trivial, hs.set who w⟩

theorem Seen.blind_dressed (k : Arr 32 × Arr 32) (o : NResult Unit) (w : Bytes) (s : Duo) :
    Seen.blind ⟨o, w, (s.dressed k).1, (s.dressed k).2⟩ = Seen.blind ⟨o, w, s.1, s.2⟩ := rfl

/-- With ciphers that do the same. -/
theorem Duo.play_twin {Q Q' : Prims} {k : Arr 32 × Arr 32} (h1 : Twin Q Q' k.1 k.1) (h2 : Twin Q Q' k.2 k.2) (second : Bool)
    (choose : List Seen → Talk) (rounds : Nat) {s : Duo} (hs : s.Wears k) (seen : List Seen) :
    Duo.play Q second (fun l => (choose l).move) rounds s seen = Duo.play Q' second (fun l => (choose l).move) rounds s seen := by
  induction rounds generalizing s seen with
  | zero => rfl
  | succ rounds ih =>
    unfold Duo.play
    split
    · rfl
    · obtain ⟨e, w⟩ := Duo.act_twin h1 h2 hs second (choose seen)
      rw [Duo.dressed_self hs, Duo.dressed_self w] at e
      simp only [e]
      exact ih w _

theorem Duo.play_prefix (Q : Prims) (second : Bool) (attacker : Attacker) (rounds : Nat) (s : Duo) (seen : List Seen) :
    seen <+: Duo.play Q second attacker rounds s seen := by
  induction rounds generalizing s seen with
  | zero => exact List.prefix_rfl
  | succ rounds ih =>
    unfold Duo.play
    split
    · exact List.prefix_rfl
    · exact (List.prefix_append _ _).trans (ih _ _)

theorem Listener.listen_mono (P : Prims) (rest : Arr 32 → Arr 12 → Nat → UInt8) (blocks : Blocks) (listener : Listener) (second : Bool)
    (rounds : Nat) (s : Duo) (seen : List Seen) (asked : List Bytes) :
    asked ⊆ (listener.listen P rest blocks second rounds s seen asked).2 := by
  induction rounds generalizing s seen asked with
  | zero => exact List.Subset.refl _
  | succ rounds ih => exact List.Subset.trans (List.subset_append_left _ _) (ih _ _ _)

end SV2.Noise

namespace SV2.Noise.Veiled
open SV2.Veil SV2.Stack

variable (P : Prims) {M : Nat} (far : Bytes → Arr 32) (h0 : Arr 32) (D : List (Arr 32))

/-- A cipher with these two rows. -/
def pairPrims (a b : KeyRow) : Prims := mockPrims P fun j => if j = 1 then a else b

/-- The two sessions after the handshake. -/
def talking (rs t : Arr 32) (keys : Arr 32 × Arr 32) : Duo := (done true rs t keys 1, done false EMPTY t keys 1)

theorem talking_wears (rs t : Arr 32) (k : Arr 32 × Arr 32) : (talking rs t k).Wears k :=
  ⟨⟨rfl, rfl, Nat.le_refl _⟩, ⟨rfl, rfl, Nat.le_refl _⟩⟩

def earJob (listener : Listener) (Q' : Prims) (second : Bool) : Nat → Duo → List Seen → Job M h0 D (List Seen)
  | 0, _, seen => .ret seen
  | j + 1, s, seen => (attackJob P far h0 D (listener.next seen)).bind fun t =>
    let r := s.act Q' second t.move
    earJob listener Q' second j r.2.2 (seen ++ [Seen.blind ⟨r.1, r.2.1, r.2.2.1, r.2.2.2⟩])

/-- And what the attacker says in the end. -/
def verdictJob (listener : Listener) (Q' : Prims) (second : Bool) (rounds : Nat) (s : Duo) : Job M h0 D Bool :=
  (earJob P far h0 D listener Q' second rounds s []).bind fun v => attackJob P far h0 D (listener.verdict v)

theorem earJob_modest (listener : Listener) (Q' : Prims) (second : Bool) (j : Nat) (s : Duo) (seen : List Seen) :
    (earJob (M := M) P far h0 D listener Q' second j s seen).Modest := by
  induction j generalizing s seen with
  | zero => trivial
  | succ j ih => exact (attackJob_modest P far h0 D _).bind fun t => ih _ _

theorem verdictJob_modest (listener : Listener) (Q' : Prims) (second : Bool) (rounds : Nat) (s : Duo) :
    (verdictJob (M := M) P far h0 D listener Q' second rounds s).Modest :=
  (earJob_modest P far h0 D listener Q' second rounds s []).bind fun _ => attackJob_modest P far h0 D _

theorem earJob_calls (listener : Listener) (Q' : Prims) (second : Bool) (m : Nat) (hm : ∀ past, (listener.next past).Within M m)
    (j : Nat) (s : Duo) (seen : List Seen) : Calls (M := M) h0 D (20 * (j * m)) (earJob P far h0 D listener Q' second j s seen) := by
  induction j generalizing s seen with
  | zero => exact (Calls.ret _).mono (by omega)
  | succ j ih =>
    refine ((attackJob_calls P far h0 D _ m (hm _)).bind fun t => ih _ _).mono ?_
    have := Nat.add_one_mul j m
    omega

theorem verdictJob_calls (listener : Listener) (Q' : Prims) (second : Bool) (m : Nat) (hm : ∀ past, (listener.next past).Within M m)
    (hv : ∀ past, (listener.verdict past).Within M m) (rounds : Nat) (s : Duo) :
    Calls (M := M) h0 D (20 * ((rounds + 1) * m)) (verdictJob P far h0 D listener Q' second rounds s) := by
  refine ((earJob_calls P far h0 D listener Q' second m hm rounds s []).bind fun v => attackJob_calls P far h0 D _ m (hv v)).mono ?_
  have := Nat.add_one_mul rounds m
  omega

/-! ## Whichever text is sent -/

section
variable {far h0 D}

open Classical in
/-- What it has seen, unless it stopped. -/
noncomputable def kept (f : List Seen → Option Talk) (l : List Seen) : Option (List Seen) :=
  if ∀ j < l.length, f ((l.take j).map Seen.blind) ≠ none then some (l.map Seen.blind) else none

/-- What it does, unless it stopped. -/
def choice (f : List Seen → Option Talk) (l : List Seen) : Talk := (f (l.map Seen.blind)).getD (.deliver .initiator [])

theorem earJob_run (A : Deep h0 D → Ask M) (w : World (Ask M) (Arr 32) (Deep h0 D) KeyRow) (listener : Listener) (Q' : Prims)
    (second : Bool) {f : List Seen → Option Talk}
    (hf : ∀ v, f v = ((attackJob P far h0 D (listener.next v)).guard A).run w) (rounds : Nat) {s : Duo} (hs : s.Wears mocks)
    (l : List Seen) (hl : ∀ j < l.length, f ((l.take j).map Seen.blind) ≠ none) :
    ((earJob P far h0 D listener Q' second rounds s (l.map Seen.blind)).guard A).run w =
      kept f (Duo.play Q' second (fun l => (choice f l).move) rounds s l) := by
  have t1 : Twin Q' Q' mocks.1 mocks.1 := ⟨fun _ _ _ => rfl, fun _ _ _ _ => rfl, by decide, by decide⟩
  have t2 : Twin Q' Q' mocks.2 mocks.2 := ⟨fun _ _ _ => rfl, fun _ _ _ _ => rfl, by decide, by decide⟩
  induction rounds generalizing s l with
  | zero => exact (if_pos hl).symm
  | succ rounds ih =>
    have hne : s.1.cs1.k ≠ s.2.cs2.k := by
      rw [hs.i.k1, hs.r.k2]
      decide
    unfold earJob
    rw [Prog.guard_run_bind, ← hf]
    unfold Duo.play
    rw [if_neg hne]
    rcases hc : f (l.map Seen.blind) with _ | t
    · have hp := Duo.play_prefix Q' second (fun l => (choice f l).move) rounds (s.act Q' second (choice f l).move).2.2
        (l ++ [⟨(s.act Q' second (choice f l).move).1, (s.act Q' second (choice f l).move).2.1,
          (s.act Q' second (choice f l).move).2.2.1, (s.act Q' second (choice f l).move).2.2.2⟩])
      obtain ⟨l', hl'⟩ := hp
      simp only [Option.bind_none]
      symm
      refine if_neg fun h => h l.length ?_ ?_
      · rw [← hl', List.length_append, List.length_append]
        simp only [List.length_cons]
        omega
      · rw [← hl', List.append_assoc, List.take_left' rfl]
        exact hc
    · have e : choice f l = t := by unfold choice; rw [hc]; rfl
      obtain ⟨-, w⟩ := Duo.act_twin t1 t2 hs second t
      simp only [Option.bind_some, e]
      rw [← ih w]
      · rw [List.map_append]
        rfl
      · intro j hj
        rw [List.length_append] at hj
        by_cases h : j < l.length
        · rw [List.take_append_of_le_length (by omega)]
          exact hl j h
        · have : j = l.length := by simp only [List.length_cons, List.length_nil] at hj; omega
          subst this
          rw [List.take_left' rfl, hc]
          exact Option.some_ne_none _

theorem verdictJob_alike (A : Deep h0 D → Ask M) (w : World (Ask M) (Arr 32) (Deep h0 D) KeyRow) (listener : Listener)
    (second : Bool) (rounds : Nat) (rs t : Arr 32) :
    Nat.card {y : KeyRow × KeyRow // ((verdictJob P far h0 D listener (pairPrims P y.1 y.2) second rounds
      (talking rs t mocks)).guard A).run w = some true} =
    Nat.card {y : KeyRow × KeyRow // ((verdictJob P far h0 D listener (pairPrims P y.1 y.2) (!second) rounds
      (talking rs t mocks)).guard A).run w = some true} := by
  obtain ⟨f, hf⟩ : ∃ f : List Seen → Option Talk, ∀ v, f v = ((attackJob P far h0 D (listener.next v)).guard A).run w :=
    ⟨_, fun _ => rfl⟩
  let test : List Seen → Prop := fun l =>
    ((kept f l).bind fun v => ((attackJob P far h0 D (listener.verdict v)).guard A).run w) = some true
  let played : Bool → KeyRow → KeyRow → Prop := fun second a b =>
    test (Duo.play (pairPrims P a b) second (fun l => (choice f l).move) rounds (talking rs t mocks) [])
  have e1 : ∀ second a b, ((verdictJob P far h0 D listener (pairPrims P a b) second rounds (talking rs t mocks)).guard A).run w =
      some true ↔ played second a b := by
    intro second a b
    unfold verdictJob
    rw [Prog.guard_run_bind]
    have := earJob_run P A w listener (pairPrims P a b) second hf rounds (talking_wears rs t mocks) []
      (fun j hj => absurd hj (Nat.not_lt_zero _))
    rw [List.map_nil] at this
    rw [this]
  have e2 : ∀ second, Nat.card {b : Arr 32 → KeyRow // played second (b mocks.1) (b mocks.2)} =
      Nat.card {blocks : Blocks // test (Duo.play (P.withBlocks (fun _ _ _ => 0) blocks) second (fun l => (choice f l).move)
        rounds (talking rs t mocks) [])} := by
    intro second
    refine Nat.card_congr ((Equiv.curry (Arr 32) (Arr 12 × Fin 1025) (Arr 64)).symm.subtypeEquiv fun b => ?_)
    show test _ ↔ test _
    rw [Duo.play_twin (Q := P.withBlocks (fun _ _ _ => 0) _) (Q' := pairPrims P (b mocks.1) (b mocks.2)) (k := mocks) ?_ ?_
      second (choice f) rounds (talking_wears rs t mocks) []]
    · exact twin_blocks P P (fun n c => rfl) (by decide) (by decide)
    · refine twin_blocks P P (fun n c => ?_) (by decide) (by decide)
      rw [if_neg (show mocks.2 ≠ mocks.1 by decide)]
      rfl
  have e3 := C94_secret P (fun _ _ _ => 0) (talking rs t mocks).1 (talking rs t mocks).2 rfl rfl (Nat.le_refl _) (Nat.le_refl _)
    (fun l => (choice f l).move) rounds test
  have e4 : Nat.card {b : Arr 32 → KeyRow // played second (b mocks.1) (b mocks.2)} =
      Nat.card {b : Arr 32 → KeyRow // played (!second) (b mocks.1) (b mocks.2)} := by
    rw [e2, e2]
    cases second
    · exact e3
    · exact e3.symm
  have : Nonempty KeyRow := ⟨fun _ => Arr.replicate 64 0⟩
  have e5 := card_two_eq' (I := Arr 32) (R := KeyRow) (i := mocks.1) (j := mocks.2) (by decide) e4
  simp only [e1]
  exact e5

end

/-! ## What comes of it -/

section
variable {far} {h0} {P}
variable (hM : 97 ≤ M) (H : Hashes M)
variable (blocks : Blocks) {Q : Prims} (hQ : Q = P.withHash (H.at far)) (hh : NX.h0 Q = h0)
variable (rest : Arr 32 → Arr 12 → Nat → UInt8) (hM' : 65567 ≤ M)

include hQ hh hM'

theorem earJob_spec {listener : Listener} {m : Nat} (hm : ∀ past, (listener.next past).Within M m)
    (hb : ∀ past, (listener.next past).Blind) {a b : KeyRow} {keys : Arr 32 × Arr 32}
    (r1 : ∀ n c, blocks (keys.1, n, c) = a (n, c)) (r2 : ∀ n c, blocks (keys.2, n, c) = b (n, c))
    (hk1 : keys.1 ≠ EMPTY) (hk2 : keys.2 ≠ EMPTY) (second : Bool) (j : Nat) {s : Duo} (hs : s.Wears mocks) (seen : List Seen)
    (asked : List Bytes) {L : Log M h0 D}
    (hL : (earJob P far h0 D listener (pairPrims P a b) second j s seen).log (world hM H blocks h0 D) ⊆ L) :
    (earJob P far h0 D listener (pairPrims P a b) second j s seen).run (world hM H blocks h0 D) =
      (listener.listen Q rest blocks second j (s.dressed keys) seen asked).1 ∧
    (∀ x ∈ (listener.listen Q rest blocks second j (s.dressed keys) seen asked).2, x ∈ asked ∨ (x.length ≤ M → Logged L x)) ∧
    Asks ((earJob P far h0 D listener (pairPrims P a b) second j s seen).log (world hM H blocks h0 D)) fun x => Unlike h0 D x ∨
      x ∈ (listener.listen Q rest blocks second j (s.dressed keys) seen asked).2 := by
  have t1 : Twin (Q.withBlocks rest blocks) (pairPrims P a b) keys.1 mocks.1 := by
    refine twin_blocks Q P (fun n c => ?_) hk1 (by decide)
    rw [if_pos rfl]
    exact r1 n c
  have t2 : Twin (Q.withBlocks rest blocks) (pairPrims P a b) keys.2 mocks.2 := by
    refine twin_blocks Q P (fun n c => ?_) hk2 (by decide)
    rw [if_neg (show mocks.2 ≠ mocks.1 by decide)]
    exact r2 n c
  induction j generalizing s seen asked with
  | zero => exact ⟨rfl, fun x hx => .inl hx, Asks.nil⟩
  | succ j ih =>
    unfold earJob at hL ⊢
    rw [Prog.log_bind] at hL
    obtain ⟨l1, l2⟩ := List.append_subset.mp hL
    obtain ⟨a1, -, -, a4⟩ := attackJob_spec hM D P H blocks hQ hh rest hM' (listener.next seen) m (hm _) (hb _) l1
    have a5 := attackJob_logged hM D P H blocks hQ hh rest hM' (listener.next seen) m (hm _) (hb _) l1
    rw [Prog.run_bind, Prog.log_bind]
    rw [a1] at l2 ⊢
    obtain ⟨e, w⟩ := Duo.act_twin t1 t2 hs second ((listener.next seen).play Q rest blocks).result
    unfold Listener.listen
    simp only [e, Seen.blind_dressed]
    obtain ⟨i1, i2, i3⟩ := ih w (seen ++ [Seen.blind _]) (asked ++ ((listener.next seen).play Q rest blocks).asked Q) l2
    refine ⟨i1, fun x hx => ?_, (a4.mono fun x hx => ?_).append i3⟩
    · rcases i2 x hx with hx | hx
      · exact (List.mem_append.mp hx).imp_right (a5 x)
      · exact .inr hx
    · exact hx.imp_right fun hx => Listener.listen_mono Q rest blocks listener second j _ _ _ (List.mem_append_right _ hx)

theorem verdictJob_spec {listener : Listener} {m : Nat} (hm : ∀ past, (listener.next past).Within M m)
    (hb : ∀ past, (listener.next past).Blind) (hv : ∀ past, (listener.verdict past).Within M m)
    (hb' : ∀ past, (listener.verdict past).Blind) {a b : KeyRow} {keys : Arr 32 × Arr 32}
    (r1 : ∀ n c, blocks (keys.1, n, c) = a (n, c)) (r2 : ∀ n c, blocks (keys.2, n, c) = b (n, c))
    (hk1 : keys.1 ≠ EMPTY) (hk2 : keys.2 ≠ EMPTY) (second : Bool) (rounds : Nat) {s : Duo} (hs : s.Wears mocks)
    {h : List Seen × List Bytes} (hlisten : h = listener.listen Q rest blocks second rounds (s.dressed keys) [] [])
    {v : Spied Bool} (hverdict : v = (listener.verdict h.1).play Q rest blocks) {L : Log M h0 D}
    (hL : (verdictJob P far h0 D listener (pairPrims P a b) second rounds s).log (world hM H blocks h0 D) ⊆ L) :
    (verdictJob P far h0 D listener (pairPrims P a b) second rounds s).run (world hM H blocks h0 D) = v.result ∧
    (∀ x ∈ h.2 ++ v.asked Q, x.length ≤ M → Logged L x) ∧
    Asks ((verdictJob P far h0 D listener (pairPrims P a b) second rounds s).log (world hM H blocks h0 D)) fun x =>
      Unlike h0 D x ∨ x ∈ h.2 ++ v.asked Q := by
  unfold verdictJob at hL ⊢
  rw [Prog.log_bind] at hL
  obtain ⟨l1, l2⟩ := List.append_subset.mp hL
  obtain ⟨e1, e2, e3⟩ := earJob_spec D hM H blocks hQ hh rest hM' hm hb r1 r2 hk1 hk2 second rounds hs [] [] l1
  rw [← hlisten] at e1 e2 e3
  rw [e1] at l2
  obtain ⟨a1, -, -, a4⟩ := attackJob_spec hM D P H blocks hQ hh rest hM' (listener.verdict h.1) m (hv _) (hb' _) l2
  have a5 := attackJob_logged hM D P H blocks hQ hh rest hM' (listener.verdict h.1) m (hv _) (hb' _) l2
  rw [← hverdict] at a1 a4 a5
  rw [Prog.run_bind, Prog.log_bind, e1]
  refine ⟨a1, fun x hx hl => ?_, (e3.mono fun x hx => hx.imp_right (List.mem_append_left _)).append
    (a4.mono fun x hx => hx.imp_right (List.mem_append_right _))⟩
  rcases List.mem_append.mp hx with hx | hx
  · rcases e2 x hx with hx | hx
    · cases hx
    · exact hx hl
  · exact a5 x hx hl

end

end SV2.Noise.Veiled
