import Verif.Lemmas.VeilTalk
import Verif.Lemmas.VeilSame
/-!
# What the attacker and the client do before the client has accepted

The programs of `Verif/Lemmas/VeilRun.lean` use only the first row of a chain; what the attacker hashes is in the log; and a
program of the attacker that also says which answers it got.
-/

namespace SV2.Noise.Veiled
open SV2.Veil SV2.Stack

section
variable (P : Prims) {M : Nat} (far : Bytes → Arr 32) (h0 : Arr 32) (D : List (Arr 32))

/-! ## The first row only -/

theorem hashJob_modest (x : Bytes) : (hashJob (M := M) far h0 D x).Modest := by
  unfold hashJob
  split
  · trivial
  · split
    · exact fun _ => trivial
    · trivial

theorem hmacJob_modest (k : Arr 32) (x : Bytes) : (hmacJob (M := M) far h0 D k x).Modest :=
  (hashJob_modest far h0 D _).bind fun _ => hashJob_modest far h0 D _

theorem hkdfJob_modest (k : Arr 32) (x : Bytes) : (hkdfJob (M := M) far h0 D k x).Modest :=
  (hmacJob_modest far h0 D _ _).bind fun _ => (hmacJob_modest far h0 D _ _).bind fun _ => (hmacJob_modest far h0 D _ _).bind fun _ =>
    trivial

theorem eeJob_modest (d : Arr 32) : (eeJob (M := M) far h0 D d).Modest :=
  (hkdfJob_modest far h0 D _ _).bind fun _ => fun _ => trivial

theorem esJob_modest {α : Type} (ck d : Arr 32) (f : (Fin 3 → KeyRow) × Bool → Job M h0 D α) (hf : ∀ b, (f b).Modest)
    (hf' : ∀ r r' b, r 0 = r' 0 → f (r, b) = f (r', b)) : ((esJob far h0 D ck d).bind f).Modest := by
  unfold esJob
  split
  · exact ⟨fun r b => hf _, fun r r' b h => hf' r r' b h⟩
  · exact Prog.Modest.bind ((hkdfJob_modest far h0 D _ _).bind fun _ => fun _ => trivial) fun _ => hf _

theorem foldJob_modest (ds : List Bytes) (h : Arr 32) : (foldJob (M := M) far h0 D h ds).Modest := by
  induction ds generalizing h with
  | nil => trivial
  | cons d ds ih => exact (hashJob_modest far h0 D _).bind fun _ => ih _

theorem servingJob_modest (c : Serving) : (servingJob (M := M) P far h0 D c).Modest := by
  unfold servingJob
  split
  · refine (eeJob_modest far h0 D _).bind fun a => esJob_modest far h0 D _ _ _ (fun b => ?_) fun r r' b h => ?_
    · split
      · exact (foldJob_modest far h0 D _ _).bind fun _ => (foldJob_modest far h0 D _ _).bind fun _ =>
          (foldJob_modest far h0 D _ _).bind fun _ => trivial
      · trivial
    · simp only [h]
  · trivial

theorem attackJob_modest {α : Type} (c : Curious α) : (attackJob (M := M) P far h0 D c).Modest := by
  induction c with
  | reply a => trivial
  | hash x next ih => exact (hashJob_modest far h0 D _).bind fun y => ih y
  | block x next ih => exact fun r => ih _
  | serve c next ih => exact (servingJob_modest P far h0 D c).bind fun a => ih _

/-- The first half of the client's work: the chaining key, the handshake hash and the static key it finds. -/
def earlyJob (prologue : Bytes) (eI : Arr 32) (first second : Bytes) : Job M h0 D (Arr 32 × Arr 32 × Arr 32) :=
  (eeJob far h0 D (P.dh eI (keyIn second))).bind fun a =>
  (foldJob far h0 D h0 (NX.parts prologue first second)).bind fun t =>
  .ret (a.1, t, keyIn (mask ((KeyRow.blocks a.2.1).stream (fun _ _ _ => 0) NX.zeros (NX.nonce 0))
    (body (HandshakeState.partS second))))

theorem earlyJob_modest (prologue : Bytes) (eI : Arr 32) (first second : Bytes) :
    (earlyJob (M := M) P far h0 D prologue eI first second).Modest :=
  (eeJob_modest far h0 D _).bind fun _ => (foldJob_modest far h0 D _ _).bind fun _ => trivial

theorem earlyJob_calls (prologue : Bytes) (eI : Arr 32) (first second : Bytes) :
    Calls (M := M) h0 D 13 (earlyJob P far h0 D prologue eI first second) :=
  ((eeJob_calls far h0 D _).bind fun a => (foldJob_calls far h0 D _ _).bind fun b => Calls.ret _).mono (by simp [NX.parts])

end

/-! ## What is in the log -/

section
variable {M : Nat} (hM : 97 ≤ M) {far : Bytes → Arr 32} {h0 : Arr 32} (D : List (Arr 32)) (P : Prims) (H : Hashes M)
variable (blocks : Blocks) {Q : Prims} (hQ : Q = P.withHash (H.at far)) (hh : NX.h0 Q = h0)
variable (rest : Arr 32 → Arr 12 → Nat → UInt8) (hM' : 65567 ≤ M)

include hQ hh hM'

/-- Whatever was hashed in the open is in the log. -/
theorem attackJob_logged {α : Type} (c : Curious α) (n : Nat) (hc : c.Within M n) (hb : c.Blind) {L : Log M h0 D}
    (hL : (attackJob P far h0 D c).log (world hM H blocks h0 D) ⊆ L) :
    ∀ x ∈ (c.play Q rest blocks).asked Q, x.length ≤ M → Logged L x := by
  have h3 := (attackJob_spec hM D P H blocks hQ hh rest hM' c n hc hb hL).2.2.1
  intro x hx hl
  rcases List.mem_append.mp hx with hx | hx
  · clear h3 ‹x ∈ (c.play Q rest blocks).asked Q›
    induction c generalizing n with
    | reply a => cases hx
    | hash y next ih =>
      cases n with
      | zero => exact hc.elim
      | succ n =>
        simp only [attackJob, Prog.log_bind, run_hashJob hM D P H blocks hQ hh] at hL
        obtain ⟨l1, l2⟩ := List.append_subset.mp hL
        rcases List.mem_cons.mp hx with rfl | hx
        · exact logged_hashJob hM D H blocks hl l1
        · exact ih _ n (hc _) (hb _) l2 hx
    | block y next ih =>
      cases n with
      | zero => exact hc.elim
      | succ n =>
        simp only [attackJob, Prog.log] at hL
        exact ih _ n (hc _) (hb _) (List.cons_subset.mp hL).2 hx
    | serve c next ih =>
      cases n with
      | zero => exact hc.elim
      | succ n =>
        simp only [attackJob, Prog.log_bind] at hL
        obtain ⟨l1, l2⟩ := List.append_subset.mp hL
        obtain ⟨s1, -, -⟩ := servingJob_spec hM D P H blocks hQ hh rest hM' c hc.1 l1
        rw [s1, hb.2 _ (c.answer (Q.withBlocks rest blocks)) (map_withSecond _)] at l2
        exact ih _ n (hc.2 _) (hb.1 _) l2 hx
  · obtain ⟨s, hs, hx⟩ := List.mem_flatMap.mp hx
    exact (h3 s hs).parts x hx

theorem earlyJob_spec (prologue : Bytes) (eI : Arr 32) (first second : Bytes) {L : Log M h0 D}
    (hL : (earlyJob P far h0 D prologue eI first second).log (world hM H blocks h0 D) ⊆ L) :
    (earlyJob P far h0 D prologue eI first second).run (world hM H blocks h0 D) =
        ((NX.afterEE Q (Q.dh eI (keyIn second))).1, NX.transcript Q (NX.parts prologue first second),
          staticIn Q (blocks.stream rest) eI second) ∧
    EeLogged D L Q (Q.dh eI (keyIn second)) ∧
    (prologue.length + 32 ≤ M → first.length ≤ 65535 → second.length ≤ 65535 →
      ∀ x ∈ NX.hashInputs Q (NX.h0 Q) (NX.parts prologue first second), Logged L x) ∧
    Asks ((earlyJob P far h0 D prologue eI first second).log (world hM H blocks h0 D)) fun x => Unlike h0 D x ∨
      x ∈ NX.hashInputs Q (NX.h0 Q) (NX.parts prologue first second) := by
  have hdh : Q.dh = P.dh := by rw [hQ]; rfl
  have hee := fun d (h : (eeJob far h0 D d).log (world hM H blocks h0 D) ⊆ L) => eeJob_spec hM D P H blocks hQ hh d h
  have hfold := foldJob_spec hM D P H blocks hQ hh (NX.parts prologue first second) h0
  have htr : NX.transcript Q (NX.parts prologue first second) =
      (NX.parts prologue first second).foldl (fun h d => Q.hash (h.toList ++ d)) h0 := by rw [← hh]; rfl
  clear hQ
  have e : staticIn Q (blocks.stream rest) eI second = keyIn (mask ((KeyRow.blocks fun x => blocks ((NX.afterEE Q
      (P.dh eI (keyIn second))).2, x.1, x.2)).stream (fun _ _ _ => 0) NX.zeros (NX.nonce 0))
      (body (HandshakeState.partS second))) := by
    unfold staticIn
    rw [hdh]
    refine congrArg keyIn (mask_congr fun i hi => stream_row _ _ blocks (KeyRow.blocks fun x => blocks ((NX.afterEE Q
      (P.dh eI (keyIn second))).2, x.1, x.2)) _ _ _ (fun _ => rfl) ?_)
    have : (body (HandshakeState.partS second)).length ≤ 48 := by
      simp only [body, HandshakeState.partS, List.length_take, List.length_drop]; omega
    omega
  unfold earlyJob at hL ⊢
  rw [Prog.log_bind] at hL
  obtain ⟨l1, hL⟩ := List.append_subset.mp hL
  obtain ⟨m1, g1, a1⟩ := hee _ l1
  rw [m1, Prog.log_bind] at hL
  obtain ⟨l2, -⟩ := List.append_subset.mp hL
  rw [Prog.run_bind, m1, Prog.run_bind, hfold.1, Prog.log_bind, m1, Prog.log_bind, e, hdh, hh, htr]
  refine ⟨rfl, g1, fun hp hf hs => hfold.2.2 ?_ l2, (a1.mono fun x hx => Or.inl hx).append
    ((hfold.2.1.mono fun x hx => Or.inr hx).append Asks.nil)⟩
  intro d hd
  simp only [NX.parts, List.mem_cons, List.not_mem_nil, or_false] at hd
  rcases hd with rfl | rfl | rfl | rfl | rfl | rfl <;> (try simp only [List.length_take, List.length_drop]) <;> omega

end

/-! ## Saying which answers it got -/

/-- An answer: the static secret, the prologue, the first message and the second one. -/
abbrev Noted := Arr 32 × Bytes × Bytes × Bytes

def recorded {α : Type} : List Noted → Curious α → Curious (α × List Noted)
  | l, .reply a => .reply (a, l)
  | l, .hash x next => .hash x fun y => recorded l (next y)
  | l, .block x next => .block x fun y => recorded l (next y)
  | l, .serve c next => .serve c fun a =>
    recorded (l ++ ((a.map Answer.second).map fun w => (c.sR, c.prologue, c.first, w)).toList) (next a)

theorem recorded_within {α : Type} {M : Nat} (c : Curious α) (l : List Noted) (n : Nat) (h : c.Within M n) :
    (recorded l c).Within M n := by
  induction c generalizing l n with
  | reply a => cases n <;> trivial
  | hash x next ih =>
    cases n with
    | zero => exact h.elim
    | succ n => exact fun y => ih y l n (h y)
  | block x next ih =>
    cases n with
    | zero => exact h.elim
    | succ n => exact fun y => ih y l n (h y)
  | serve c next ih =>
    cases n with
    | zero => exact h.elim
    | succ n => exact ⟨h.1, fun a => ih a _ n (h.2 a)⟩

theorem recorded_blind {α : Type} (c : Curious α) (l : List Noted) (h : c.Blind) : (recorded l c).Blind := by
  induction c generalizing l with
  | reply a => trivial
  | hash x next ih => exact fun y => ih y l (h y)
  | block x next ih => exact fun y => ih y l (h y)
  | serve c next ih =>
    refine ⟨fun a => ih a _ (h.1 a), fun a a' e => ?_⟩
    simp only
    rw [e, h.2 a a' e]

def noted (s : Arr 32 × Answer) : Noted := (s.1, s.2.prologue, s.2.first, s.2.second)

theorem answer_same {P : Prims} {c : Serving} {a : Answer} (h : c.answer P = some a) : a.prologue = c.prologue ∧ a.first = c.first := by
  obtain ⟨-, rfl⟩ := (c.answer_iff a).mp h
  exact ⟨rfl, rfl⟩

theorem recorded_play {α : Type} (P : Prims) (rest : Arr 32 → Arr 12 → Nat → UInt8) (blocks : Blocks) (c : Curious α) (l : List Noted) :
    ((recorded l c).play P rest blocks).result =
      ((c.play P rest blocks).result, l ++ (c.play P rest blocks).served.map noted) ∧
    ((recorded l c).play P rest blocks).served = (c.play P rest blocks).served ∧
    ((recorded l c).play P rest blocks).hashed = (c.play P rest blocks).hashed := by
  induction c generalizing l with
  | reply a => exact ⟨by rw [recorded]; exact congrArg (Prod.mk a) (List.append_nil l).symm, rfl, rfl⟩
  | hash x next ih =>
    obtain ⟨h1, h2, h3⟩ := ih (P.hash x) l
    exact ⟨h1, h2, congrArg (List.cons x) h3⟩
  | block x next ih => exact ih (blocks x) l
  | serve c next ih =>
    obtain ⟨h1, h2, h3⟩ := ih (c.answer (P.withBlocks rest blocks))
      (l ++ (((c.answer (P.withBlocks rest blocks)).map Answer.second).map fun w => (c.sR, c.prologue, c.first, w)).toList)
    refine ⟨?_, congrArg (_ ++ ·) h2, h3⟩
    refine h1.trans ?_
    simp only [Curious.play, List.map_append, List.append_assoc]
    refine congrArg (fun z => (_, l ++ (z ++ _))) ?_
    rcases ha : c.answer (P.withBlocks rest blocks) with _ | a
    · rfl
    · obtain ⟨e1, e2⟩ := answer_same ha
      simp only [Option.map_some, Option.toList_some, List.map_cons, List.map_nil, noted, e1, e2]

theorem recorded_asked {α : Type} (P : Prims) (rest : Arr 32 → Arr 12 → Nat → UInt8) (blocks : Blocks) (c : Curious α) (l : List Noted) :
    ((recorded l c).play P rest blocks).asked P = (c.play P rest blocks).asked P := by
  obtain ⟨-, h2, h3⟩ := recorded_play P rest blocks c l
  unfold Spied.asked
  rw [h2, h3]

end SV2.Noise.Veiled
