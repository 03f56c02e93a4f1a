import Verif.Lemmas.VeilTalk
/-!
# Nothing happens by chance

What follows from `Veil.Fine` for the parties of `Verif/Lemmas/VeilRun.lean`: the conditions of
`Verif/Spec/Impersonation.lean` and `Verif/Spec/Channel.lean` on the keys.
-/

namespace SV2.Noise.Veiled
open SV2.Veil SV2.Stack

variable {M : Nat} (hM : 97 ≤ M) {far : Bytes → Arr 32} {h0 : Arr 32} {D : List (Arr 32)} {P : Prims} (H : Hashes M)
variable {Q : Prims} (hQ : Q = P.withHash (H.at far)) (hh : NX.h0 Q = h0)
variable {L : Log M h0 D} (F : Fine (shape hM h0 D) L (cut H))

include hQ hh F

omit hh in
theorem not_start {x : Bytes} (hx : Logged L x) (hn : x ≠ nameBytes) : Q.hash x ≠ h0 := by
  rcases hx with hx | ⟨h, hx⟩
  · exact absurd hx hn
  · rw [hash_short P H hQ h.1]
    exact F.start _ hx

theorem same_input {x y : Bytes} (hx : Logged L x) (hy : Logged L y) (h : Q.hash x = Q.hash y) : x = y := by
  have name : Q.hash nameBytes = h0 := hh
  by_cases nx : x = nameBytes <;> by_cases ny : y = nameBytes
  · rw [nx, ny]
  · rw [nx, name] at h
    exact absurd h.symm (not_start hM H hQ F hy ny)
  · rw [ny, name] at h
    exact absurd h (not_start hM H hQ F hx nx)
  · obtain ⟨lx, hx⟩ := hx.resolve_left nx
    obtain ⟨ly, hy⟩ := hy.resolve_left ny
    rw [hash_short P H hQ lx.1, hash_short P H hQ ly.1] at h
    exact congrArg Subtype.val (F.hash _ _ hx hy h)

theorem ck_ne {d : Arr 32} (hd : EeLogged D L Q d) : (NX.afterEE Q d).1 ≠ h0 := by
  have : (NX.afterEE Q d).1 = Q.hash (padded 0x5c (NX.hmac Q h0 d.toList) ++
    (Q.hash (padded 0x36 (NX.hmac Q h0 d.toList) ++ [0x01])).toList) := by rw [← hh]; rfl
  rw [this]
  exact not_start hM H hQ F hd.out (ne_name (by rw [length_96]; decide))

theorem same_secret {d d' : Arr 32} (hd : EeLogged D L Q d) (hd' : EeLogged D L Q d')
    (h : (NX.afterEE Q d).1 = (NX.afterEE Q d').1) : d = d' := by
  have e : ∀ d : Arr 32, (NX.afterEE Q d).1 = Q.hash (padded 0x5c (NX.hmac Q h0 d.toList) ++
    (Q.hash (padded 0x36 (NX.hmac Q h0 d.toList) ++ [0x01])).toList) := by
    intro d
    rw [← hh]
    rfl
  rw [e, e] at h
  have h1 := same_input hM H hQ hh F hd.out hd'.out h
  have h2 : NX.hmac Q h0 d.toList = NX.hmac Q h0 d'.toList := by
    have := congrArg (fun l => keyIn (l.map (· ^^^ 0x5c))) h1
    simp only [keyIn_padded] at this
    exact this
  have h3 := same_input hM H hQ hh F hd.temp hd'.temp h2
  have h4 : Q.hash (padded 0x36 h0 ++ d.toList) = Q.hash (padded 0x36 h0 ++ d'.toList) := by
    have := congrArg (fun l => keyIn (l.drop 64)) h3
    simp only [drop_padded] at this
    exact this
  have h5 := same_input hM H hQ hh F hd.inner hd'.inner h4
  have := congrArg (fun l => keyIn (l.drop 64)) h5
  simp only [drop_padded] at this
  exact this

omit hh in
theorem key_row {ck d k : Arr 32} (hd : d ∈ D ∧ ck ≠ h0) (hl : EsLogged D L Q ck d) (hk : .row k ∈ L) (j : Fin 3) :
    keysOf Q ck d j ≠ k := by
  rw [← chain_keys hM D P H hQ ⟨(ck, d), hd⟩ j]
  exact F.row _ _ (hl.hidden hd) hk j

omit hh in
theorem key_zero {ck d : Arr 32} (hd : d ∈ D ∧ ck ≠ h0) (hl : EsLogged D L Q ck d) (j : Fin 3) : keysOf Q ck d j ≠ EMPTY := by
  rw [← chain_keys hM D P H hQ ⟨(ck, d), hd⟩ j]
  exact F.bad _ (hl.hidden hd) j

omit hh in
/-- Keys at the end of chains, and other keys. -/
theorem same_key {ck ck' d d' : Arr 32} (hd : d ∈ D ∧ ck ≠ h0) (hl : EsLogged D L Q ck d) (hl' : EsLogged D L Q ck' d') {j : Fin 3}
    (h : keysOf Q ck' d' 0 = keysOf Q ck d j) : ck' = ck ∧ d' = d ∧ j = 0 := by
  by_cases hd' : d' ∈ D ∧ ck' ≠ h0
  · rw [← chain_keys hM D P H hQ ⟨(ck, d), hd⟩ j, ← chain_keys hM D P H hQ ⟨(ck', d'), hd'⟩ 0] at h
    obtain ⟨e1, e2⟩ := F.key _ _ (hl'.hidden hd') (hl.hidden hd) 0 j h
    have := congrArg (fun p => p.1) e1
    obtain ⟨a, b⟩ := Prod.mk.inj this
    exact ⟨a, b, e2.symm⟩
  · exact absurd h.symm (key_row hM H hQ F hd hl (hl'.row hd') j)

omit hh in
theorem two_keys {ck d : Arr 32} (hd : d ∈ D ∧ ck ≠ h0) (hl : EsLogged D L Q ck d) {j j' : Fin 3}
    (h : keysOf Q ck d j = keysOf Q ck d j') : j = j' := by
  rw [← chain_keys hM D P H hQ ⟨(ck, d), hd⟩ j, ← chain_keys hM D P H hQ ⟨(ck, d), hd⟩ j'] at h
  exact (F.key _ _ (hl.hidden hd) (hl.hidden hd) _ _ h).2

theorem careful {prologue first : Bytes} {eI : Arr 32} {p : Spied Bytes} {rs : Arr 32}
    (a2 : ∀ k ∈ p.keys, .row k ∈ L) (a3 : ∀ s ∈ p.served, AnswerLogged D L Q s.1 s.2)
    (c2 : EeLogged D L Q (Q.dh eI (keyIn p.result)))
    (c3 : EsLogged D L Q (NX.afterEE Q (Q.dh eI (keyIn p.result))).1 (Q.dh eI rs))
    (c4 : ∀ x ∈ NX.hashInputs Q (NX.h0 Q) (NX.parts prologue first p.result), Logged L x) (hD : Q.dh eI rs ∈ D)
    (hc : (p.served.map fun s => s.2.secrets Q s.1).count (Q.dh eI (keyIn p.result), Q.dh eI rs) ≤ 1) :
    Careful Q prologue eI first p.toPlayed rs := by
  have hd := And.intro hD (ck_ne hM H hQ hh F c2)
  have hK : payloadKey Q eI p.result rs = keysOf Q (NX.afterEE Q (Q.dh eI (keyIn p.result))).1 (Q.dh eI rs) 0 := rfl
  refine ⟨?_, ?_, ?_⟩
  · intro hk
    exact key_row hM H hQ F hd c3 (a2 _ hk) 0 hK.symm
  · refine le_trans (count_keys Q _ (Q.dh eI (keyIn p.result), Q.dh eI rs) p.served fun s hs => ?_) hc
    obtain ⟨g1, g2, -⟩ := a3 s hs
    constructor
    · intro h
      exact key_row hM H hQ F hd c3 g1.row 0 (hK.symm.trans h.symm)
    · intro h
      obtain ⟨h1, h2, -⟩ := same_key hM H hQ F hd c3 g2 (h.trans hK)
      exact Prod.ext (same_secret hM H hQ hh F g1 c2 h1) h2
  · rintro s hs ⟨x, hx, y, hy, hne, h⟩
    exact hne (same_input hM H hQ hh F (c4 x hx) ((a3 s hs).parts y hy) h)

omit hh in
theorem private_keys {stream : Arr 32 → Arr 12 → Nat → UInt8} {ck d : Arr 32} (hd : d ∈ D ∧ ck ≠ h0) (hl : EsLogged D L Q ck d)
    {used : List (Arr 32)} (hu : ∀ k ∈ used, Known D L Q k) :
    Private stream (keysOf Q ck d 1, keysOf Q ck d 2) 0 used := by
  have known : ∀ j, j ≠ 0 → ¬ Known D L Q (keysOf Q ck d j) := by
    rintro j hj (h | ⟨sR, a, ha, hk⟩)
    · exact key_row hM H hQ F hd hl h j rfl
    · rcases List.mem_cons.mp hk with hk | hk
      · exact key_row hM H hQ F hd hl ha.ee.row j hk
      · obtain hk := List.mem_singleton.mp hk
        exact hj (same_key hM H hQ F hd hl ha.es hk.symm).2.2
  refine ⟨fun e he => ?_, fun k hk => ?_⟩
  · obtain rfl := Nat.le_zero.mp he
    exact fun h => absurd (two_keys hM H hQ F hd hl (j := 1) (j' := 2) h) (by decide)
  · rintro (h | ⟨e, he, h⟩)
    · exact known 2 (by decide) (by rw [← show k = keysOf Q ck d 2 from h]; exact hu k hk)
    · obtain rfl := Nat.le_zero.mp he
      exact known 1 (by decide) (by rw [show keysOf Q ck d 1 = k from h]; exact hu k hk)

end SV2.Noise.Veiled
