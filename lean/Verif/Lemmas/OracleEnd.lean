import Verif.Lemmas.OracleRun
/-!
# Who does not hash a shared secret does not have the key

When nothing happens by chance (`Oracle.Fine`), an attacker that was told none of the client's shared secrets is careful in
the sense of `Verif/Spec/Impersonation.lean`.
-/

namespace SV2.Noise
open Oracle

/-- The attacker, with the hash function in place. -/
def Curious.asking {α : Type} (hash : Bytes → Arr 32) : Curious α → Asking α
  | .reply a => .reply a
  | .hash x next => (next (hash x)).asking hash
  | .block x next => .block x fun y => (next y).asking hash
  | .serve c next => .serve c fun a => (next a).asking hash

theorem Curious.play_asking {α : Type} (P : Prims) (rest : Arr 32 → Arr 12 → Nat → UInt8) (blocks : Blocks) (c : Curious α) :
    (c.asking P.hash).play P rest blocks = (c.play P rest blocks).toPlayed := by
  induction c with
  | reply a => rfl
  | hash x next ih => exact ih _
  | block x next ih =>
    simp only [Curious.asking, Asking.play, Curious.play]
    rw [ih]
  | serve c next ih =>
    simp only [Curious.asking, Asking.play, Curious.play]
    rw [ih]

theorem count_keys (Q : Prims) (K : Arr 32) (pair : Arr 32 × Arr 32) (l : List (Arr 32 × Answer))
    (h : ∀ s ∈ l, (NX.afterEE Q (Q.dh s.2.eR (keyIn s.2.first))).2 ≠ K ∧
      ((NX.afterES Q (Q.dh s.2.eR (keyIn s.2.first)) (Q.dh s.1 (keyIn s.2.first))).2 = K → s.2.secrets Q s.1 = pair)) :
    (l.flatMap fun s => s.2.keys Q s.1).count K ≤ (l.map fun s => s.2.secrets Q s.1).count pair := by
  induction l with
  | nil => exact Nat.le_refl _
  | cons s l ih =>
    have ih := ih fun s hs => h s (List.mem_cons_of_mem _ hs)
    obtain ⟨h1, h2⟩ := h s List.mem_cons_self
    rw [List.flatMap_cons, List.count_append, List.map_cons, List.count_cons]
    have e : (s.2.keys Q s.1).count K ≤ if (s.2.secrets Q s.1 == pair) = true then 1 else 0 := by
      show List.count K [_, _] ≤ _
      rw [List.count_cons_of_ne h1, List.count_singleton]
      by_cases hk : (NX.afterES Q (Q.dh s.2.eR (keyIn s.2.first)) (Q.dh s.1 (keyIn s.2.first))).2 = K
      · rw [if_pos (beq_iff_eq.mpr (h2 hk))]
        split <;> omega
      · rw [if_neg (fun e => hk (beq_iff_eq.mp e))]
        omega
    omega

variable {M : Nat} (hM : 97 ≤ M) {far : Bytes → Arr 32} (P : Prims) (H : Hashes M) (blocks : Blocks)
variable (rest : Arr 32 → Arr 12 → Nat → UInt8)

theorem careful (hM' : 65567 ≤ M) {prologue first : Bytes} {eI : Arr 32} {impostor : Curious Bytes} {n : Nat}
    (hn : impostor.Within M n) (hp : prologue.length + 32 ≤ M) (hf : first.length ≤ 65535) {servers : List (Arr 32)}
    (F : Fine (hkdfShape hM (servers.map (P.dh eI))) ((wholeJob P far (servers.map (P.dh eI)) prologue eI first impostor).guard
      (hkdfShape hM (servers.map (P.dh eI))).A) H fun k x => blocks (k, x.1, x.2))
    {Q : Prims} (hQ : Q = P.withHash (H.at far)) {p : Spied Bytes} (hplay : p = impostor.play Q rest blocks) {rs : Arr 32}
    (hrs : rs = staticIn Q (blocks.stream rest) eI p.result) (hl : p.result.length ≤ 65535) (hmem : rs ∈ servers)
    (ht : ¬ Told Q eI servers (p.heard Q prologue first))
    (hc : (p.served.map fun s => s.2.secrets Q s.1).count (Q.dh eI (keyIn p.result), Q.dh eI rs) ≤ 1) :
    Careful Q prologue eI first p.toPlayed rs := by
  have hdh : Q.dh = P.dh := by rw [hQ]; rfl
  have hD : Q.dh eI rs ∈ servers.map (P.dh eI) := by rw [hdh]; exact List.mem_map_of_mem hmem
  generalize hDs : servers.map (P.dh eI) = D at *
  obtain ⟨L, hL⟩ : ∃ L, L = (wholeJob P far D prologue eI first impostor).log (realWorld hM H blocks D) := ⟨_, rfl⟩
  have hL' := hL
  unfold wholeJob at hL'
  rw [Prog.log_bind, Prog.log_bind] at hL'
  obtain ⟨r1, a2, a3, a4⟩ := attackJob_spec (L := L) hM P H blocks rest hM' impostor n hn hQ
    (by rw [hL']; exact List.subset_append_left _ _)
  rw [← hplay] at r1 a2 a3 a4
  rw [r1] at hL'
  obtain ⟨c1, c2, c3, c4⟩ := clientJob_spec (L := L) hM P H blocks rest hM' prologue eI first p.result hp hf hl hQ
    (by rw [hL']; exact fun e he => List.mem_append_right _ (List.mem_append_left _ he))
  have c5 := asks_clientJob (D := D) hM P H blocks prologue eI first p.result hQ
  rw [← hrs] at c3
  have hA : ∀ q, .hash ((hkdfShape hM D).A q) ∉ L := by
    intro q h
    have : Unlike D (padded 0x36 q.1.1 ++ q.1.2.toList) ∨ padded 0x36 q.1.1 ++ q.1.2.toList ∈ p.heard Q prologue first := by
      rw [hL'] at h
      unfold Spied.heard
      rcases List.mem_append.mp h with h | h
      · rcases a4 _ h with h | h | ⟨s, hs, h⟩
        · exact .inl h
        · exact .inr (List.mem_append_left _ (List.mem_append_left _ h))
        · exact .inr (List.mem_append_left _ (List.mem_append_right _ (List.mem_flatMap.mpr ⟨s, hs, h⟩)))
      · rcases List.mem_append.mp h with h | h
        · rcases c5 _ h with h | h
          · exact .inl h
          · exact .inr (List.mem_append_right _ h)
        · cases h
    rcases this with h | h
    · exact h _ _ q.2 rfl
    · obtain ⟨rs', hm, he⟩ : ∃ rs' ∈ servers, P.dh eI rs' = q.1.2 := by
        have : ∀ d ∈ D, ∃ rs' ∈ servers, P.dh eI rs' = d := by
          rw [← hDs]
          exact fun d hd => List.mem_map.mp hd
        exact this _ q.2
      refine ht ⟨q.1.1, rs', hm, ?_⟩
      rw [hdh, he]
      exact h
  have F := Fine.of_guard F (by rw [hL] at hA; exact hA)
  have hL := hL.symm
  have hK : payloadKey Q eI p.result rs = (NX.hkdf Q (NX.afterEE Q (Q.dh eI (keyIn p.result))).1 (Q.dh eI rs).toList).2 := rfl
  refine ⟨?_, ?_, ?_⟩
  · intro hk
    have e := chain_hkdf (far := far) hM P H (⟨((NX.afterEE Q (Q.dh eI (keyIn p.result))).1, Q.dh eI rs), hD⟩ : Pair D)
    rw [← hQ] at e
    refine F.row _ _ (by have := c3.hidden hD; rw [← hL] at this; exact this) (by have := a2 _ hk; rw [← hL] at this; exact this) ?_
    rw [hK]
    exact congrArg Prod.snd e
  · refine le_trans (count_keys Q _ (Q.dh eI (keyIn p.result), Q.dh eI rs) p.served fun s hs => ?_) hc
    obtain ⟨g1, g2, -⟩ := a3 s hs
    subst hL
    constructor
    · intro h
      obtain ⟨h1, -⟩ := same_key hM P H blocks F hQ hD c3 g1 (h.trans hK)
      exact not_name hM P H blocks F hQ c1 c2 h1.symm
    · intro h
      obtain ⟨h1, h2⟩ := same_key hM P H blocks F hQ hD c3 g2 (h.trans hK)
      exact Prod.ext (same_secret hM P H blocks F hQ g1 c2 h1) h2
  · rintro s hs ⟨x, hx, y, hy, hne, h⟩
    have g3 := (a3 s hs).parts
    subst hL
    exact hne (same_input hM P H blocks F hQ (c4 x hx) (g3 y hy) h)

end SV2.Noise
