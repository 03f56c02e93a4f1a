import Verif.Spec.Renewal
import Verif.Lemmas.Stolen
import Verif.Lemmas.VeilTalk
import Mathlib.Logic.Equiv.Fintype
/-!
# An attacker that does not know the keys does not use them

In another world the two sessions have fixed keys, with blocks of their own, and the keys of the real sessions are chosen
independently of all that.  As long as nothing is computed with one of these, nobody sees a difference.
-/

namespace SV2.Noise
namespace NoiseSession
variable {Q Q' : Prims}

theorem send_like {k k' : Arr 32 × Arr 32} (h1 : Like Q Q' k.1 k'.1) (h2 : Like Q Q' k.2 k'.2) {s : NoiseSession}
    (hs : s.Wears k') (rnd rnd' : Keypair) (b : Bytes) :
    (s.dressed k).sendMessage Q rnd b =
      ((s.sendMessage Q' rnd' b).1, (s.sendMessage Q' rnd' b).2.1.dressed k, (s.sendMessage Q' rnd' b).2.2) ∧
    (s.sendMessage Q' rnd' b).2.1.Wears k' := by
  have hm := hs.mc
  have hm' : 2 ≤ (s.dressed k).mc := hm
  by_cases hl : b.length < 16 ∨ 65535 < b.length
  · rw [send_badLength _ _ _ hl, send_badLength _ _ _ hl]
    exact ⟨rfl, hs⟩
  · rw [send_transport _ _ _ hl hm, send_transport _ _ _ hl hm']
    have hb : b.length ≤ 65535 := by omega
    cases hi : s.i with
    | true =>
      have e : s.sendCs = ⟨k'.1, s.cs1.n⟩ := by rw [sendCs, if_pos hi, ← hs.k1]
      have e' : (s.dressed k).sendCs = ⟨k.1, s.cs1.n⟩ := by
        rw [sendCs, if_pos (show (s.dressed k).i = true from hi)]; rfl
      obtain ⟨w1, w2⟩ := CipherState.write_like h1 s.cs1.n b hb
      rw [e, e', w1]
      generalize (⟨k'.1, s.cs1.n⟩ : CipherState).writeMessageRegular Q' b = x at w2 ⊢
      obtain ⟨r, cs, buf⟩ := x
      have es : s.setSend cs = { s with cs1 := cs } := by rw [setSend, if_pos hi]
      have es' : (s.dressed k).setSend ⟨k.1, cs.n⟩ = ({ s with cs1 := cs } : NoiseSession).dressed k := by
        rw [setSend, if_pos (show (s.dressed k).i = true from hi)]; rfl
      have hw : ({ s with cs1 := cs } : NoiseSession).Wears k' := ⟨w2, hs.k2, hm⟩
      cases r with
      | ok u =>
        cases u
        simp only [es, es']
        obtain ⟨c1, c2, c3, c4⟩ := count_dressed k ({ s with cs1 := cs } : NoiseSession) buf
        exact ⟨c1, by rw [c2]; exact hw.k1, by rw [c3]; exact hw.k2, Nat.le_trans hm c4⟩
      | err e =>
        simp only [es, es']
        exact ⟨trivial, hw⟩
      | panic =>
        simp only [es, es']
        exact ⟨trivial, hw⟩
    | false =>
      have hi' : ¬ s.i = true := by rw [hi]; exact Bool.false_ne_true
      have e : s.sendCs = ⟨k'.2, s.cs2.n⟩ := by rw [sendCs, if_neg hi', ← hs.k2]
      have e' : (s.dressed k).sendCs = ⟨k.2, s.cs2.n⟩ := by
        rw [sendCs, if_neg (show ¬ (s.dressed k).i = true from hi')]; rfl
      obtain ⟨w1, w2⟩ := CipherState.write_like h2 s.cs2.n b hb
      rw [e, e', w1]
      generalize (⟨k'.2, s.cs2.n⟩ : CipherState).writeMessageRegular Q' b = x at w2 ⊢
      obtain ⟨r, cs, buf⟩ := x
      have es : s.setSend cs = { s with cs2 := cs } := by rw [setSend, if_neg hi']
      have es' : (s.dressed k).setSend ⟨k.2, cs.n⟩ = ({ s with cs2 := cs } : NoiseSession).dressed k := by
        rw [setSend, if_neg (show ¬ (s.dressed k).i = true from hi')]; rfl
      have hw : ({ s with cs2 := cs } : NoiseSession).Wears k' := ⟨hs.k1, w2, hm⟩
      cases r with
      | ok u =>
        cases u
        simp only [es, es']
        obtain ⟨c1, c2, c3, c4⟩ := count_dressed k ({ s with cs2 := cs } : NoiseSession) buf
        exact ⟨c1, by rw [c2]; exact hw.k1, by rw [c3]; exact hw.k2, Nat.le_trans hm c4⟩
      | err e =>
        simp only [es, es']
        exact ⟨trivial, hw⟩
      | panic =>
        simp only [es, es']
        exact ⟨trivial, hw⟩

theorem recv_like {k k' : Arr 32 × Arr 32} (h1 : Like Q Q' k.1 k'.1) (h2 : Like Q Q' k.2 k'.2) {s : NoiseSession}
    (hs : s.Wears k') (b : Bytes) :
    (s.dressed k).recvMessage Q b =
      ((s.recvMessage Q' b).1, (s.recvMessage Q' b).2.1.dressed k, (s.recvMessage Q' b).2.2) ∧
    (s.recvMessage Q' b).2.1.Wears k' := by
  have hm := hs.mc
  have hm' : 2 ≤ (s.dressed k).mc := hm
  by_cases hl : b.length < 16 ∨ 65535 < b.length
  · rw [recv_badLength _ _ hl, recv_badLength _ _ hl]
    exact ⟨rfl, hs⟩
  · rw [recv_transport _ _ hl hm, recv_transport _ _ hl hm']
    have hb : b.length ≤ 65535 := by omega
    cases hi : s.i with
    | false =>
      have hi' : ¬ s.i = true := by rw [hi]; exact Bool.false_ne_true
      have e : s.recvCs = ⟨k'.1, s.cs1.n⟩ := by rw [recvCs, if_neg hi', ← hs.k1]
      have e' : (s.dressed k).recvCs = ⟨k.1, s.cs1.n⟩ := by
        rw [recvCs, if_neg (show ¬ (s.dressed k).i = true from hi')]; rfl
      obtain ⟨w1, w2⟩ := CipherState.read_like h1 s.cs1.n b hb
      rw [e, e', w1]
      generalize (⟨k'.1, s.cs1.n⟩ : CipherState).readMessageRegular Q' b = x at w2 ⊢
      obtain ⟨r, cs, buf⟩ := x
      have es : s.setRecv cs = { s with cs1 := cs } := by rw [setRecv, if_neg hi']
      have es' : (s.dressed k).setRecv ⟨k.1, cs.n⟩ = ({ s with cs1 := cs } : NoiseSession).dressed k := by
        rw [setRecv, if_neg (show ¬ (s.dressed k).i = true from hi')]; rfl
      have hw : ({ s with cs1 := cs } : NoiseSession).Wears k' := ⟨w2, hs.k2, hm⟩
      cases r with
      | ok u =>
        cases u
        simp only [es, es']
        obtain ⟨c1, c2, c3, c4⟩ := count_dressed k ({ s with cs1 := cs } : NoiseSession) buf
        exact ⟨c1, by rw [c2]; exact hw.k1, by rw [c3]; exact hw.k2, Nat.le_trans hm c4⟩
      | err e =>
        simp only [es, es']
        exact ⟨trivial, hw⟩
      | panic =>
        simp only [es, es']
        exact ⟨trivial, hw⟩
    | true =>
      have e : s.recvCs = ⟨k'.2, s.cs2.n⟩ := by rw [recvCs, if_pos hi, ← hs.k2]
      have e' : (s.dressed k).recvCs = ⟨k.2, s.cs2.n⟩ := by
        rw [recvCs, if_pos (show (s.dressed k).i = true from hi)]; rfl
      obtain ⟨w1, w2⟩ := CipherState.read_like h2 s.cs2.n b hb
      rw [e, e', w1]
      generalize (⟨k'.2, s.cs2.n⟩ : CipherState).readMessageRegular Q' b = x at w2 ⊢
      obtain ⟨r, cs, buf⟩ := x
      have es : s.setRecv cs = { s with cs2 := cs } := by rw [setRecv, if_pos hi]
      have es' : (s.dressed k).setRecv ⟨k.2, cs.n⟩ = ({ s with cs2 := cs } : NoiseSession).dressed k := by
        rw [setRecv, if_pos (show (s.dressed k).i = true from hi)]; rfl
      have hw : ({ s with cs2 := cs } : NoiseSession).Wears k' := ⟨hs.k1, w2, hm⟩
      cases r with
      | ok u =>
        cases u
        simp only [es, es']
        obtain ⟨c1, c2, c3, c4⟩ := count_dressed k ({ s with cs2 := cs } : NoiseSession) buf
        exact ⟨c1, by rw [c2]; exact hw.k1, by rw [c3]; exact hw.k2, Nat.le_trans hm c4⟩
      | err e =>
        simp only [es, es']
        exact ⟨trivial, hw⟩
      | panic =>
        simp only [es, es']
        exact ⟨trivial, hw⟩

theorem rekeyed_eq (P : Prims) (rest : Arr 32 → Arr 12 → Nat → UInt8) (b : Blocks) (k : Arr 32 × Arr 32) (s : NoiseSession)
    (remote : Bool) :
    (s.dressed k).rekeyed (P.withBlocks rest b) remote = s.dressed (afterKey b k.1, k.2) := by
  have e : ((s.dressed k).cs1.rekey (P.withBlocks rest b)).k = afterKey b k.1 := by
    refine arr_ext ?_
    simp only [CipherState.rekey, dressed]
    exact rekey_blocks P rest b k.1
  have : (s.dressed k).rekeyed (P.withBlocks rest b) remote =
      s.dressed (((s.dressed k).cs1.rekey (P.withBlocks rest b)).k, k.2) := by cases remote <;> rfl
  rw [this, e]

theorem Wears.eq {k : Arr 32 × Arr 32} {s : NoiseSession} (h : s.Wears k) : s.dressed k = s := by
  obtain ⟨k1, k2⟩ := k
  obtain ⟨h1, h2, _⟩ := h
  simp only at h1 h2
  subst h1 h2
  rfl

end NoiseSession
end SV2.Noise

namespace SV2.Stack
namespace Renewal
open Noise Veiled Stealing Function

variable {E : Nat}

/-! ## The keys, and the blocks -/

/-- The two keys of a side that has rekeyed `e` times. -/
def seat (keys : Fin (E + 2) → Arr 32) (e : Nat) : Arr 32 × Arr 32 := (keys ⟨min e E, by omega⟩, keys ⟨E + 1, by omega⟩)

/-- Where the next key is taken from. -/
def place : Arr 12 × Fin 1025 := (CipherState.rekeyNonce, 1)

def link (r : KeyRow) : Arr 32 := half (r place)

def relink (x : Arr 32) (r : KeyRow) : KeyRow := update r place (halves.symm (x, (halves (r place)).2))

theorem link_relink (x : Arr 32) (r : KeyRow) : link (relink x r) = x := by
  unfold link relink
  rw [update_self]
  exact congrArg Prod.fst (halves.apply_symm_apply _)

theorem relink_relink (x y : Arr 32) (r : KeyRow) : relink x (relink y r) = relink x r := by
  unfold relink
  rw [update_self, halves.apply_symm_apply, update_idem]

theorem relink_link (r : KeyRow) : relink (link r) r = r := by
  have : (link r, (halves (r place)).2) = halves (r place) := rfl
  unfold relink
  rw [this, halves.symm_apply_apply, update_eq_self]

theorem relink_other (x : Arr 32) (r : KeyRow) {y : Arr 12 × Fin 1025} (h : y ≠ place) : relink x r y = r y := update_of_ne h _ _

open Classical in
/-- The blocks `C`, but those with these keys from these rows. -/
noncomputable def patch (keys : Fin (E + 2) → Arr 32) (rows : Fin (E + 2) → KeyRow) (C : Blocks) : Blocks :=
  fun x => if h : ∃ a, keys a = x.1 then rows h.choose x.2 else C x

theorem patch_at {keys : Fin (E + 2) → Arr 32} (hk : Injective keys) (rows : Fin (E + 2) → KeyRow) (C : Blocks) (a : Fin (E + 2))
    (y : Arr 12 × Fin 1025) : patch keys rows C (keys a, y) = rows a y := by
  have h : ∃ b, keys b = ((keys a, y) : Arr 32 × Arr 12 × Fin 1025).1 := ⟨a, rfl⟩
  unfold patch
  rw [dif_pos h, hk h.choose_spec]

theorem patch_off {keys : Fin (E + 2) → Arr 32} (rows : Fin (E + 2) → KeyRow) (C : Blocks) {x : Arr 32 × Arr 12 × Fin 1025}
    (h : ∀ a, keys a ≠ x.1) : patch keys rows C x = C x := dif_neg fun ⟨a, e⟩ => h a e

/-- Each row leads to the next key. -/
def chained (keys : Fin (E + 2) → Arr 32) (rows : Fin (E + 2) → KeyRow) (a : Fin (E + 2)) : KeyRow :=
  if h : a.val < E then relink (keys ⟨a.val + 1, by omega⟩) (rows a) else rows a

noncomputable def build (keys : Fin (E + 2) → Arr 32) (rows : Fin (E + 2) → KeyRow) (C : Blocks) : Blocks :=
  patch keys (chained keys rows) C

theorem chained_other (keys : Fin (E + 2) → Arr 32) (rows : Fin (E + 2) → KeyRow) (a : Fin (E + 2)) {y : Arr 12 × Fin 1025}
    (h : y ≠ place) : chained keys rows a y = rows a y := by
  unfold chained
  split
  · exact relink_other _ _ h
  · rfl

theorem build_like (P : Prims) (rest : Arr 32 → Arr 12 → Nat → UInt8) {keys labels : Fin (E + 2) → Arr 32} (hk : Injective keys)
    (hl : Injective labels) (hk0 : ∀ a, keys a ≠ EMPTY) (hl0 : ∀ a, labels a ≠ EMPTY) (rows : Fin (E + 2) → KeyRow) (C : Blocks)
    (a : Fin (E + 2)) :
    Like (P.withBlocks rest (build keys rows C)) (P.withBlocks rest (build labels rows C)) (keys a) (labels a) := by
  refine like_blocks P rest (fun n c => ?_) ⟨fun e => absurd e (hk0 a), fun e => absurd e (hl0 a)⟩
  have hp : (prepNonce n, c) ≠ place := fun e => prep_ne n (congrArg Prod.fst e)
  exact (patch_at hk _ C a _).trans ((chained_other _ _ _ hp).trans
    ((chained_other _ _ _ hp).symm.trans (patch_at hl _ C a _).symm))

theorem link_build {keys : Fin (E + 2) → Arr 32} (hk : Injective keys) (rows : Fin (E + 2) → KeyRow) (C : Blocks) {e : Nat}
    (he : e < E) : half (build keys rows C (keys ⟨e, by omega⟩, place)) = keys ⟨e + 1, by omega⟩ := by
  have h : build keys rows C (keys ⟨e, by omega⟩, place) = relink (keys ⟨e + 1, by omega⟩) (rows ⟨e, by omega⟩) place := by
    refine (patch_at hk _ C _ _).trans ?_
    unfold chained
    rw [dif_pos he]
  rw [h]
  exact link_relink _ _

theorem after_build {keys : Fin (E + 2) → Arr 32} (hk : Injective keys) (rows : Fin (E + 2) → KeyRow) (C : Blocks) {e : Nat}
    (he : e < E) : (afterKey (build keys rows C) (seat keys e).1, (seat keys e).2) = seat keys (e + 1) := by
  have e1 : (⟨min e E, by omega⟩ : Fin (E + 2)) = ⟨e, by omega⟩ := Fin.ext (Nat.min_eq_left (by omega))
  have e2 : (⟨min (e + 1) E, by omega⟩ : Fin (E + 2)) = ⟨e + 1, by omega⟩ := Fin.ext (Nat.min_eq_left (by omega))
  have h := link_build hk rows C he
  unfold seat
  rw [e1, e2]
  exact Prod.ext h rfl

/-! ## The sessions -/

/-- Both sessions with the keys that belong to the number of times they rekeyed. -/
def clad (keys : Fin (E + 2) → Arr 32) (n : SNet) : SNet :=
  { n with rnet := { n.rnet with net := { n.rnet.net with
      i := n.rnet.net.i.dressed (seat keys n.rnet.rekeysI), r := n.rnet.net.r.dressed (seat keys n.rnet.rekeysR) } } }

structure Labelled (labels : Fin (E + 2) → Arr 32) (n : SNet) : Prop where
  i : n.rnet.net.i.Wears (seat labels n.rnet.rekeysI)
  r : n.rnet.net.r.Wears (seat labels n.rnet.rekeysR)

theorem seen_clad (keys : Fin (E + 2) → Arr 32) (n : SNet) : (clad keys n).seen = n.seen := rfl

theorem map_seen_clad (keys : Fin (E + 2) → Arr 32) (l : List SNet) : (l.map (clad keys)).map SNet.seen = l.map SNet.seen := by
  rw [List.map_map]
  rfl

variable (P : Prims) (rest : Arr 32 → Arr 12 → Nat → UInt8)

theorem step_clad_of {Q Q' : Prims} {keys labels : Fin (E + 2) → Arr 32} (hL : ∀ a, Like Q Q' (keys a) (labels a))
    (hK : ∀ (s : NoiseSession) (e : Nat) remote, e < E → (s.dressed (seat keys e)).rekeyed Q remote = s.dressed (seat keys (e + 1)))
    (hK' : ∀ (s : NoiseSession) (e : Nat) remote, e < E → s.Wears (seat labels e) →
      s.rekeyed Q' remote = s.dressed (seat labels (e + 1))) {n : SNet} (hn : Labelled labels n) {act : SAct}
    (hI : ∀ remote, act = .rekeyI remote → n.rnet.rekeysI < E) (hR : ∀ remote, act = .rekeyR remote → n.rnet.rekeysR < E) :
    (clad keys n).step Q act = clad keys (n.step Q' act) ∧ Labelled labels (n.step Q' act) := by
  cases act with
  | stack act =>
    cases act with
    | iSend secret f room =>
      obtain ⟨e, w⟩ := NoiseSession.send_like (hL _) (hL _) (k := seat keys n.rnet.rekeysI) hn.i (Keypair.default Q secret)
        (Keypair.default Q' secret) (packet f room)
      refine ⟨?_, ⟨w, hn.r⟩⟩
      simp only [SNet.step, SAct.act, StackAct.act, RNet.step, Net.step, clad, e]
      rfl
    | rSend secret f room =>
      obtain ⟨e, w⟩ := NoiseSession.send_like (hL _) (hL _) (k := seat keys n.rnet.rekeysR) hn.r (Keypair.default Q secret)
        (Keypair.default Q' secret) (packet f room)
      refine ⟨?_, ⟨hn.i, w⟩⟩
      simp only [SNet.step, SAct.act, StackAct.act, RNet.step, Net.step, clad, e]
      rfl
    | toR wire =>
      obtain ⟨e, w⟩ := NoiseSession.recv_like (hL _) (hL _) (k := seat keys n.rnet.rekeysR) hn.r wire
      refine ⟨?_, ⟨hn.i, w⟩⟩
      simp only [SNet.step, SAct.act, StackAct.act, RNet.step, Net.step, clad, e]
      rfl
    | toI wire =>
      obtain ⟨e, w⟩ := NoiseSession.recv_like (hL _) (hL _) (k := seat keys n.rnet.rekeysI) hn.i wire
      refine ⟨?_, ⟨w, hn.r⟩⟩
      simp only [SNet.step, SAct.act, StackAct.act, RNet.step, Net.step, clad, e]
      rfl
  | rekeyI remote =>
    have he := hI remote rfl
    have e1 := hK n.rnet.net.i _ remote he
    have e2 := hK' n.rnet.net.i _ remote he hn.i
    refine ⟨?_, ⟨?_, hn.r⟩⟩
    · simp only [SNet.step, SAct.act, RNet.step, clad, e1, e2]
      rfl
    · simp only [SNet.step, SAct.act, RNet.step, e2]
      exact ⟨rfl, rfl, hn.i.mc⟩
  | rekeyR remote =>
    have he := hR remote rfl
    have e1 := hK n.rnet.net.r _ remote he
    have e2 := hK' n.rnet.net.r _ remote he hn.r
    refine ⟨?_, ⟨hn.i, ?_⟩⟩
    · simp only [SNet.step, SAct.act, RNet.step, clad, e1, e2]
      rfl
    · simp only [SNet.step, SAct.act, RNet.step, e2]
      exact ⟨rfl, rfl, hn.r.mc⟩

theorem build_rekeyed {labels : Fin (E + 2) → Arr 32} (hl : Injective labels) (rows : Fin (E + 2) → KeyRow) (C : Blocks)
    (s : NoiseSession) (e : Nat) (remote : Bool) (he : e < E) (hs : s.Wears (seat labels e)) :
    s.rekeyed (P.withBlocks rest (build labels rows C)) remote = s.dressed (seat labels (e + 1)) := by
  have := NoiseSession.rekeyed_eq P rest (build labels rows C) (seat labels e) s remote
  rw [hs.eq, after_build hl rows C he] at this
  exact this

theorem step_clad {keys labels : Fin (E + 2) → Arr 32} (hk : Injective keys) (hl : Injective labels) (hk0 : ∀ a, keys a ≠ EMPTY)
    (hl0 : ∀ a, labels a ≠ EMPTY) (rows : Fin (E + 2) → KeyRow) (C : Blocks) {n : SNet} (hn : Labelled labels n) {act : SAct}
    (hI : ∀ remote, act = .rekeyI remote → n.rnet.rekeysI < E) (hR : ∀ remote, act = .rekeyR remote → n.rnet.rekeysR < E) :
    (clad keys n).step (P.withBlocks rest (build keys rows C)) act =
        clad keys (n.step (P.withBlocks rest (build labels rows C)) act) ∧
      Labelled labels (n.step (P.withBlocks rest (build labels rows C)) act) := by
  refine step_clad_of (build_like P rest hk hl hk0 hl0 rows C) (fun s e remote he => ?_)
    (fun s e remote he hs => build_rekeyed P rest hl rows C s e remote he hs) hn hI hR
  rw [NoiseSession.rekeyed_eq, after_build hk rows C he]

/-! ## The attacker -/

theorem play_off {α : Type} {c : Curious α} (hc : c.Alone) {B C : Blocks} {keys : Fin (E + 2) → Arr 32}
    (hB : ∀ x : Arr 32 × Arr 12 × Fin 1025, (∀ a, keys a ≠ x.1) → B x = C x)
    (hk : ∀ a, keys a ∉ (c.play P rest C).keys ∨ keys a ∉ (c.play P rest B).toPlayed.used P) :
    (c.play P rest B).result = (c.play P rest C).result ∧ (c.play P rest B).toPlayed.used P = (c.play P rest C).keys := by
  induction c with
  | reply a => exact ⟨rfl, rfl⟩
  | hash x next ih => exact ih _ (hc _) hk
  | block x next ih =>
    have hx : ∀ a, keys a ≠ x.1 := fun a e =>
      (hk a).elim (fun h => h (List.mem_cons.mpr (.inl e))) (fun h => h (List.mem_cons.mpr (.inl e)))
    have e : ((next (B x)).play P rest B) = ((next (C x)).play P rest B) := by rw [hB x hx]
    have e' : ((Curious.block x next).play P rest B).toPlayed.used P = x.1 :: ((next (C x)).play P rest B).toPlayed.used P := by
      show x.1 :: ((next (B x)).play P rest B).toPlayed.used P = _
      rw [e]
    obtain ⟨h1, h2⟩ := ih (C x) (hc _) fun a => (hk a).imp (fun h h' => h (List.mem_cons.mpr (.inr h')))
      (fun h h' => h (by rw [e']; exact List.mem_cons.mpr (.inr h')))
    refine ⟨?_, ?_⟩
    · show ((next (B x)).play P rest B).result = ((next (C x)).play P rest C).result
      rw [e]
      exact h1
    · show x.1 :: (((next (B x)).play P rest B).toPlayed.used P) = x.1 :: ((next (C x)).play P rest C).keys
      rw [e, h2]
  | serve c next ih => exact hc.elim

/-- The keys it computes blocks with, while it watches two sessions with another cipher. -/
def asks (watcher : Watcher) (Q : Prims) (C : Blocks) (start : SNet) : Nat → List (Arr 32)
  | 0 => []
  | j + 1 =>
    let h := SNet.attacked Q (watcher.forger P rest C) start j
    asks watcher Q C start j ++ ((watcher ((h.1 :: h.2).map SNet.seen)).play P rest C).keys

theorem asks_length {watcher : Watcher} {M m : Nat} (hm : ∀ past, (watcher past).Within M m) (ha : ∀ past, (watcher past).Alone)
    (Q : Prims) (C : Blocks) (start : SNet) (j : Nat) : (asks P rest watcher Q C start j).length ≤ j * m := by
  induction j with
  | zero => exact Nat.zero_le _
  | succ j ih =>
    unfold asks
    rw [List.length_append, Nat.succ_mul]
    exact Nat.add_le_add ih (keys_length P rest (hm _) (ha _) C)

theorem attacked_clad {keys labels : Fin (E + 2) → Arr 32} (hk : Injective keys) (hl : Injective labels) (hk0 : ∀ a, keys a ≠ EMPTY)
    (hl0 : ∀ a, labels a ≠ EMPTY) (rows : Fin (E + 2) → KeyRow) (C : Blocks) {watcher : Watcher}
    (ha : ∀ past, (watcher past).Alone) (hE : (watcher.forger P rest C).Rekeys E) {start : SNet} (hs : Labelled labels start) (j : Nat)
    (hj : ∀ a, keys a ∉ asks P rest watcher (P.withBlocks rest (build labels rows C)) C start j ∨
      keys a ∉ (asker watcher P).used P rest (build keys rows C) (clad keys start) j) :
    let B := build keys rows C
    let ideal := SNet.attacked (P.withBlocks rest (build labels rows C)) (watcher.forger P rest C) start j
    SNet.attacked (P.withBlocks rest B) (watcher.forger P rest B) (clad keys start) j =
      (clad keys ideal.1, ideal.2.map (clad keys)) ∧ Labelled labels ideal.1 ∧
    (asker watcher P).used P rest B (clad keys start) j =
      asks P rest watcher (P.withBlocks rest (build labels rows C)) C start j := by
  intro B
  have hB : ∀ x : Arr 32 × Arr 12 × Fin 1025, (∀ a, keys a ≠ x.1) → B x = C x := fun x hx => patch_off _ _ hx
  induction j with
  | zero => exact ⟨rfl, hs, rfl⟩
  | succ j ih =>
    rw [asks, Asker.used] at hj
    simp only [List.mem_append, not_or] at hj
    obtain ⟨e, w, u⟩ := ih fun a => (hj a).imp And.left And.left
    have hj2 := fun a => (hj a).imp And.right And.right
    simp only [asker_forger, asker_play] at hj2
    have e' : SNet.attacked (P.withBlocks rest (build keys rows C)) (watcher.forger P rest (build keys rows C)) (clad keys start) j = _ := e
    rw [e'] at hj2
    intro ideal
    have hid : ideal = SNet.attacked (P.withBlocks rest (build labels rows C)) (watcher.forger P rest C) start (j + 1) := rfl
    clear_value ideal
    rw [SNet.attacked] at hid
    rw [SNet.attacked, Asker.used, asks]
    simp only [asker_forger] at u ⊢
    generalize SNet.attacked (P.withBlocks rest (build labels rows C)) (watcher.forger P rest C) start j = o at e w hj2 hid ⊢
    obtain ⟨n, past⟩ := o
    have hseen : (clad keys n :: past.map (clad keys)).map SNet.seen = (n :: past).map SNet.seen := map_seen_clad keys (n :: past)
    simp only [hseen] at hj2
    obtain ⟨p1, p2⟩ := play_off P rest (ha _) hB hj2
    have hf : watcher.forger P rest B (clad keys n :: past.map (clad keys)) = watcher.forger P rest C (n :: past) := by
      unfold Watcher.forger
      rw [hseen]
      exact p1
    obtain ⟨s1, s2⟩ := step_clad P rest hk hl hk0 hl0 rows C w (act := watcher.forger P rest C (n :: past))
      (fun remote h => Nat.lt_of_not_le fun hle => (hE n past remote).1 hle h)
      (fun remote h => Nat.lt_of_not_le fun hle => (hE n past remote).2 hle h)
    subst hid
    simp only [e, hf]
    refine ⟨?_, s2, ?_⟩
    · rw [s1]
      rfl
    · rw [asker_play, hseen, u]
      exact congrArg (_ ++ ·) p2

/-! ## How many -/

/-- A part that has nothing to do with a list is seldom in it. -/
theorem card_lens {X K : Type} [Finite X] [Finite K] (get : X → K) (put : K → X → X) (L : X → List K) (n : Nat)
    (get_put : ∀ k x, get (put k x) = k) (put_get : ∀ x, put (get x) x = x) (put_put : ∀ k k' x, put k (put k' x) = put k x)
    (hL : ∀ k x, L (put k x) = L x) (hn : ∀ x, (L x).length ≤ n) :
    Nat.card K * Nat.card {x // get x ∈ L x} ≤ n * Nat.card X := by
  classical
  have hf : ∀ x : {x // get x ∈ L x}, ∃ i : Fin n, (L x.1)[i.val]? = some (get x.1) := by
    intro x
    obtain ⟨i, hi, e⟩ := List.mem_iff_getElem.mp x.2
    exact ⟨⟨i, Nat.lt_of_lt_of_le hi (hn _)⟩, by rw [List.getElem?_eq_getElem hi, e]⟩
  choose f hf using hf
  have hX : n * Nat.card X = Nat.card (Fin n × X) := by rw [Nat.card_prod, Nat.card_fin]
  rw [← Nat.card_prod, hX]
  refine Nat.card_le_card_of_injective (fun z : K × {x // get x ∈ L x} => (f z.2, put z.1 z.2.1)) ?_
  rintro ⟨k, x⟩ ⟨k', x'⟩ h
  obtain ⟨h1, h2⟩ := Prod.mk.inj h
  simp only at h1 h2
  have e1 : k = k' := by rw [← get_put k x.1, h2, get_put]
  have e2 : L x.1 = L x'.1 := by rw [← hL k x.1, h2, hL]
  have e3 : get x.1 = get x'.1 := Option.some.inj ((hf x).symm.trans (by rw [e2, h1]; exact hf x'))
  have e4 : x.1 = x'.1 := by
    rw [← put_get x.1, ← put_put _ k, h2, put_put, e3, put_get]
  rw [e1, Subtype.ext e4]

/-- All keys, all blocks, and for each key blocks of its own. -/
abbrev Whole (E : Nat) := (Fin (E + 2) → Arr 32) × Blocks × (Fin (E + 2) → KeyRow)

/-- No two keys are the same, none is empty, and none was computed with. -/
structure Good (log : Blocks × (Fin (E + 2) → KeyRow) → List (Arr 32)) (w : Whole E) : Prop where
  inj : Injective w.1
  full : ∀ a, w.1 a ≠ EMPTY
  off : ∀ a, w.1 a ∉ log w.2

theorem few_not_good (log : Blocks × (Fin (E + 2) → KeyRow) → List (Arr 32)) {n : Nat} (hn : ∀ z, (log z).length ≤ n) :
    2 ^ 256 * Nat.card {w : Whole E // ¬ Good log w} ≤ (E + 2) * (n + E + 2) * Nat.card (Whole E) := by
  classical
  have : Finite (Whole E) := inferInstance
  let L : Fin (E + 2) → Whole E → List (Arr 32) := fun a w =>
    log w.2 ++ EMPTY :: ((List.finRange (E + 2)).erase a).map w.1
  have hsub : ∀ w : Whole E, ¬ Good log w → ∃ a, w.1 a ∈ L a w := by
    intro w hw
    by_contra hc
    simp only [not_exists, L, List.mem_append, List.mem_cons, List.mem_map, not_or, not_and] at hc
    refine hw ⟨fun a b hab => ?_, fun a => (hc a).2.1, fun a => (hc a).1⟩
    by_contra hne
    exact (hc a).2.2 b ((List.mem_erase_of_ne (Ne.symm hne)).mpr (List.mem_finRange b)) hab.symm
  have hlen : ∀ a w, (L a w).length ≤ n + E + 2 := by
    intro a w
    have : ((List.finRange (E + 2)).erase a).length = E + 1 := by
      rw [List.length_erase_of_mem (List.mem_finRange a), List.length_finRange]
      rfl
    simp only [L, List.length_append, List.length_cons, List.length_map, this]
    have := hn w.2
    omega
  have hone : ∀ a, 2 ^ 256 * Nat.card {w : Whole E // w.1 a ∈ L a w} ≤ (n + E + 2) * Nat.card (Whole E) := by
    intro a
    rw [← Crypto.Poly1305.card_keys]
    refine card_lens (fun w : Whole E => w.1 a) (fun k w => (update w.1 a k, w.2)) (L a) _ (fun k w => update_self _ _ _)
      (fun w => by rw [update_eq_self]) (fun k k' w => by rw [update_idem]) (fun k w => ?_) (hlen a)
    simp only [L]
    congr 2
    refine List.map_congr_left fun b hb => update_of_ne ?_ _ _
    rintro rfl
    exact (List.Nodup.mem_erase_iff (List.nodup_finRange _)).mp hb |>.1 rfl
  have hsum : Nat.card {w : Whole E // ¬ Good log w} ≤ ∑ a : Fin (E + 2), Nat.card {w : Whole E // w.1 a ∈ L a w} := by
    rw [← Nat.card_sigma]
    choose g hg using hsub
    exact Nat.card_le_card_of_injective (fun w : {w : Whole E // ¬ Good log w} =>
      (⟨g w.1 w.2, w.1, hg w.1 w.2⟩ : Σ a : Fin (E + 2), {w : Whole E // w.1 a ∈ L a w})) fun w w' h => by
        have := congrArg (fun z : Σ a : Fin (E + 2), {w : Whole E // w.1 a ∈ L a w} => z.2.1) h
        exact Subtype.ext this
  calc 2 ^ 256 * Nat.card {w : Whole E // ¬ Good log w}
      ≤ 2 ^ 256 * ∑ a : Fin (E + 2), Nat.card {w : Whole E // w.1 a ∈ L a w} := Nat.mul_le_mul_left _ hsum
    _ = ∑ a : Fin (E + 2), 2 ^ 256 * Nat.card {w : Whole E // w.1 a ∈ L a w} := Finset.mul_sum _ _ _
    _ ≤ ∑ _a : Fin (E + 2), (n + E + 2) * Nat.card (Whole E) := Finset.sum_le_sum fun a _ => hone a
    _ = (E + 2) * (n + E + 2) * Nat.card (Whole E) := by
      rw [Finset.sum_const, Finset.card_univ, Fintype.card_fin, smul_eq_mul, Nat.mul_assoc]

/-- The real keys and blocks, and all else. -/
abbrev Rest (E : Nat) := (Fin (E + 2) → KeyRow) × (Fin E → Arr 32)

noncomputable def shown (w : Whole E) : ((Arr 32 × Arr 32) × Blocks) × Rest E :=
  ((seat w.1 0, build w.1 w.2.2 w.2.1), fun a x => w.2.1 (w.1 a, x), fun e => link (w.2.2 ⟨e.val, by omega⟩))

theorem shown_inj {w w' : Whole E} (h : Injective w.1) (h' : Injective w'.1) (e : shown w = shown w') : w = w' := by
  obtain ⟨keys, C, rows⟩ := w
  obtain ⟨keys', C', rows'⟩ := w'
  simp only at h h'
  obtain ⟨e1, e2⟩ := Prod.mk.inj e
  obtain ⟨e1, eB⟩ := Prod.mk.inj e1
  obtain ⟨eC, el⟩ := Prod.mk.inj e2
  simp only at e1 eB eC el
  obtain ⟨e0, eE⟩ := Prod.mk.inj e1
  have hk : ∀ j (hj : j ≤ E), keys ⟨j, by omega⟩ = keys' ⟨j, by omega⟩ := by
    intro j
    induction j with
    | zero => exact fun _ => e0
    | succ j ih =>
      intro hj
      rw [← link_build h rows C (by omega : j < E), ← link_build h' rows' C' (by omega : j < E), ih (by omega), eB]
  have hkeys : keys = keys' := by
    funext a
    by_cases ha : a.val ≤ E
    · exact hk a.val ha
    · have : a = ⟨E + 1, by omega⟩ := Fin.ext (by show a.val = E + 1; omega)
      rw [this]
      exact eE
  subst hkeys
  have hrows : rows = rows' := by
    funext a
    have hch : chained keys rows a = chained keys rows' a := by
      funext y
      rw [← patch_at h (chained keys rows) C a y, ← patch_at h (chained keys rows') C' a y]
      exact congrFun eB _
    unfold chained at hch
    split at hch
    · rename_i ha
      have hl : link (rows a) = link (rows' a) := congrFun el ⟨a.val, ha⟩
      have := congrArg (relink (link (rows a))) hch
      rw [relink_relink, relink_relink, relink_link, hl, relink_link] at this
      exact this
    · exact hch
  subst hrows
  have hC : C = C' := by
    funext x
    by_cases hx : ∃ a, keys a = x.1
    · obtain ⟨a, ha⟩ := hx
      have := congrFun (congrFun eC a) x.2
      rw [ha] at this
      exact this
    · have hx' : ∀ a, keys a ≠ x.1 := fun a e => hx ⟨a, e⟩
      rw [← patch_off (chained keys rows) C hx', ← patch_off (chained keys rows) C' hx']
      exact congrFun eB x
  rw [hC]

theorem card_whole : Nat.card (Whole E) = Nat.card ((Arr 32 × Arr 32) × Blocks) * Nat.card (Rest E) := by
  rw [Nat.card_prod, Nat.card_prod, Nat.card_prod, Nat.card_prod, Nat.card_prod]
  rw [Nat.card_fun (α := Fin (E + 2)) (β := Arr 32), Nat.card_fun (α := Fin E) (β := Arr 32), Nat.card_fin, Nat.card_fin, pow_add]
  ring

/-- What is so for the keys and blocks of all good worlds fails only for few keys and blocks. -/
theorem few_real (log : Blocks × (Fin (E + 2) → KeyRow) → List (Arr 32)) {n : Nat} (hn : ∀ z, (log z).length ≤ n)
    (p : (Arr 32 × Arr 32) × Blocks → Prop) (hp : ∀ w : Whole E, Good log w → p (seat w.1 0, build w.1 w.2.2 w.2.1)) :
    2 ^ 256 * Nat.card {x // ¬ p x} ≤ (E + 2) * (n + E + 2) * Nat.card ((Arr 32 × Arr 32) × Blocks) := by
  classical
  have hN : Nonempty (Rest E) := ⟨fun _ _ => Arr.replicate 64 0, fun _ => EMPTY⟩
  have hX : 0 < Nat.card (Rest E) := Nat.card_pos
  have hsplit : ∀ {A : Type} [Finite A] (q : A → Prop), Nat.card A = Nat.card {x // q x} + Nat.card {x // ¬ q x} := by
    intro A _ q
    rw [← Nat.card_sum]
    exact Nat.card_congr (Equiv.sumCompl q).symm
  have hgood : Nat.card {w : Whole E // Good log w} ≤ Nat.card {x // p x} * Nat.card (Rest E) := by
    rw [← Nat.card_prod]
    refine Nat.card_le_card_of_injective (fun w : {w : Whole E // Good log w} =>
      ((⟨(shown w.1).1, hp w.1 w.2⟩ : {x // p x}), (shown w.1).2)) fun w w' h => ?_
    obtain ⟨h1, h2⟩ := Prod.mk.inj h
    exact Subtype.ext (shown_inj w.2.inj w'.2.inj (Prod.ext (congrArg Subtype.val h1) h2))
  have h1 := hsplit (A := Whole E) (Good log)
  have h2 := hsplit (A := (Arr 32 × Arr 32) × Blocks) p
  have h3 := card_whole (E := E)
  have h4 := few_not_good log hn
  have h5 : Nat.card {x // ¬ p x} * Nat.card (Rest E) ≤ Nat.card {w : Whole E // ¬ Good log w} := by
    rw [h2, Nat.add_mul] at h3
    omega
  refine Nat.le_of_mul_le_mul_right ?_ hX
  calc 2 ^ 256 * Nat.card {x // ¬ p x} * Nat.card (Rest E)
      = 2 ^ 256 * (Nat.card {x // ¬ p x} * Nat.card (Rest E)) := Nat.mul_assoc _ _ _
    _ ≤ 2 ^ 256 * Nat.card {w : Whole E // ¬ Good log w} := Nat.mul_le_mul_left _ h5
    _ ≤ (E + 2) * (n + E + 2) * Nat.card (Whole E) := h4
    _ = (E + 2) * (n + E + 2) * Nat.card ((Arr 32 × Arr 32) × Blocks) * Nat.card (Rest E) := by
      rw [h3]; ring

theorem labels_exist (h : E + 3 ≤ 2 ^ 256) : ∃ labels : Fin (E + 2) → Arr 32, Injective labels ∧ ∀ a, labels a ≠ EMPTY := by
  classical
  have := Fintype.ofFinite (Arr 32)
  have hc : Fintype.card (Fin (E + 3)) ≤ Fintype.card (Arr 32) := by
    rw [Fintype.card_fin, ← Nat.card_eq_fintype_card, Crypto.Poly1305.card_keys]
    exact h
  obtain ⟨f⟩ := Function.Embedding.nonempty_of_card_le hc
  refine ⟨fun a => Equiv.swap (f 0) EMPTY (f a.succ), fun a b hab => ?_, fun a ha => ?_⟩
  · exact Fin.succ_injective _ (f.injective ((Equiv.injective _) hab))
  · have h0 : Equiv.swap (f 0) EMPTY (f 0) = EMPTY := Equiv.swap_apply_left _ _
    exact Fin.succ_ne_zero a (f.injective ((Equiv.injective _) (ha.trans h0.symm)))

end Renewal
end SV2.Stack
