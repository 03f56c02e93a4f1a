import Verif.Spec.Connection
import Verif.Lemmas.Channel
import Verif.Props.Insistence
/-!
# A run of the handshake does not depend on the one-time keys of the session keys
-/

namespace SV2.Noise

variable {P : Prims} {stream : Arr 32 → Arr 12 → Nat → UInt8}

/-- What a client makes of a reply depends on the one-time keys of two keys. -/
theorem recv_reply_rows {mk mk' : OneTime} (i : NoiseSession) (hi : i.mc = 1) (w : Bytes)
    (h1 : mk ((askedStatic P i.progress i.hs.e.private_key w).key, NX.nonce 0) =
      mk' ((askedStatic P i.progress i.hs.e.private_key w).key, NX.nonce 0))
    (h2 : mk ((askedPayload P stream i.progress i.hs.e.private_key w).key, NX.nonce 0) =
      mk' ((askedPayload P stream i.progress i.hs.e.private_key w).key, NX.nonce 0)) :
    i.recvMessage (P.withMac stream mk) w = i.recvMessage (P.withMac stream mk') w := by
  let check : Arr 32 → Arr 12 → Bytes → Bytes → Arr 16 → Prop := fun k n ad c mac => polyTag (mk (k, n)) ad c = mac
  rw [recv_agree (check := check) i hi w (fun _ _ => Iff.rfl) (fun _ _ _ => Iff.rfl)]
  symm
  refine recv_agree i hi w (fun _ _ => ?_) (fun _ _ _ => ?_)
  · show _ ↔ polyTag (mk _) _ _ = _
    rw [h1]
  · show _ ↔ polyTag (mk _) _ _ = _
    rw [h2]

/-- Without an ephemeral key that is taken the primitives do not matter. -/
theorem recv_untaken (Q Q' : Prims) (s : NoiseSession) (h1 : s.mc = 1) (w : Bytes) (hw : ¬ NX.Taken w) :
    s.recvMessage Q w = s.recvMessage Q' w := by
  by_cases hl : w.length < 16 ∨ 65535 < w.length
  · rw [NoiseSession.recv_badLength s w hl, NoiseSession.recv_badLength s w hl]
  rw [NoiseSession.recv_one s w hl h1, NoiseSession.recv_one s w hl h1]
  unfold HandshakeState.readMessageB
  simp only [show DHLEN = 32 from rfl, show MAC_LENGTH = 16 from rfl]
  by_cases h48 : w.length < 48
  · rw [if_pos (by omega), if_pos (by omega)]
  · have hf : w.take 32 ∈ forbiddenCurveValues := by
      rw [lowOrder_take (by omega)]
      exact Decidable.of_not_not fun h => hw ⟨by omega, by omega, h⟩
    rw [if_neg (by omega), if_neg (by omega), key_forbidden (w.take 32) (by simp; omega) (by rw [take32_take32]; exact hf)]

variable {rest : Arr 32 → Arr 12 → Nat → UInt8}

theorem siege_grows (blocks : Blocks) (T : Insistent) : ∀ (q : Nat) (s : Siege),
    let s' := T.play P rest blocks q s
    (∀ k ∈ s.keys, k ∈ s'.keys) ∧ (∀ a ∈ s.served, a ∈ s'.served) ∧ ∀ x ∈ s.refused, x ∈ s'.refused := by
  induction T with
  | stop => exact fun q s => ⟨fun _ h => h, fun _ h => h, fun _ h => h⟩
  | block x next ih =>
    intro q s
    obtain ⟨h1, h2, h3⟩ := ih (blocks x) q { s with keys := x.1 :: s.keys }
    exact ⟨fun k hk => h1 k (List.mem_cons_of_mem _ hk), h2, h3⟩
  | serve c next ih =>
    intro q s
    obtain ⟨h1, h2, h3⟩ := ih (c.answer (P.withBlocks rest blocks)) q
      { s with served := s.served ++ ((c.answer (P.withBlocks rest blocks)).map fun a => (c.sR, a)).toList }
    exact ⟨h1, fun a ha => h2 a (List.mem_append_left _ ha), h3⟩
  | deliver m next ih =>
    intro q s
    cases q with
    | zero => exact ⟨fun _ h => h, fun _ h => h, fun _ h => h⟩
    | succ q =>
      intro s'
      rcases hres : s.client.recvMessage (P.withBlocks rest blocks) m with ⟨r, i, b⟩
      have hs' : s' = (Insistent.deliver m next).play P rest blocks (q + 1) s := rfl
      rw [Insistent.play, hres] at hs'
      match r, hres, hs' with
      | .ok (), hres, hs' =>
        rw [hs']
        exact ⟨fun _ h => h, fun _ h => h, fun _ h => h⟩
      | .panic, hres, hs' =>
        rw [hs']
        exact ⟨fun _ h => h, fun _ h => h, fun _ h => h⟩
      | .err e, hres, hs' =>
        rw [hs']
        obtain ⟨h1, h2, h3⟩ := ih (.err e, i, b) q { s with client := i, refused := s.refused ++ [m] }
        exact ⟨h1, h2, fun x hx => h3 x (List.mem_append_left _ hx)⟩

/-- The one-time keys of keys that were not used do not matter, if the replies refused had no ephemeral key that is taken
and the accepted one is accepted. -/
theorem siege_apart (o : Others) {K : Arr 32 → Prop} {mk mk' : OneTime} (hm : ∀ row, ¬ K row.1 → mk row = mk' row)
    (i1 : NoiseSession) (hi1 : i1.mc = 1) (w : Bytes) (i2 : NoiseSession) (out : Bytes)
    (hw : i1.recvMessage (P.withBlocks rest (Blocks.join o mk')) w = (.ok (), i2, out))
    (T : Insistent) : ∀ (q : Nat) (s : Siege), s.client = i1 → s.accepted = none →
    let s' := T.play P rest (Blocks.join o mk) q s
    (∀ k ∈ s'.used P, ¬ K k) → (∀ x ∈ s'.refused, ¬ NX.Taken x) → s'.accepted = some (w, i2, out) →
    T.play P rest (Blocks.join o mk') q s = s' := by
  induction T with
  | stop => exact fun q s _ _ _ _ _ => rfl
  | block x next ih =>
    intro q s hc hn s' hu hr ha
    have hx : x.1 ∈ s'.used P :=
      List.mem_append_left _ ((siege_grows _ (next (Blocks.join o mk x)) q { s with keys := x.1 :: s.keys }).1 _ List.mem_cons_self)
    show (next (Blocks.join o mk' x)).play P rest (Blocks.join o mk') q { s with keys := x.1 :: s.keys } = _
    rw [join_apart o (hm (x.1, x.2.1) (hu _ hx))]
    exact ih _ q { s with keys := x.1 :: s.keys } hc hn hu hr ha
  | serve c next ih =>
    intro q s hc hn s' hu hr ha
    have hans : c.answer (P.withBlocks rest (Blocks.join o mk')) = c.answer (P.withBlocks rest (Blocks.join o mk)) := by
      rw [withBlocks_join o mk' mk, withBlocks_join o mk mk]
      refine c.answer_congr fun a ha t hta => ?_
      rw [← withBlocks_join o mk mk] at ha
      rw [hm (t.key, NX.nonce 0)]
      refine hu _ (List.mem_append_right _ (List.mem_flatMap.mpr ⟨(c.sR, a), ?_, ?_⟩))
      · refine (siege_grows _ (next (c.answer (P.withBlocks rest (Blocks.join o mk)))) q { s with
          served := s.served ++ ((c.answer (P.withBlocks rest (Blocks.join o mk))).map fun a => (c.sR, a)).toList }).2.1 _ ?_
        rw [ha]
        exact List.mem_append_right _ List.mem_cons_self
      · rw [← Answer.tagged_keys]
        exact List.mem_map_of_mem hta
    show (next (c.answer (P.withBlocks rest (Blocks.join o mk')))).play P rest (Blocks.join o mk') q
      { s with served := s.served ++ ((c.answer (P.withBlocks rest (Blocks.join o mk'))).map fun a => (c.sR, a)).toList } = _
    rw [hans]
    exact ih _ q _ hc hn hu hr ha
  | deliver m next ih =>
    intro q s hc hn
    cases q with
    | zero => exact fun _ _ _ => rfl
    | succ q =>
      intro s' hu hr ha
      rcases hres : s.client.recvMessage (P.withBlocks rest (Blocks.join o mk)) m with ⟨r, i, b⟩
      have hs' : s' = (Insistent.deliver m next).play P rest (Blocks.join o mk) (q + 1) s := rfl
      rw [Insistent.play, hres] at hs'
      match r, hres, hs' with
      | .ok (), hres, hs' =>
        have hs' : s' = { s with accepted := some (m, i, b) } := hs'
        rw [hs'] at ha ⊢
        have h := Option.some.inj ha
        obtain ⟨e1, h⟩ := Prod.mk.inj h
        obtain ⟨e2, e3⟩ := Prod.mk.inj h
        rw [← e1, ← e2, ← e3] at hw
        rw [Insistent.play, hc, hw]
      | .panic, hres, hs' =>
        have hs' : s' = s := hs'
        rw [hs', hn] at ha
        cases ha
      | .err e, hres, hs' =>
        have hmem : m ∈ s'.refused := by
          rw [hs']
          exact (siege_grows _ (next (.err e, i, b)) q { s with client := i, refused := s.refused ++ [m] }).2.2 _
            (List.mem_append_right _ List.mem_cons_self)
        have hut := hr m hmem
        have hsame := recv_untaken (P.withBlocks rest (Blocks.join o mk')) (P.withBlocks rest (Blocks.join o mk)) s.client
          (by rw [hc]; exact hi1) m hut
        have hi : i = i1 := by
          obtain ⟨e', he⟩ := C99_nothing (P.withBlocks rest (Blocks.join o mk)) s.client (by rw [hc]; exact hi1) m hut
          rw [he] at hres
          rw [← hc]
          exact (congrArg (fun x => x.2.1) hres).symm
        rw [hs'] at hu hr ha ⊢
        rw [Insistent.play, hsame, hres]
        exact ih (.err e, i, b) q { s with client := i, refused := s.refused ++ [m] } hi hn hu hr ha

end SV2.Noise
