import Verif.Props.NoiseTransport
import Verif.Props.Stream
import Verif.Spec.Stack
/-!
# C76: frames over a Noise session
-/

namespace SV2
open Law Noise SV2.Stack

variable (P : Prims)

theorem packet_eq (f : Message) (room : Arr 16) (h : f.payload.length ≤ 65513) :
    packet f room = Wire.frame f ++ room.toList ∧ plain (packet f room) = Wire.frame f ∧
      16 ≤ (packet f room).length ∧ (packet f room).length ≤ 65535 := by
  have e : packet f room = Wire.frame f ++ room.toList := by
    unfold packet
    rw [(C18_roundtrip f (by omega)).1]
  refine ⟨e, by rw [e, plain_append room.len], ?_, ?_⟩ <;>
    rw [e, List.length_append, room.len, wire_frame_length] <;> omega

/-- A buffer whose plaintext is a frame is read as this frame, the tag behind it notwithstanding. -/
theorem read_plain {buf : Bytes} {f : Message} (h : f.payload.length ≤ 65513) (hp : plain buf = Wire.frame f) :
    deserialize Message buf = .ok f := by
  have hl := congrArg List.length hp
  rw [wire_frame_length] at hl
  unfold plain at hp hl
  rw [List.length_take] at hl
  have e : buf = Wire.frame f ++ buf.drop (buf.length - 16) := by
    rw [← hp, List.take_append_drop]
  rw [e]
  apply deserialize_frame f (by omega)
  rw [← e]
  unfold IsSlice
  omega

/-- Every frame that a side wants to send is sent. -/
theorem stack_sent (i r : NoiseSession) (keys : Arr 32 × Arr 32) (n1 n2 : UInt64) (h : InSync i r keys n1 n2)
    (acts : List StackAct) (hp : ∀ f, f ∈ framesI acts ∨ f ∈ framesR acts → f.payload.length ≤ 65513)
    (hk : keys.1 ≠ NX.zeros ∧ keys.2 ≠ NX.zeros)
    (hn : n1.toNat + acts.length < 2 ^ 64 ∧ n2.toNat + acts.length < 2 ^ 64) :
    (Net.run P { i := i, r := r } (acts.map StackAct.act)).sentI.map (·.1) = (framesI acts).map Wire.frame ∧
    (Net.run P { i := i, r := r } (acts.map StackAct.act)).sentR.map (·.1) = (framesR acts).map Wire.frame := by
  suffices key : ∀ k, k ≤ acts.length →
      (Net.run P { i := i, r := r } ((acts.take k).map StackAct.act)).sentI.map (·.1) =
        (framesI (acts.take k)).map Wire.frame ∧
      (Net.run P { i := i, r := r } ((acts.take k).map StackAct.act)).sentR.map (·.1) =
        (framesR (acts.take k)).map Wire.frame by
    have := key acts.length (Nat.le_refl _)
    rwa [List.take_length] at this
  intro k
  induction k with
  | zero => intro _; exact ⟨rfl, rfl⟩
  | succ k ih =>
    intro hk1
    have ih := ih (by omega)
    have hlt : k < acts.length := by omega
    have hmem : acts[k] ∈ acts := List.getElem_mem hlt
    rw [List.take_succ_eq_append_getElem hlt, List.map_append, List.map_cons, List.map_nil]
    have hrun : ∀ (xs : List Act) (a : Act), Net.run P { i := i, r := r } (xs ++ [a]) =
        Net.step P (Net.run P { i := i, r := r } xs) a := by
      intro xs a
      unfold Net.run
      rw [List.foldl_append]
      rfl
    rw [hrun]
    have hfl : (framesI (acts.take k)).length ≤ k := by
      refine Nat.le_trans (List.length_filterMap_le _ _) ?_
      rw [List.length_take]; omega
    have hfr : (framesR (acts.take k)).length ≤ k := by
      refine Nat.le_trans (List.length_filterMap_le _ _) ?_
      rw [List.length_take]; omega
    have l1 := congrArg List.length ih.1
    have l2 := congrArg List.length ih.2
    rw [List.length_map, List.length_map] at l1 l2
    have happI : ∀ a, framesI (acts.take k ++ [a]) = framesI (acts.take k) ++ framesI [a] := by
      intro a; unfold framesI; rw [List.filterMap_append]
    have happR : ∀ a, framesR (acts.take k ++ [a]) = framesR (acts.take k) ++ framesR [a] := by
      intro a; unfold framesR; rw [List.filterMap_append]
    rw [happI, happR]
    cases ha : acts[k] with
    | iSend secret f room =>
      rw [ha] at hmem
      have hpf := packet_eq f room (hp f (.inl (List.mem_filterMap.mpr ⟨_, hmem, rfl⟩)))
      have hs := (C39_send P i r keys n1 n2 h ((acts.take k).map StackAct.act) secret (packet f room)
        hpf.2.2).1 hk.1 (by omega)
      simp only [StackAct.act, Net.step, hs, Out.isOk, if_true, List.map_append, List.map_cons, List.map_nil, hpf.2.1]
      rw [ih.1, ih.2]
      simp [framesI, framesR]
    | rSend secret f room =>
      rw [ha] at hmem
      have hpf := packet_eq f room (hp f (.inr (List.mem_filterMap.mpr ⟨_, hmem, rfl⟩)))
      have hs := (C39_send P i r keys n1 n2 h ((acts.take k).map StackAct.act) secret (packet f room)
        hpf.2.2).2 hk.2 (by omega)
      simp only [StackAct.act, Net.step, hs, Out.isOk, if_true, List.map_append, List.map_cons, List.map_nil, hpf.2.1]
      rw [ih.1, ih.2]
      simp [framesI, framesR]
    | toR wire =>
      simp only [StackAct.act, Net.step]
      rw [ih.1, ih.2]
      simp [framesI, framesR]
    | toI wire =>
      simp only [StackAct.act, Net.step]
      rw [ih.1, ih.2]
      simp [framesI, framesR]

/-- Plaintexts that are frames are read as these frames. -/
theorem read_of_accepted {got : List (Bytes × NResult Unit × Bytes)} {fs : List Message}
    (hp : ∀ f ∈ fs, f.payload.length ≤ 65513) (h : accepted got = fs.map Wire.frame) : Stack.read got = fs.map .ok := by
  unfold accepted at h
  unfold Stack.read
  generalize got.filter (fun g => g.2.1.isOk) = l at h
  induction l generalizing fs with
  | nil =>
    cases fs with
    | nil => rfl
    | cons _ _ => cases h
  | cons g gs ih =>
    cases fs with
    | nil => cases h
    | cons f fs =>
      simp only [List.map_cons, List.cons.injEq] at h ⊢
      exact ⟨read_plain (hp f List.mem_cons_self) h.1, ih (fun x hx => hp x (List.mem_cons_of_mem _ hx)) h.2⟩

theorem prefix_map_wire {l : List Bytes} {fs : List Message} (h : l <+: fs.map Wire.frame) :
    l = (fs.take l.length).map Wire.frame := by
  rw [List.prefix_iff_eq_take.mp h, List.length_take, List.map_take]
  congr 1
  have := h.length_le
  omega

/-- Both sides send any frames that fit into a Noise message, interleaved in any way, and a network that keeps the
order delivers: every receive succeeds and what is read from the buffers is exactly the frames of the other side, in
order, up to the last delivery. -/
theorem C76_delivery (hA : AeadCorrect P) (i r : NoiseSession) (keys : Arr 32 × Arr 32) (n1 n2 : UInt64)
    (h : InSync i r keys n1 n2) (acts : List StackAct)
    (hp : ∀ f, f ∈ framesI acts ∨ f ∈ framesR acts → f.payload.length ≤ 65513)
    (hk : keys.1 ≠ NX.zeros ∧ keys.2 ≠ NX.zeros)
    (hn : n1.toNat + acts.length < 2 ^ 64 ∧ n2.toNat + acts.length < 2 ^ 64)
    (hf : Net.Faithful P { i := i, r := r } (acts.map StackAct.act)) :
    let n := Net.run P { i := i, r := r } (acts.map StackAct.act)
    (∀ g ∈ n.gotR, g.2.1 = .ok ()) ∧ (∀ g ∈ n.gotI, g.2.1 = .ok ()) ∧
    n.gotR.map (fun g => deserialize Message g.2.2) = ((framesI acts).take n.gotR.length).map .ok ∧
    n.gotI.map (fun g => deserialize Message g.2.2) = ((framesR acts).take n.gotI.length).map .ok := by
  intro n
  obtain ⟨o1, o2, p1, p2⟩ := C39_fifo P hA i r keys n1 n2 h (acts.map StackAct.act) hf
  obtain ⟨s1, s2⟩ := stack_sent P i r keys n1 n2 h acts hp hk hn
  have conv : ∀ (got : List (Bytes × NResult Unit × Bytes)) (fs : List Message),
      (∀ f ∈ fs, f.payload.length ≤ 65513) → (∀ g ∈ got, g.2.1 = .ok ()) →
      got.map (fun g => plain g.2.2) = (fs.map Wire.frame).take got.length →
      got.map (fun g => deserialize Message g.2.2) = (fs.take got.length).map .ok := by
    intro got fs hfs ho he
    have hfil : got.filter (fun g => g.2.1.isOk) = got := by
      rw [List.filter_eq_self.mpr]
      intro a ha
      rw [ho a ha]
      rfl
    have := read_of_accepted (got := got) (fs := fs.take got.length) (fun f hf => hfs f (List.mem_of_mem_take hf))
      (by unfold accepted; rw [hfil, he, List.map_take])
    unfold Stack.read at this
    rwa [hfil] at this
  exact ⟨o1, o2, conv _ _ (fun f hf => hp f (.inl hf)) o1 (by rw [← s1]; exact p1),
    conv _ _ (fun f hf => hp f (.inr hf)) o2 (by rw [← s2]; exact p2)⟩

/-- Whatever the network does: what a side reads from its successful receives is a prefix of the frames the other side
sent, or one of the accepted Noise messages is a forgery. -/
theorem C76_adversary (hA : AeadCorrect P) (i r : NoiseSession) (keys : Arr 32 × Arr 32) (n1 n2 : UInt64)
    (h : InSync i r keys n1 n2) (acts : List StackAct)
    (hp : ∀ f, f ∈ framesI acts ∨ f ∈ framesR acts → f.payload.length ≤ 65513)
    (hk : keys.1 ≠ NX.zeros ∧ keys.2 ≠ NX.zeros)
    (hn : n1.toNat + acts.length < 2 ^ 64 ∧ n2.toNat + acts.length < 2 ^ 64) :
    let n := Net.run P { i := i, r := r } (acts.map StackAct.act)
    (Stack.read n.gotR <+: (framesI acts).map .ok ∨ ∃ j, ForgedAt P keys.1 n1.toNat n.sentI (acceptedWires n.gotR) j) ∧
    (Stack.read n.gotI <+: (framesR acts).map .ok ∨ ∃ j, ForgedAt P keys.2 n2.toNat n.sentR (acceptedWires n.gotI) j) := by
  intro n
  obtain ⟨c1, c2⟩ := C40_prefix_or_forged P hA i r keys n1 n2 h (acts.map StackAct.act)
  obtain ⟨s1, s2⟩ := stack_sent P i r keys n1 n2 h acts hp hk hn
  have conv : ∀ (got : List (Bytes × NResult Unit × Bytes)) (fs : List Message),
      (∀ f ∈ fs, f.payload.length ≤ 65513) → accepted got <+: fs.map Wire.frame → Stack.read got <+: fs.map .ok := by
    intro got fs hfs hpre
    rw [read_of_accepted (fun f hf => hfs f (List.mem_of_mem_take hf)) (prefix_map_wire hpre), List.map_take]
    exact List.take_prefix _ _
  constructor
  · rcases c1 with ⟨c, -⟩ | c
    · exact .inl (conv _ _ (fun f hf => hp f (.inl hf)) (by rw [← s1]; exact c))
    · exact .inr c
  · rcases c2 with ⟨c, -⟩ | c
    · exact .inl (conv _ _ (fun f hf => hp f (.inr hf)) (by rw [← s2]; exact c))
    · exact .inr c

/-- The same for messages of one type, from the value the sender holds to the value the receiver gets. -/
theorem C76_messages (hA : AeadCorrect P) (i r : NoiseSession) (keys : Arr 32 × Arr 32) (n1 n2 : UInt64)
    (h : InSync i r keys n1 n2) (acts : List StackAct)
    (hp : ∀ f, f ∈ framesI acts ∨ f ∈ framesR acts → f.payload.length ≤ 65513)
    (hk : keys.1 ≠ NX.zeros ∧ keys.2 ≠ NX.zeros)
    (hn : n1.toNat + acts.length < 2 ^ 64 ∧ n2.toNat + acts.length < 2 ^ 64)
    (hf : Net.Faithful P { i := i, r := r } (acts.map StackAct.act))
    {α : Type} [Frameable α] (ms : List α) (hm : ∀ m ∈ ms, FramesBack m)
    (hms : ms.map frame = (framesI acts).map .ok) :
    let n := Net.run P { i := i, r := r } (acts.map StackAct.act)
    n.gotR.map (fun g => deserialize Message g.2.2 >>= unframe α) = (ms.take n.gotR.length).map .ok := by
  intro n
  have hd := (C76_delivery P hA i r keys n1 n2 h acts hp hk hn hf).2.2.1
  have key : ∀ (fs : List Message) (ms : List α), (∀ f ∈ fs, f.payload.length ≤ 65513) → (∀ m ∈ ms, FramesBack m) →
      ms.map frame = fs.map .ok → fs.map (fun f => unframe α f) = ms.map .ok := by
    intro fs
    induction fs with
    | nil =>
      intro ms _ _ h
      cases ms with
      | nil => rfl
      | cons _ _ => cases h
    | cons f fs ih =>
      intro ms h1 h2 h3
      cases ms with
      | nil => cases h3
      | cons m ms =>
        simp only [List.map_cons, List.cons.injEq] at h3 ⊢
        refine ⟨?_, ih ms (fun x hx => h1 x (List.mem_cons_of_mem _ hx)) (fun x hx => h2 x (List.mem_cons_of_mem _ hx))
          h3.2⟩
        obtain ⟨f', bytes, e1, -, e2, e3⟩ := h2 m List.mem_cons_self
        rw [h3.1] at e1
        cases e1
        have hfl := h1 f List.mem_cons_self
        rw [(C18_roundtrip f (by omega)).1] at e2
        cases e2
        have hs : IsSlice (Wire.frame f ++ []) := by
          unfold IsSlice
          rw [List.append_nil, wire_frame_length]
          omega
        obtain ⟨f', e4, e5⟩ := e3 [] hs
        rw [deserialize_frame f (by omega) [] hs] at e4
        cases e4
        exact e5
  have hu := key (framesI acts) ms (fun f hf => hp f (.inl hf)) hm hms
  have e : n.gotR.map (fun g => deserialize Message g.2.2 >>= unframe α) =
      (n.gotR.map (fun g => deserialize Message g.2.2)).map (fun d => d >>= unframe α) := by
    rw [List.map_map]
    rfl
  rw [e, hd, List.map_map, List.map_take, List.map_take, ← hu]
  rfl

/-- A session in which two frames go one way and one the other way. -/
def toyStack : List StackAct :=
  let u : Message := ⟨.setupConnectionSuccess, [2, 0, 1, 0, 0, 0]⟩
  [.iSend NX.zeros sampleFrame (Arr.replicate 16 0), .iSend NX.zeros u (Arr.replicate 16 9),
    .toR (NX.enc toyPrims (Arr.replicate 32 3) 0 [] (Wire.frame sampleFrame)),
    .rSend NX.zeros sampleFrame (Arr.replicate 16 0),
    .toI (NX.enc toyPrims (Arr.replicate 32 4) 0 [] (Wire.frame sampleFrame)),
    .toR (NX.enc toyPrims (Arr.replicate 32 3) 1 [] (Wire.frame u))]

example : (∀ f ∈ framesI toyStack, f.payload.length ≤ 65513) ∧ (∀ f ∈ framesR toyStack, f.payload.length ≤ 65513) ∧
    Net.Faithful toyPrims { i := toyI, r := toyR } (toyStack.map StackAct.act) := by
  refine ⟨by decide, by decide, trivial, trivial, ?_, trivial, ?_, ?_, trivial⟩ <;> simp only [StackAct.act] <;>
    decide +kernel

example : (Net.run toyPrims { i := toyI, r := toyR } (toyStack.map StackAct.act)).gotR.map
    (fun g => deserialize Message g.2.2) = [.ok sampleFrame, .ok ⟨.setupConnectionSuccess, [2, 0, 1, 0, 0, 0]⟩] := by
  decide +kernel

/-- The tag behind the plaintext is not neutral: of a frame that was cut short before it was encrypted the missing bytes,
up to sixteen of them, are taken from the tag, and a frame that nobody wrote is read without an error.  Without the last
sixteen bytes the same input is refused. -/
theorem C76_tag_as_payload (t : MessageType) (have_ missing : Bytes) (room : Arr 16) (hm : missing ≠ [])
    (hl : missing.length ≤ 16) (hp : (have_ ++ missing).length ≤ 65513) (cut : Bytes)
    (hc : serialize (⟨t, have_ ++ missing⟩ : Message) = .ok (cut ++ missing)) :
    deserialize Message (cut ++ room.toList) = .ok ⟨t, have_ ++ room.toList.take missing.length⟩ ∧
    TooShort (deserialize Message cut) := by
  have hb : (have_ ++ missing).length < 2 ^ 24 := by omega
  rw [(C18_roundtrip ⟨t, have_ ++ missing⟩ hb).1] at hc
  have hlen : (have_ ++ room.toList.take missing.length).length = (have_ ++ missing).length := by
    rw [List.length_append, List.length_append, List.length_take, room.len]
    omega
  constructor
  · have hcut : cut = (Wire.frame ⟨t, have_ ++ missing⟩).take (6 + have_.length) := by
      have := Out.ok.inj hc
      rw [this, List.take_left']
      have h2 := congrArg List.length this
      rw [wire_frame_length, List.length_append] at h2
      simp only [List.length_append] at h2
      omega
    have hhead : ∀ p : Bytes, Wire.frame ⟨t, p⟩ = frameHeader ⟨t, p⟩ ++ p := fun p => wire_frame ⟨t, p⟩
    have he : cut ++ room.toList = Wire.frame ⟨t, have_ ++ room.toList.take missing.length⟩ ++
        room.toList.drop missing.length := by
      have h1 : frameHeader ⟨t, have_ ++ missing⟩ = frameHeader ⟨t, have_ ++ room.toList.take missing.length⟩ := by
        unfold frameHeader
        rw [hlen]
      rw [hcut, hhead, hhead, ← h1, ← List.append_assoc, ← frameHeader_length ⟨t, have_ ++ missing⟩,
        ← List.length_append, List.take_left', List.append_assoc, List.append_assoc, List.append_assoc,
        List.take_append_drop]
      rfl
    rw [he]
    apply deserialize_frame _ (by rw [hlen]; exact hb)
    rw [← he]
    unfold IsSlice
    have h2 := congrArg List.length (Out.ok.inj hc)
    rw [wire_frame_length, List.length_append (as := cut)] at h2
    have h3 : List.length (⟨t, have_ ++ missing⟩ : Message).payload = (have_ ++ missing).length := rfl
    rw [List.length_append, room.len]
    omega
  · obtain ⟨e, he, hr⟩ := C13_truncation_frame ⟨t, have_ ++ missing⟩ hb
    rw [(C18_roundtrip ⟨t, have_ ++ missing⟩ hb).1, hc] at he
    cases he
    exact hr cut missing hm rfl

example : deserialize Message ([0, 0x80, 0x1a, 3, 0, 0, 1] ++ List.replicate 16 7) =
    .ok ⟨.submitSharesStandard, [1, 7, 7]⟩ ∧ deserialize Message [0, 0x80, 0x1a, 3, 0, 0, 1] = .err oob := by decide

end SV2
