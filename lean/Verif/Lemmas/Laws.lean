import Verif.Lemmas.Frame
import Verif.Spec.Laws
/-!
# From the composable laws to the laws of `Spec/Laws.lean`
-/

namespace SV2
open Law

theorem rest_mid (before e : Bytes) : ByteParser.rest ⟨before ++ e, before.length⟩ = e := by
  simp [ByteParser.rest]

theorem valid_mid {before e : Bytes} (h : IsSlice (before ++ e)) :
    ByteParser.Valid ⟨before ++ e, before.length⟩ := ⟨by simp, h⟩

theorem valid_zero {bytes : Bytes} (h : IsSlice bytes) : ByteParser.Valid ⟨bytes, 0⟩ := ⟨by simp, h⟩

@[simp] theorem rest_zero (bytes : Bytes) : ByteParser.rest ⟨bytes, 0⟩ = bytes := by
  simp [ByteParser.rest]

section
variable {α : Type}

theorem Reads.deserialize [Deserializable α] {e : Bytes} {a : α} (h : Reads Deserializable.deser e a)
    (rest : Bytes) (hs : IsSlice (e ++ rest)) : deserialize α (e ++ rest) = .ok a := by
  unfold SV2.deserialize
  rw [h ⟨e ++ rest, 0⟩ (valid_zero hs) rest (by simp)]

theorem Reads.at [Deserializable α] {e : Bytes} {a : α} (h : Reads Deserializable.deser e a)
    (before rest : Bytes) (hs : IsSlice (before ++ (e ++ rest))) :
    Deserializable.deser ⟨before ++ (e ++ rest), before.length⟩ =
      (.ok a, ⟨before ++ (e ++ rest), before.length + e.length⟩) := by
  rw [h _ (valid_mid hs) rest (rest_mid before _)]
  rfl

theorem RejectsPrefix.deserialize [Deserializable α] {e : Bytes}
    (h : RejectsPrefix (Deserializable.deser (α := α)) e) (he : IsSlice e) (cut missing : Bytes)
    (hm : missing ≠ []) (hc : cut ++ missing = e) : SV2.deserialize α cut = .err oob := by
  have hs : IsSlice cut := by
    unfold IsSlice at *
    have := congrArg List.length hc
    simp at this
    omega
  obtain ⟨p', h'⟩ := h ⟨cut, 0⟩ (valid_zero hs) missing hm (by simpa using hc)
  unfold SV2.deserialize
  rw [h']

theorem Inverts.deserialize [Deserializable α] {P : α → Bytes → Prop}
    (h : Inverts (Deserializable.deser (α := α)) P) {bytes : Bytes} {m : α} (hs : IsSlice bytes)
    (hd : SV2.deserialize α bytes = .ok m) : ∃ e rest, bytes = e ++ rest ∧ P m e := by
  unfold SV2.deserialize at hd
  obtain ⟨e, h1, h2, h3⟩ := h ⟨bytes, 0⟩ m (Deserializable.deser (α := α) ⟨bytes, 0⟩).2 (valid_zero hs)
    (Prod.ext hd rfl)
  exact ⟨e, _, by simpa using h1, h3⟩

theorem Safe.neverPanics [Deserializable α] (h : Safe (Deserializable.deser (α := α))) :
    NeverPanics α := by
  intro bytes start hs hle
  have hv : ByteParser.Valid ⟨bytes, start⟩ := ⟨hle, hs⟩
  obtain ⟨h1, n, hn, h2⟩ := h ⟨bytes, start⟩ hv
  rw [ByteParser.rest_length] at hn
  refine ⟨h1, ?_, ?_, ?_⟩ <;> rw [h2] <;> simp [ByteParser.adv]
  simp at hn hle ⊢
  omega

theorem Emits.serialize [Serializable α] {a : α} {e : Bytes} (h : Emits (encoder a) e 0) :
    serialize a = .ok e := by
  have := h.run_vec []
  unfold SV2.serialize
  simp only [encoder] at this
  rw [this]
  simp

end

section
variable {α : Type} [Serializable α] [Deserializable α] {ok : α → Prop} {enc : α → Bytes}

theorem Lawful.roundTrips (h : Lawful α ok enc) (a : α) (ha : ok a) : RoundTrips a (enc a) :=
  ⟨(h.emits a ha).serialize, (h.reads a ha).deserialize, (h.reads a ha).at⟩

theorem Lawful.canonical (h : Lawful α ok enc) : Canonical α := by
  intro bytes m hs hd
  obtain ⟨e, rest, h1, h2, rfl⟩ := h.inverts.deserialize hs hd
  exact ⟨_, rest, (h.emits m h2).serialize, h1⟩

/-- What is accepted is valid. -/
theorem Lawful.accepted (h : Lawful α ok enc) {bytes : Bytes} {m : α} (hs : IsSlice bytes)
    (hd : deserialize α bytes = .ok m) : ok m ∧ ∃ rest, bytes = enc m ++ rest := by
  obtain ⟨e, rest, h1, h2, rfl⟩ := h.inverts.deserialize hs hd
  exact ⟨h2, rest, h1⟩

theorem Lawful.rejectsTruncated (h : Lawful α ok enc) (a : α) (ha : ok a) (hs : IsSlice (enc a)) :
    RejectsTruncated a :=
  ⟨enc a, (h.emits a ha).serialize, fun cut missing hm hc =>
    ⟨_, (h.rejects a ha).deserialize hs cut missing hm hc⟩⟩

theorem Lawful.countsBytes (h : Lawful α ok enc) (a : α) (ha : ok a) : CountsBytes a :=
  ⟨enc a, (h.emits a ha).serialize, fun buf => (h.emits a ha).run_vec buf⟩

theorem Lawful.ignoresShortWrites (h : Lawful α ok enc) (a : α) (ha : ok a) : IgnoresShortWrites a :=
  ⟨enc a, (h.emits a ha).serialize, fun out room => (h.emits a ha).run_slice out room⟩

theorem Lawful.countIsFixed (h : Lawful α ok enc) (a : α) (ha : ok a) : CountIsFixed a := by
  refine ⟨enc a, (h.emits a ha).serialize, ?_⟩
  intro σ w s s' n hser
  obtain ⟨cs, _, hE⟩ := h.emits a ha
  have hE := hE σ w
  simp only [encoder] at hE
  rw [hE, SM.bind_run] at hser
  rcases hw : writeAll w cs s with ⟨_ | _ | _, s1⟩ <;> rw [hw] at hser
  · have := congrArg Prod.fst hser
    simpa using (Out.ok.inj this).symm
  · cases hser
  · cases hser

end

theorem leValue_eq (b : Bytes) : Wire.leValue b = fromLE b := by
  have key : ∀ (b : Bytes) (k : Nat),
      ((b.zipIdx k).map fun p => p.1.toNat * 256 ^ p.2).sum = 256 ^ k * fromLE b := by
    intro b
    induction b with
    | nil => intro k; simp [fromLE]
    | cons x xs ih =>
      intro k
      simp only [List.zipIdx_cons, List.map_cons, List.sum_cons, ih, fromLE, Nat.pow_succ,
        Nat.mul_add]
      rw [Nat.mul_comm x.toNat, Nat.mul_assoc]
  have := key b 0
  simpa [Wire.leValue] using this

end SV2
