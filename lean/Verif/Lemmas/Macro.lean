import Verif.Lemmas.Built
import Verif.Spec.Macro
/-!
# Declared messages are lawful
-/

namespace SV2.Macro
open Law

theorem Reads.bool (b : Bool) : Reads (Deserializable.deser (α := Bool)) [if b then 1 else 0] b := by
  have := fixed_reads (n := 1) (fun x => fromLE x.toList &&& 1 == 1) (fun b : Bool => ⟨[if b then 1 else 0], rfl⟩)
    (by intro a; cases a <;> rfl) b
  exact this

theorem RejectsPrefix.bool (b : Bool) : RejectsPrefix (Deserializable.deser (α := Bool)) [if b then 1 else 0] := by
  have := fixed_rejects (n := 1) (fun x => fromLE x.toList &&& 1 == 1)
    (fun b : Bool => ⟨[if b then 1 else 0], rfl⟩) (by decide) b
  exact this

theorem Ty.emits (t : Ty) (x : t.Val) (h : t.OK x) : Emits (fun _ w => t.ser w x) (t.wire x) 0 := by
  cases t
  · cases x <;> exact Emits.writeBuf _
  · exact lawful_u8.emits x trivial
  · exact lawful_u16.emits x trivial
  · exact lawful_u24.emits x h
  · exact lawful_u32.emits x trivial
  · exact lawful_f32.emits x trivial
  · exact lawful_u256.emits x trivial
  · exact lawful_str32.emits x h
  · exact lawful_str255.emits x h
  · exact (lawful_b8 (by decide)).emits x h
  · exact (lawful_b8 (by decide)).emits x h
  · exact (lawful_b8 (by decide)).emits x h
  · exact (lawful_b16 (by decide)).emits x h
  · exact (lawful_b24 (by decide)).emits x h
  · exact lawful_flags.emits x trivial
  · exact lawful_setupCode.emits x trivial
  · exact lawful_openCode.emits x trivial

theorem Ty.reads (t : Ty) (x : t.Val) (h : t.OK x) : Reads t.deser (t.wire x) x := by
  cases t
  · exact Reads.bool x
  · exact lawful_u8.reads x trivial
  · exact lawful_u16.reads x trivial
  · exact lawful_u24.reads x h
  · exact lawful_u32.reads x trivial
  · exact lawful_f32.reads x trivial
  · exact lawful_u256.reads x trivial
  · exact lawful_str32.reads x h
  · exact lawful_str255.reads x h
  · exact (lawful_b8 (by decide)).reads x h
  · exact (lawful_b8 (by decide)).reads x h
  · exact (lawful_b8 (by decide)).reads x h
  · exact (lawful_b16 (by decide)).reads x h
  · exact (lawful_b24 (by decide)).reads x h
  · exact lawful_flags.reads x trivial
  · exact lawful_setupCode.reads x trivial
  · exact lawful_openCode.reads x trivial

theorem Ty.rejects (t : Ty) (x : t.Val) (h : t.OK x) : RejectsPrefix t.deser (t.wire x) := by
  cases t
  · exact RejectsPrefix.bool x
  · exact lawful_u8.rejects x trivial
  · exact lawful_u16.rejects x trivial
  · exact lawful_u24.rejects x h
  · exact lawful_u32.rejects x trivial
  · exact lawful_f32.rejects x trivial
  · exact lawful_u256.rejects x trivial
  · exact lawful_str32.rejects x h
  · exact lawful_str255.rejects x h
  · exact (lawful_b8 (by decide)).rejects x h
  · exact (lawful_b8 (by decide)).rejects x h
  · exact (lawful_b8 (by decide)).rejects x h
  · exact (lawful_b16 (by decide)).rejects x h
  · exact (lawful_b24 (by decide)).rejects x h
  · exact lawful_flags.rejects x trivial
  · exact lawful_setupCode.rejects x trivial
  · exact lawful_openCode.rejects x trivial

theorem Ty.inverts (t : Ty) (ht : t ≠ .bool) : Inverts t.deser (fun x e => t.OK x ∧ e = t.wire x) := by
  cases t
  · exact absurd rfl ht
  · exact lawful_u8.inverts
  · exact lawful_u16.inverts
  · exact lawful_u24.inverts
  · exact lawful_u32.inverts
  · exact lawful_f32.inverts
  · exact lawful_u256.inverts
  · exact lawful_str32.inverts
  · exact lawful_str255.inverts
  · exact (lawful_b8 (by decide)).inverts
  · exact (lawful_b8 (by decide)).inverts
  · exact (lawful_b8 (by decide)).inverts
  · exact (lawful_b16 (by decide)).inverts
  · exact (lawful_b24 (by decide)).inverts
  · exact lawful_flags.inverts
  · exact lawful_setupCode.inverts
  · exact lawful_openCode.inverts

theorem Ty.accepts (t : Ty) : Inverts t.deser (fun x _ => t.OK x) := by
  by_cases ht : t = .bool
  · subst ht
    exact ((Inverts.bind (Inverts.readExact 1) fun _ => Inverts.pure _).mono fun _ _ _ => trivial)
  · exact (t.inverts ht).mono fun _ _ h => h.1

theorem Ty.safe (t : Ty) : Safe t.deser := by
  cases t
  · exact fixed_safe (n := 1) (fun x => fromLE x.toList &&& 1 == 1) (by decide)
  · exact lawful_u8.safe
  · exact lawful_u16.safe
  · exact lawful_u24.safe
  · exact lawful_u32.safe
  · exact lawful_f32.safe
  · exact lawful_u256.safe
  · exact lawful_str32.safe
  · exact lawful_str255.safe
  · exact (lawful_b8 (by decide)).safe
  · exact (lawful_b8 (by decide)).safe
  · exact (lawful_b8 (by decide)).safe
  · exact (lawful_b16 (by decide)).safe
  · exact (lawful_b24 (by decide)).safe
  · exact lawful_flags.safe
  · exact lawful_setupCode.safe
  · exact lawful_openCode.safe

theorem serFields_eq : (ts : List Ty) → (v : Fields ts) → FieldsOK ts v →
    ∃ (cs : List Bytes) (ns : List Nat), cs.flatten = wire ts v ∧ ns.sum = (wire ts v).length ∧
      ∀ (σ : Type) (w : Writer σ), serFields w ts v = (do writeAll w cs; pure ns)
  | [], _, _ => ⟨[], [], rfl, rfl, fun _ _ => rfl⟩
  | t :: ts, (x, xs), h => by
    obtain ⟨cs, ns, h1, h2, h3⟩ := serFields_eq ts xs h.2
    obtain ⟨c, hc, he⟩ := t.emits x h.1
    refine ⟨c ++ cs, (t.wire x).length :: ns, ?_, ?_, ?_⟩
    · simp [wire, hc, h1]
    · simp [wire, h2]
    · intro σ w
      have he := he σ w
      simp only [serFields, he, h3, writeAll_append, SM.bind_assoc', SM.pure_bind', Nat.zero_add]

theorem deserFields_reads : (ts : List Ty) → (v : Fields ts) → FieldsOK ts v → Reads (deserFields ts) (wire ts v) v
  | [], _, _ => Reads.pure ()
  | t :: ts, (x, xs), h =>
    Reads.bind (t.reads x h.1) (Reads.bind_last (deserFields_reads ts xs h.2) rfl)

theorem deserFields_rejects : (ts : List Ty) → (v : Fields ts) → FieldsOK ts v →
    RejectsPrefix (deserFields ts) (wire ts v)
  | [], _, _ => RejectsPrefix.nil _
  | t :: ts, (x, xs), h =>
    RejectsPrefix.bind (t.reads x h.1) (t.rejects x h.1)
      (RejectsPrefix.bind_last (deserFields_reads ts xs h.2) (deserFields_rejects ts xs h.2))

theorem deserFields_inverts : (ts : List Ty) → .bool ∉ ts →
    Inverts (deserFields ts) (fun v e => FieldsOK ts v ∧ e = wire ts v)
  | [], _ => (Inverts.pure ()).mono fun _ _ h => ⟨trivial, h.2⟩
  | t :: ts, h => by
    simp only [List.mem_cons, not_or] at h
    refine (Inverts.bind (t.inverts (Ne.symm h.1)) fun x =>
      Inverts.bind (deserFields_inverts ts h.2) fun xs => Inverts.pure _).mono ?_
    rintro v e ⟨x, _, _, rfl, ⟨hx, rfl⟩, xs, _, _, rfl, ⟨hxs, rfl⟩, rfl, rfl⟩
    exact ⟨⟨hx, hxs⟩, by simp [wire]⟩

theorem deserFields_accepts : (ts : List Ty) → Inverts (deserFields ts) (fun v _ => FieldsOK ts v)
  | [] => (Inverts.pure ()).mono fun _ _ _ => trivial
  | t :: ts => by
    refine (Inverts.bind t.accepts fun x => Inverts.bind (deserFields_accepts ts) fun xs => Inverts.pure _).mono ?_
    rintro v e ⟨x, _, _, rfl, hx, xs, _, _, rfl, hxs, rfl, rfl⟩
    exact ⟨hx, hxs⟩

theorem deserFields_safe : (ts : List Ty) → Safe (deserFields ts)
  | [] => Safe.pure ()
  | t :: ts => Safe.bind t.safe fun _ => Safe.bind (deserFields_safe ts) fun _ => Safe.pure _

variable {d : Decl}

theorem msg_emits (m : Msg d) (h : FieldsOK d.fields m.fields) : Emits (encoder m) (wire d.fields m.fields) 0 := by
  obtain ⟨cs, ns, h1, h2, h3⟩ := serFields_eq d.fields m.fields h
  refine ⟨cs, h1, ?_⟩
  intro σ w
  show (serFields w d.fields m.fields >>= fun c => pure c.sum) = _
  rw [h3, SM.bind_assoc']
  simp only [SM.pure_bind', h2, Nat.zero_add]

theorem msg_reads (hd : d.Stores) (m : Msg d) (h : Valid m) :
    Reads (Deserializable.deser (α := Msg d)) (wire d.fields m.fields) m := by
  obtain ⟨h1, v, h2⟩ := h
  have hv := hd.keeps _ _ h1 h2
  subst hv
  refine Reads.bind_last (deserFields_reads _ _ h1) ?_
  simp only [h2, SM.lift_ok, SM.pure_bind']

theorem msg_rejects (m : Msg d) (h : FieldsOK d.fields m.fields) :
    RejectsPrefix (Deserializable.deser (α := Msg d)) (wire d.fields m.fields) :=
  RejectsPrefix.bind_last (deserFields_reads _ _ h) (deserFields_rejects _ _ h)

theorem msg_inverts (hd : d.Stores) (hb : .bool ∉ d.fields) :
    Inverts (Deserializable.deser (α := Msg d)) (fun m e => Valid m ∧ e = wire d.fields m.fields) := by
  refine (Inverts.bind (deserFields_inverts _ hb) fun v => Inverts.bind (Inverts.lift _) fun v' =>
    Inverts.pure _).mono ?_
  rintro m e ⟨v, _, _, rfl, ⟨h1, rfl⟩, v', _, _, rfl, ⟨h2, rfl⟩, rfl, rfl⟩
  have hv := hd.keeps _ _ h1 h2
  subst hv
  exact ⟨⟨h1, _, h2⟩, by simp⟩

theorem msg_accepts (hd : d.Stores) : Inverts (Deserializable.deser (α := Msg d)) (fun m _ => Valid m) := by
  refine (Inverts.bind (deserFields_accepts _) fun v => Inverts.bind (Inverts.lift _) fun v' =>
    Inverts.pure _).mono ?_
  rintro m e ⟨v, _, _, rfl, h1, v', _, _, rfl, ⟨h2, rfl⟩, rfl, rfl⟩
  have hv := hd.keeps _ _ h1 h2
  subst hv
  exact ⟨h1, _, h2⟩

theorem msg_safe (hd : d.Stores) : Safe (Deserializable.deser (α := Msg d)) :=
  Safe.bind (deserFields_safe _) fun v => Safe.bind (Safe.lift (hd.noPanic v)) fun _ => Safe.pure _

theorem lawful_msg (hd : d.Stores) (hb : .bool ∉ d.fields) :
    Lawful (Msg d) Valid (fun m => wire d.fields m.fields) :=
  ⟨fun m h => msg_emits m h.1, msg_reads hd, fun m h => msg_rejects m h.1, msg_inverts hd hb, msg_safe hd⟩

end SV2.Macro
