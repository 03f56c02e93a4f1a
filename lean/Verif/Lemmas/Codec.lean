import Verif.Spec.Wire
/-!
# Composable laws for decoders and encoders (helper lemmas)
-/

namespace SV2

/-! ## The monad -/

namespace SM
variable {σ ε α β γ : Type}

@[simp] theorem pure_run (a : α) (s : σ) : (pure a : SM σ ε α) s = (.ok a, s) := rfl

theorem bind_run (x : SM σ ε α) (f : α → SM σ ε β) (s : σ) :
    (x >>= f) s = match x s with
      | (.ok a, s') => f a s'
      | (.err e, s') => (.err e, s')
      | (.panic, s') => (.panic, s') := rfl

@[simp] theorem lift_ok (a : α) : (SM.lift (.ok a) : SM σ ε α) = pure a := rfl
@[simp] theorem lift_err (e : ε) : (SM.lift (.err e) : SM σ ε α) = SM.fail e := rfl
@[simp] theorem lift_panic : (SM.lift .panic : SM σ ε α) = SM.panic := rfl
@[simp] theorem fail_run (e : ε) (s : σ) : (SM.fail e : SM σ ε α) s = (.err e, s) := rfl
@[simp] theorem panic_run (s : σ) : (SM.panic : SM σ ε α) s = (.panic, s) := rfl

@[simp] theorem pure_bind' (a : α) (f : α → SM σ ε β) : (pure a >>= f) = f a := rfl
@[simp] theorem fail_bind (e : ε) (f : α → SM σ ε β) : ((SM.fail e : SM σ ε α) >>= f) = SM.fail e := rfl
@[simp] theorem panic_bind (f : α → SM σ ε β) : ((SM.panic : SM σ ε α) >>= f) = SM.panic := rfl

theorem bind_assoc' (x : SM σ ε α) (f : α → SM σ ε β) (g : β → SM σ ε γ) :
    (x >>= f) >>= g = x >>= fun a => f a >>= g := by
  funext s
  simp only [bind_run]
  rcases x s with ⟨_ | _ | _, s'⟩ <;> rfl

theorem bind_pure' (x : SM σ ε α) : (x >>= fun a => pure a) = x := by
  funext s
  simp only [bind_run]
  rcases x s with ⟨_ | _ | _, s'⟩ <;> rfl

end SM

@[simp] theorem Out.pure_eq {ε α : Type} (a : α) : (pure a : Out ε α) = .ok a := rfl
@[simp] theorem Out.ok_bind {ε α β : Type} (a : α) (f : α → Out ε β) : (Out.ok a >>= f) = f a := rfl
@[simp] theorem Out.err_bind {ε α β : Type} (e : ε) (f : α → Out ε β) :
    ((Out.err e : Out ε α) >>= f) = .err e := rfl
@[simp] theorem Out.panic_bind {ε α β : Type} (f : α → Out ε β) :
    ((Out.panic : Out ε α) >>= f) = .panic := rfl

/-! ## Little-endian integers -/

theorem toLE_length (n v : Nat) : (toLE n v).length = n := by
  induction n generalizing v with
  | zero => rfl
  | succ n ih => simp [toLE, ih]

theorem fromLE_toLE (n v : Nat) (h : v < 256 ^ n) : fromLE (toLE n v) = v := by
  induction n generalizing v with
  | zero => simp at h; subst h; rfl
  | succ n ih =>
    have h' : v / 256 < 256 ^ n := by
      rw [Nat.pow_succ] at h
      exact Nat.div_lt_of_lt_mul (by omega)
    have hm : v % 256 < 256 := Nat.mod_lt _ (by decide)
    simp only [toLE, fromLE, ih _ h', UInt8.toNat_ofNat']
    omega

theorem fromLE_lt (b : Bytes) : fromLE b < 256 ^ b.length := by
  induction b with
  | nil => simp [fromLE]
  | cons x xs ih =>
    have hx := x.toNat_lt
    simp only [fromLE, List.length_cons, Nat.pow_succ]
    omega

theorem toLE_fromLE (b : Bytes) : toLE b.length (fromLE b) = b := by
  induction b with
  | nil => rfl
  | cons x xs ih =>
    have hx := x.toNat_lt
    simp only [fromLE, List.length_cons, toLE]
    have h1 : (x.toNat + 256 * fromLE xs) % 256 = x.toNat := by omega
    have h2 : (x.toNat + 256 * fromLE xs) / 256 = fromLE xs := by omega
    rw [h1, h2, ih]
    simp

theorem toLE_fromLE' (n : Nat) (b : Bytes) (h : b.length = n) : toLE n (fromLE b) = b := by
  subst h; exact toLE_fromLE b

theorem fromLE_append (a b : Bytes) : fromLE (a ++ b) = fromLE a + 256 ^ a.length * fromLE b := by
  induction a with
  | nil => simp [fromLE]
  | cons x xs ih =>
    simp only [List.cons_append, fromLE, ih, List.length_cons, Nat.pow_succ, Nat.mul_add]
    rw [Nat.mul_comm (256 ^ xs.length) 256, Nat.mul_assoc, Nat.add_assoc]

/-! ## Parser states -/

/-- The unread input. -/
def ByteParser.rest (p : ByteParser) : Bytes := p.bytes.drop p.start

/-- Parser states that can arise: the cursor is inside the input, and the input is a Rust slice, whose
size never exceeds `isize::MAX`. -/
def ByteParser.Valid (p : ByteParser) : Prop := p.start ≤ p.bytes.length ∧ p.bytes.length < 2 ^ 63

/-- The cursor moved forward by `n`. -/
def ByteParser.adv (p : ByteParser) (n : Nat) : ByteParser := { p with start := p.start + n }

@[simp] theorem ByteParser.adv_zero (p : ByteParser) : p.adv 0 = p := rfl

@[simp] theorem ByteParser.adv_adv (p : ByteParser) (m n : Nat) : (p.adv m).adv n = p.adv (m + n) := by
  simp [ByteParser.adv, Nat.add_assoc]

theorem ByteParser.rest_adv (p : ByteParser) (n : Nat) : (p.adv n).rest = p.rest.drop n := by
  simp [ByteParser.rest, ByteParser.adv, List.drop_drop]

theorem ByteParser.rest_length (p : ByteParser) : p.rest.length = p.bytes.length - p.start := by
  simp [ByteParser.rest]

theorem ByteParser.Valid.adv {p : ByteParser} (h : p.Valid) {n : Nat} (hn : n ≤ p.rest.length) :
    (p.adv n).Valid := by
  rw [ByteParser.rest_length] at hn
  have := h.1
  exact ⟨by simp only [ByteParser.adv]; omega, h.2⟩

theorem nextBy_ok {p : ByteParser} (h : p.Valid) {n : Nat} (hn : n ≤ p.rest.length) :
    ByteParser.nextBy n p = (.ok (p.rest.take n), p.adv n) := by
  rw [ByteParser.rest_length] at hn
  have h1 := h.1
  have h2 := h.2
  have h3 : ¬ p.start + n > usizeMax := by simp only [usizeMax]; omega
  have h4 : p.start ≤ p.start + n ∧ p.start + n ≤ p.bytes.length := by omega
  simp [ByteParser.nextBy, h3, h4, ByteParser.rest, ByteParser.adv]

theorem nextBy_err {p : ByteParser} (h : p.Valid) {n : Nat} (hn : p.rest.length < n) (hn' : n < 2 ^ 63) :
    ByteParser.nextBy n p = (.err (.parseError "out of bounds error"), p) := by
  rw [ByteParser.rest_length] at hn
  have h1 := h.1
  have h2 := h.2
  have h3 : ¬ p.start + n > usizeMax := by simp only [usizeMax]; omega
  have h4 : ¬ (p.start ≤ p.start + n ∧ p.start + n ≤ p.bytes.length) := by omega
  simp only [ByteParser.nextBy, h3, h4, if_false]

/-! ## Decoder laws -/

variable {α β : Type}

/-- The error for input that ends too early. -/
abbrev oob : Error := .parseError "out of bounds error"

/-- `d` decodes input starting with `e` to `a` and consumes exactly `e`. -/
def Reads (d : ParseM α) (e : Bytes) (a : α) : Prop :=
  ∀ p : ByteParser, p.Valid → ∀ post, p.rest = e ++ post → d p = (.ok a, p.adv e.length)

/-- `d` rejects input that ends inside `e` with the out-of-bounds error. -/
def RejectsPrefix (d : ParseM α) (e : Bytes) : Prop :=
  ∀ p : ByteParser, p.Valid → ∀ t, t ≠ [] → p.rest ++ t = e → ∃ p', d p = (.err oob, p')

/-- Whatever `d` accepts, it consumed some `e` with `P a e`. -/
def Inverts (d : ParseM α) (P : α → Bytes → Prop) : Prop :=
  ∀ (p : ByteParser) (a : α) (p' : ByteParser), p.Valid → d p = (.ok a, p') →
    ∃ e, p.rest = e ++ p'.rest ∧ p' = p.adv e.length ∧ P a e

/-- `d` does not panic, and only moves the cursor forward inside the input. -/
def Safe (d : ParseM α) : Prop :=
  ∀ p : ByteParser, p.Valid → (d p).1 ≠ .panic ∧ ∃ n, n ≤ p.rest.length ∧ (d p).2 = p.adv n

theorem Reads.pure (a : α) : Reads (pure a) [] a := by
  intro p _ post _
  simp

theorem Reads.bind {d : ParseM α} {f : α → ParseM β} {e1 e2 : Bytes} {a : α} {b : β}
    (h1 : Reads d e1 a) (h2 : Reads (f a) e2 b) : Reads (d >>= f) (e1 ++ e2) b := by
  intro p hp post hr
  have hlen : e1.length ≤ p.rest.length := by rw [hr]; simp
  rw [SM.bind_run, h1 p hp (e2 ++ post) (by rw [hr]; simp)]
  show f a (p.adv e1.length) = _
  rw [h2 (p.adv e1.length) (hp.adv hlen) post (by rw [ByteParser.rest_adv, hr]; simp)]
  simp

/-- The last step of a macro-generated decoder consumes nothing. -/
theorem Reads.bind_last {d : ParseM α} {f : α → ParseM β} {e : Bytes} {a : α} {b : β}
    (h1 : Reads d e a) (h2 : f a = Pure.pure b) : Reads (d >>= f) e b := by
  have := Reads.bind (f := f) h1 (h2 ▸ Reads.pure b)
  simpa using this

theorem RejectsPrefix.nil (d : ParseM α) : RejectsPrefix d [] := by
  intro p _ t ht h
  simp at h
  exact absurd h.2 ht

theorem RejectsPrefix.bind {d : ParseM α} {f : α → ParseM β} {e1 e2 : Bytes} {a : α}
    (hr : Reads d e1 a) (h1 : RejectsPrefix d e1) (h2 : RejectsPrefix (f a) e2) :
    RejectsPrefix (d >>= f) (e1 ++ e2) := by
  intro p hp t ht h
  by_cases hlen : e1.length ≤ p.rest.length
  · obtain ⟨r, hr'⟩ : ∃ r, p.rest = e1 ++ r := by
      refine ⟨p.rest.drop e1.length, ?_⟩
      have h' := congrArg (List.take e1.length) h
      rw [List.take_append_of_le_length hlen, List.take_left' rfl] at h'
      calc p.rest = p.rest.take e1.length ++ p.rest.drop e1.length := (List.take_append_drop _ _).symm
        _ = _ := by rw [h']
    have hrt : r ++ t = e2 := by
      rw [hr', List.append_assoc] at h
      exact List.append_cancel_left h
    obtain ⟨p', hp'⟩ := h2 (p.adv e1.length) (hp.adv hlen) t ht
      (by rw [ByteParser.rest_adv, hr']; simpa using hrt)
    refine ⟨p', ?_⟩
    rw [SM.bind_run, hr p hp r hr']
    exact hp'
  · have hlen' : p.rest.length < e1.length := by omega
    obtain ⟨p', hp'⟩ := h1 p hp (e1.drop p.rest.length)
      (by
        intro h0
        have := congrArg List.length h0
        simp at this
        omega)
      (by
        have h' := congrArg (List.take p.rest.length) h
        rw [List.take_left' rfl, List.take_append_of_le_length (by omega)] at h'
        calc p.rest ++ e1.drop p.rest.length
            = e1.take p.rest.length ++ e1.drop p.rest.length := by rw [← h']
          _ = e1 := List.take_append_drop _ _)
    exact ⟨p', by rw [SM.bind_run, hp']⟩

theorem RejectsPrefix.bind_last {d : ParseM α} {f : α → ParseM β} {e : Bytes} {a : α}
    (hr : Reads d e a) (h1 : RejectsPrefix d e) : RejectsPrefix (d >>= f) e := by
  have := RejectsPrefix.bind (f := f) (e2 := []) hr h1 (RejectsPrefix.nil _)
  simpa using this

theorem Inverts.pure (a : α) : Inverts (pure a) (fun b e => b = a ∧ e = []) := by
  intro p b p' _ h
  simp at h
  exact ⟨[], by simp [h.2], by simp [h.2], h.1.symm, rfl⟩

theorem Inverts.fail (err : Error) (P : α → Bytes → Prop) : Inverts (SM.fail err) P := by
  intro p b p' _ h
  simp at h

theorem Inverts.panic (P : α → Bytes → Prop) : Inverts SM.panic P := by
  intro p b p' _ h
  simp at h

theorem Inverts.lift (o : Result α) : Inverts (SM.lift o) (fun b e => o = .ok b ∧ e = []) := by
  intro p b p' _ h
  simp only [SM.lift, Prod.mk.injEq] at h
  exact ⟨[], by simp [h.2], by simp [h.2], h.1, rfl⟩

theorem Inverts.bind {d : ParseM α} {f : α → ParseM β} {P : α → Bytes → Prop}
    {Q : α → β → Bytes → Prop} (h1 : Inverts d P) (h2 : ∀ a, Inverts (f a) (Q a)) :
    Inverts (d >>= f) (fun b e => ∃ a e1 e2, e = e1 ++ e2 ∧ P a e1 ∧ Q a b e2) := by
  intro p b p' hp h
  rw [SM.bind_run] at h
  rcases hd : d p with ⟨o, q⟩
  rw [hd] at h
  rcases o with a | er | _
  · obtain ⟨e1, hr1, hq, hP⟩ := h1 p a q hp hd
    have hv : q.Valid := by
      rw [hq]; exact hp.adv (by rw [hr1]; simp)
    obtain ⟨e2, hr2, hq2, hQ⟩ := h2 a q b p' hv h
    refine ⟨e1 ++ e2, by rw [hr1, hr2, List.append_assoc], ?_, a, e1, e2, rfl, hP, hQ⟩
    rw [hq2, hq]; simp
  · simp at h
  · simp at h

theorem Inverts.mono {d : ParseM α} {P Q : α → Bytes → Prop} (h : Inverts d P)
    (hPQ : ∀ a e, P a e → Q a e) : Inverts d Q := by
  intro p a p' hp hd
  obtain ⟨e, h1, h2, h3⟩ := h p a p' hp hd
  exact ⟨e, h1, h2, hPQ a e h3⟩

theorem Safe.pure (a : α) : Safe (pure a) := fun p _ => ⟨by simp, 0, by simp, by simp⟩
theorem Safe.fail (err : Error) : Safe (SM.fail err : ParseM α) :=
  fun p _ => ⟨by simp, 0, by simp, by simp⟩
theorem Safe.lift {o : Result α} (h : o ≠ .panic) : Safe (SM.lift o) :=
  fun p _ => ⟨h, 0, by simp, by simp [SM.lift]⟩

theorem Safe.bind' {d : ParseM α} {f : α → ParseM β} {P : α → Bytes → Prop} (h1 : Safe d)
    (hi : Inverts d P) (h2 : ∀ a e, P a e → Safe (f a)) : Safe (d >>= f) := by
  intro p hp
  obtain ⟨hnp, n, hn, hpn⟩ := h1 p hp
  rw [SM.bind_run]
  rcases hd : d p with ⟨o, q⟩
  rw [hd] at hnp hpn
  simp only at hnp hpn
  rcases o with a | er | _
  · subst hpn
    obtain ⟨e, _, _, hP⟩ := hi p a _ hp hd
    obtain ⟨h3, m, hm, hpm⟩ := h2 a e hP (p.adv n) (hp.adv hn)
    refine ⟨h3, n + m, ?_, ?_⟩
    · rw [ByteParser.rest_adv] at hm
      simp at hm
      omega
    · simp only [hpm, ByteParser.adv_adv]
  · exact ⟨by simp, n, hn, hpn⟩
  · exact absurd rfl hnp

theorem Safe.bind {d : ParseM α} {f : α → ParseM β} (h1 : Safe d) (h2 : ∀ a, Safe (f a)) :
    Safe (d >>= f) := by
  intro p hp
  obtain ⟨hnp, n, hn, hpn⟩ := h1 p hp
  rw [SM.bind_run]
  rcases hd : d p with ⟨o, q⟩
  rw [hd] at hnp hpn
  simp only at hnp hpn
  rcases o with a | er | _
  · subst hpn
    obtain ⟨h3, m, hm, hpm⟩ := h2 a (p.adv n) (hp.adv hn)
    refine ⟨h3, n + m, ?_, ?_⟩
    · rw [ByteParser.rest_adv] at hm
      simp at hm
      omega
    · simp only [hpm, ByteParser.adv_adv]
  · exact ⟨by simp, n, hn, hpn⟩
  · exact absurd rfl hnp

/-! ## `next_by` and `readExact` satisfy the laws -/

theorem Reads.nextBy (e : Bytes) : Reads (ByteParser.nextBy e.length) e e := by
  intro p hp post hr
  rw [nextBy_ok hp (by rw [hr]; simp)]
  rw [hr]
  simp

theorem RejectsPrefix.nextBy (e : Bytes) (h : e.length < 2 ^ 63) :
    RejectsPrefix (ByteParser.nextBy e.length) e := by
  intro p hp t ht hr
  refine ⟨p, nextBy_err hp ?_ h⟩
  have := congrArg List.length hr
  simp at this
  have : t.length ≠ 0 := by simpa using ht
  omega

theorem Inverts.nextBy (n : Nat) : Inverts (ByteParser.nextBy n) (fun b e => b = e ∧ e.length = n) := by
  intro p a p' hp h
  have hp1 := hp.1
  have hp2 := hp.2
  by_cases hn : n ≤ p.rest.length
  · rw [nextBy_ok hp hn] at h
    simp only [Prod.mk.injEq, Out.ok.injEq] at h
    obtain ⟨rfl, rfl⟩ := h
    refine ⟨p.rest.take n, ?_, ?_, rfl, ?_⟩
    · rw [ByteParser.rest_adv, List.take_append_drop]
    · rw [List.length_take, Nat.min_eq_left hn]
    · rw [List.length_take, Nat.min_eq_left hn]
  · rw [ByteParser.rest_length] at hn
    simp only [ByteParser.nextBy] at h
    split at h
    · simp at h
    · rw [if_neg (by omega)] at h
      simp at h

theorem Safe.nextBy {n : Nat} (h : n < 2 ^ 63) : Safe (ByteParser.nextBy n) := by
  intro p hp
  by_cases hn : n ≤ p.rest.length
  · rw [nextBy_ok hp hn]
    exact ⟨by simp, n, hn, rfl⟩
  · rw [nextBy_err hp (by omega) h]
    exact ⟨by simp, 0, by simp, by simp⟩

theorem Arr.ofSlice?_eq {n : Nat} (a : Arr n) : Arr.ofSlice? n a.toList = some a := by
  simp [Arr.ofSlice?, a.len]

theorem Arr.ofSlice?_some {n : Nat} {s : Bytes} {a : Arr n} (h : Arr.ofSlice? n s = some a) :
    a.toList = s := by
  unfold Arr.ofSlice? at h
  split at h
  · simp at h; rw [← h]
  · simp at h

theorem Reads.readExact {n : Nat} (a : Arr n) : Reads (readExact n) a.toList a := by
  unfold SV2.readExact
  refine Reads.bind_last (a := a.toList) ?_ ?_
  · have := Reads.nextBy a.toList
    rwa [a.len] at this
  · rw [Arr.ofSlice?_eq]

theorem RejectsPrefix.readExact {n : Nat} (a : Arr n) (hn : n < 2 ^ 63) :
    RejectsPrefix (readExact n) a.toList := by
  unfold SV2.readExact
  refine RejectsPrefix.bind_last (a := a.toList) ?_ ?_
  · have := Reads.nextBy a.toList
    rwa [a.len] at this
  · have := RejectsPrefix.nextBy a.toList (by rw [a.len]; exact hn)
    rwa [a.len] at this

theorem Inverts.readExact (n : Nat) : Inverts (readExact n) (fun a e => e = a.toList) := by
  unfold SV2.readExact
  refine (Inverts.bind (Q := fun s a e => a.toList = s ∧ e = []) (Inverts.nextBy n) ?_).mono ?_
  · intro s
    cases h : Arr.ofSlice? n s with
    | none => exact Inverts.panic _
    | some a =>
      refine (Inverts.pure a).mono ?_
      rintro b e ⟨rfl, rfl⟩
      exact ⟨Arr.ofSlice?_some h, rfl⟩
  · rintro a e ⟨s, e1, e2, rfl, ⟨rfl, _⟩, h, rfl⟩
    simp [h]

theorem Safe.readExact {n : Nat} (h : n < 2 ^ 63) : Safe (readExact n) := by
  unfold SV2.readExact
  refine Safe.bind' (Safe.nextBy h) (Inverts.nextBy n) ?_
  rintro s e ⟨rfl, hlen⟩
  simp only [Arr.ofSlice?, hlen, dite_true]
  exact Safe.pure _

/-! ## Encoder laws -/

/-- Hand the chunks to the writer, one `write` call each, ignoring how much was accepted. -/
def writeAll {σ : Type} (w : Writer σ) : List Bytes → SM σ Error Unit
  | [] => pure ()
  | c :: cs => do
    let _ ← w.write c
    writeAll w cs

theorem writeAll_append {σ : Type} (w : Writer σ) (a b : List Bytes) :
    writeAll w (a ++ b) = (do writeAll w a; writeAll w b) := by
  induction a with
  | nil => rfl
  | cons c cs ih =>
    simp only [List.cons_append, writeAll, ih, SM.bind_assoc']

/-- An encoder: what `Serializable::serialize` does for one value, for every writer type. -/
abbrev Enc := (σ : Type) → Writer σ → SM σ Error Nat

/-- The encoder of a value. -/
abbrev encoder {α : Type} [Serializable α] (a : α) : Enc := fun _ w => Serializable.ser w a

/-- The encoder hands `e`, cut into some chunks, to any writer, and if no `write` call fails it returns
`n` plus the number of bytes offered. -/
def Emits (s : Enc) (e : Bytes) (n : Nat) : Prop :=
  ∃ cs : List Bytes, cs.flatten = e ∧
    ∀ (σ : Type) (w : Writer σ), s σ w = (do writeAll w cs; pure (n + e.length))

theorem Emits.writeBuf (b : Bytes) : Emits (fun _ w => writeBuf w b) b 0 := by
  refine ⟨[b], by simp, ?_⟩
  intro σ w
  simp only [writeAll, SV2.writeBuf, SM.bind_assoc', SM.pure_bind', Nat.zero_add]

theorem Emits.write_const {b : Bytes} {n : Nat} (h : b.length = n) :
    Emits (fun _ w => do let _ ← w.write b; Pure.pure n) b 0 := by
  subst h
  exact Emits.writeBuf b

theorem Emits.pure {n m : Nat} (h : n = m) : Emits (fun _ _ => Pure.pure n) [] m := by
  subst h
  exact ⟨[], rfl, fun σ w => rfl⟩

/-- Chaining two encoders and adding their counts. -/
theorem Emits.seq {s : Enc} {t : Nat → Enc} {e1 e2 : Bytes} {n : Nat} (h1 : Emits s e1 0)
    (h2 : Emits (t e1.length) e2 (n + e1.length)) :
    Emits (fun σ w => s σ w >>= fun k => t k σ w) (e1 ++ e2) n := by
  obtain ⟨c1, hc1, h1⟩ := h1
  obtain ⟨c2, hc2, h2⟩ := h2
  refine ⟨c1 ++ c2, by simp [hc1, hc2], ?_⟩
  intro σ w
  show (s σ w >>= fun k => t k σ w) = _
  rw [h1, writeAll_append]
  simp only [SM.bind_assoc', SM.pure_bind', Nat.zero_add, h2, List.length_append, Nat.add_assoc]

theorem Emits.seq_last {s : Enc} {t : Nat → Enc} {e : Bytes} {n : Nat} (h1 : Emits s e 0)
    (h2 : Emits (t e.length) [] (n + e.length)) :
    Emits (fun σ w => s σ w >>= fun k => t k σ w) e n := by
  have := Emits.seq (t := t) (n := n) h1 h2
  simpa using this

theorem vecWriter_write (b s : Bytes) : vecWriter.write b s = (.ok b.length, s ++ b) := rfl

theorem sliceWriter_write (b : Bytes) (s : Bytes × Nat) :
    sliceWriter.write b s =
      (.ok (min b.length s.2), (s.1 ++ b.take (min b.length s.2), s.2 - min b.length s.2)) := rfl

theorem Emits.run_vec {s : Enc} {e : Bytes}
    (h : Emits s e 0) (buf : Bytes) : s _ vecWriter buf = (.ok e.length, buf ++ e) := by
  obtain ⟨cs, rfl, h⟩ := h
  rw [h _ vecWriter]
  have key : ∀ (cs : List Bytes) (buf : Bytes),
      writeAll vecWriter cs buf = (.ok (), buf ++ cs.flatten) := by
    intro cs
    induction cs with
    | nil => intro buf; simp [writeAll]
    | cons c cs ih =>
      intro buf
      rw [writeAll, SM.bind_run, vecWriter_write]
      simp only [ih]
      simp
  rw [SM.bind_run, key]
  simp

theorem Emits.run_slice {s : Enc} {e : Bytes} (h : Emits s e 0) (out : Bytes) (room : Nat) :
    s _ sliceWriter (out, room) = (.ok e.length, (out ++ e.take room, room - e.length)) := by
  obtain ⟨cs, rfl, h⟩ := h
  rw [h _ sliceWriter]
  have key : ∀ (cs : List Bytes) (out : Bytes) (room : Nat),
      writeAll sliceWriter cs (out, room) =
        (.ok (), (out ++ cs.flatten.take room, room - cs.flatten.length)) := by
    intro cs
    induction cs with
    | nil => intro out room; simp [writeAll]
    | cons c cs ih =>
      intro out room
      rw [writeAll, SM.bind_run, sliceWriter_write]
      simp only [ih]
      simp only [List.flatten_cons, List.append_assoc, List.length_append, Prod.mk.injEq, true_and]
      constructor
      · rw [List.take_append]
        congr 1
        congr 1
        · rcases Nat.le_total c.length room with h | h
          · rw [Nat.min_eq_left h, List.take_length, List.take_of_length_le h]
          · rw [Nat.min_eq_right h]
        · congr 1
          omega
      · omega
  rw [SM.bind_run, key]
  simp

/-! ## Lawful codecs -/

/-- Everything one wants of a type's serializer and deserializer, relative to a wire format `enc` and a
validity predicate `ok`. -/
structure Lawful (α : Type) [Serializable α] [Deserializable α] (ok : α → Prop) (enc : α → Bytes) :
    Prop where
  emits : ∀ a, ok a → Emits (encoder a) (enc a) 0
  reads : ∀ a, ok a → Reads Deserializable.deser (enc a) a
  rejects : ∀ a, ok a → RejectsPrefix (Deserializable.deser (α := α)) (enc a)
  inverts : Inverts (Deserializable.deser (α := α)) (fun a e => ok a ∧ e = enc a)
  safe : Safe (Deserializable.deser (α := α))

end SV2
