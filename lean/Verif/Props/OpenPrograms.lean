import Verif.Model.OpenPrograms
import Verif.Props.Programs
import Verif.Props.HandshakeProgram
/-!
# C88: the example programs when strangers connect
-/

namespace SV2.Examples.Open
open Law

/-! ## Connections only grow -/


/-- The connections after some time: all that were there are, in their places, and hold at least what they held. -/
def Grew (cs cs' : List Conn) : Prop :=
  ∀ (i : Nat) (c : Conn), cs[i]? = some c → ∃ c' : Conn, cs'[i]? = some c' ∧ c.sent <+: c'.sent ∧ (c.closed = true → c'.closed = true) ∧
    c'.ours = c.ours

theorem Grew.refl (cs : List Conn) : Grew cs cs := fun _ c h => ⟨c, h, List.prefix_refl _, id, rfl⟩

theorem Grew.snoc (cs : List Conn) (c : Conn) : Grew cs (cs ++ [c]) := by
  intro i d h
  have hi : i < cs.length := by
    rcases Nat.lt_or_ge i cs.length with hi | hi
    · exact hi
    · rw [List.getElem?_eq_none hi] at h; cases h
  exact ⟨d, by rw [List.getElem?_append_left hi, h], List.prefix_refl _, id, rfl⟩

theorem Grew.modify (cs : List Conn) (k : Nat) (f : Conn → Conn)
    (hf : ∀ c, c.sent <+: (f c).sent ∧ (c.closed = true → (f c).closed = true) ∧ (f c).ours = c.ours) :
    Grew cs (cs.modify k f) := by
  intro i c h
  rw [List.getElem?_modify, h]
  by_cases hk : k = i
  · exact ⟨f c, by simp [hk], hf c⟩
  · exact ⟨c, by simp [hk], List.prefix_refl _, id, rfl⟩

theorem Grew.finish (cs : List Conn) (i : Option Nat) (bytes : Bytes) : Grew cs (finish cs i bytes) := by
  cases i with
  | none => exact Grew.refl cs
  | some i => exact Grew.modify cs i _ fun c => ⟨List.prefix_append _ _, fun _ => rfl, rfl⟩

theorem Grew.arrive (cs : List Conn) : Grew cs (arrive cs) := Grew.snoc cs _

theorem Grew.inject (cs : List Conn) (i : Nat) (bytes : Bytes) : Grew cs (inject i bytes cs) := by
  refine Grew.modify cs i _ fun c => ?_
  split
  · exact ⟨List.prefix_refl _, id, rfl⟩
  · exact ⟨List.prefix_append _ _, id, rfl⟩

theorem Grew.hangUp (cs : List Conn) (i : Nat) : Grew cs (hangUp i cs) := by
  refine Grew.modify cs i _ fun c => ?_
  split
  · exact ⟨List.prefix_refl _, id, rfl⟩
  · exact ⟨List.prefix_refl _, fun _ => rfl, rfl⟩

variable {σ τ : Type} {nextP : σ → Req σ} {nextM : τ → Req τ}

theorem turn_peer (n : Nat) (fault : Fault) (a : Side σ) (b : Side τ) :
    ∃ cs, Grew b.inbox cs ∧ (turn nextP nextM n fault a b).2 = { b with inbox := cs } := by
  unfold turn
  split
  · exact ⟨_, Grew.refl _, rfl⟩
  · split
    · split <;> exact ⟨_, Grew.refl _, rfl⟩
    · split
      · exact ⟨_, Grew.snoc _ _, rfl⟩
      · exact ⟨_, Grew.refl _, rfl⟩
    · split <;> exact ⟨_, Grew.finish _ _ _, rfl⟩
    · split
      · exact ⟨_, Grew.refl _, rfl⟩
      · split <;> exact ⟨_, Grew.refl _, rfl⟩
    · split
      · exact ⟨_, Grew.refl _, rfl⟩
      · split
        · exact ⟨_, Grew.refl _, rfl⟩
        · split
          · split <;> exact ⟨_, Grew.refl _, rfl⟩
          · exact ⟨_, Grew.refl _, rfl⟩
    · exact ⟨_, Grew.refl _, rfl⟩
    · exact ⟨_, Grew.finish _ _ _, rfl⟩

theorem stranger_grew (a : Side σ) (f : List Conn → List Conn) (hf : ∀ cs, Grew cs (f cs)) :
    ∃ cs, Grew a.inbox cs ∧ a.stranger nextP f = { a with inbox := cs } := by
  unfold Side.stranger
  split
  · exact ⟨_, hf _, rfl⟩
  · exact ⟨_, Grew.refl _, rfl⟩

/-- What holds of the pool whatever its peer and strangers do. -/
theorem pool_invariant (I : Side σ → Prop) (hq : ∀ a cs, Grew a.inbox cs → I a → I { a with inbox := cs })
    (ht : ∀ n fault a (b : Side τ), I a → I (turn nextP nextM n fault a b).1) (events : List Event) :
    ∀ s : World σ τ, I s.pool → I (s.run nextP nextM events).pool := by
  induction events with
  | nil => exact fun s h => h
  | cons e rest ih =>
    refine fun s h => ih _ ?_
    have hstr : ∀ f, (∀ cs, Grew cs (f cs)) → I (s.pool.stranger nextP f) := by
      intro f hf
      obtain ⟨cs, hg, he⟩ := stranger_grew (nextP := nextP) s.pool f hf
      rw [he]
      exact hq _ _ hg h
    unfold World.step
    split
    · exact h
    · split
      · exact ht _ _ _ _ h
      · rename_i n fault
        obtain ⟨cs, hg, he⟩ := turn_peer (nextP := nextM) (nextM := nextP) n fault s.miner s.pool
        simp only [he]
        exact hq _ _ hg h
      · exact hstr _ Grew.arrive
      · exact h
      · exact hstr _ fun cs => Grew.inject cs _ _
      · exact h
      · exact hstr _ fun cs => Grew.hangUp cs _
      · exact h

/-- What holds of the miner whatever its peer and strangers do. -/
theorem miner_invariant (I : Side τ → Prop) (hq : ∀ a cs, Grew a.inbox cs → I a → I { a with inbox := cs })
    (ht : ∀ n fault a (b : Side σ), I a → I (turn nextM nextP n fault a b).1) (events : List Event) :
    ∀ s : World σ τ, I s.miner → I (s.run nextP nextM events).miner := by
  induction events with
  | nil => exact fun s h => h
  | cons e rest ih =>
    refine fun s h => ih _ ?_
    have hstr : ∀ f, (∀ cs, Grew cs (f cs)) → I (s.miner.stranger nextM f) := by
      intro f hf
      obtain ⟨cs, hg, he⟩ := stranger_grew (nextP := nextM) s.miner f hf
      rw [he]
      exact hq _ _ hg h
    unfold World.step
    split
    · exact h
    · split
      · rename_i n fault
        obtain ⟨cs, hg, he⟩ := turn_peer (nextP := nextP) (nextM := nextM) n fault s.pool s.miner
        simp only [he]
        exact hq _ _ hg h
      · exact ht _ _ _ _ h
      · exact h
      · exact hstr _ Grew.arrive
      · exact h
      · exact hstr _ fun cs => Grew.inject cs _ _
      · exact h
      · exact hstr _ fun cs => Grew.hangUp cs _

/-- Something was read from connection number `i`: a beginning of what it holds, and nothing only if it was closed. -/
def ReadFrom (cs : List Conn) (i : Nat) (arrived : Bytes) : Prop :=
  ∃ c : Conn, cs[i]? = some c ∧ arrived <+: c.sent ∧ (arrived = [] → c.closed = true)

theorem ReadFrom.grew {cs cs' : List Conn} {i : Nat} {arrived : Bytes} (hg : Grew cs cs') (h : ReadFrom cs i arrived) :
    ReadFrom cs' i arrived := by
  obtain ⟨c, hc, hp, hcl⟩ := h
  obtain ⟨c', hc', hp', hcl', _⟩ := hg i c hc
  exact ⟨c', hc', hp.trans hp', fun he => hcl' (hcl he)⟩

/-- The turns of a task. -/
theorem turn_own (n : Nat) (fault : Fault) (a : Side σ) (b : Side τ) :
    let a' := (turn nextP nextM n fault a b).1
    a'.inbox = a.inbox ∧
    ((a'.task = a.task ∧ a'.accepted = a.accepted) ∨
     (∃ k, nextP a.task = .bind k ∧ a'.task = k ∧ a'.accepted = a.accepted) ∨
     (∃ k, nextP a.task = .connect k ∧ a'.task = k ∧ a'.accepted = a.accepted) ∨
     (∃ bytes k, nextP a.task = .write bytes k ∧ a'.task = k ∧ a'.accepted = a.accepted) ∨
     (∃ k again, nextP a.task = .accept k again ∧ a'.task = k ∧ a'.accepted = a.accepted + 1) ∨
     (∃ k arrived, nextP a.task = .read k ∧ a'.task = k arrived ∧ a'.accepted = a.accepted ∧
       ReadFrom a.inbox (a.accepted - 1) arrived)) := by
  intro a'
  have ha' : a' = (turn nextP nextM n fault a b).1 := rfl
  unfold turn at ha'
  split at ha'
  · rw [ha']; exact ⟨rfl, .inl ⟨rfl, rfl⟩⟩
  · split at ha'
    · rename_i k hk
      split at ha'
      · rw [ha']; exact ⟨rfl, .inl ⟨rfl, rfl⟩⟩
      · rw [ha']; exact ⟨rfl, .inr (.inl ⟨k, hk, rfl, rfl⟩)⟩
    · rename_i k hk
      split at ha'
      · rw [ha']; exact ⟨rfl, .inr (.inr (.inl ⟨k, hk, rfl, rfl⟩))⟩
      · rw [ha']; exact ⟨rfl, .inl ⟨rfl, rfl⟩⟩
    · rename_i bytes k hk
      split at ha'
      · rw [ha']; exact ⟨rfl, .inl ⟨rfl, rfl⟩⟩
      · rw [ha']; exact ⟨rfl, .inr (.inr (.inr (.inl ⟨bytes, k, hk, rfl, rfl⟩)))⟩
    · rename_i k again hk
      split at ha'
      · rw [ha']
        cases again <;> exact ⟨rfl, .inl ⟨rfl, rfl⟩⟩
      · split at ha'
        · rw [ha']; exact ⟨rfl, .inr (.inr (.inr (.inr (.inl ⟨k, again, hk, rfl, rfl⟩))))⟩
        · rw [ha']; exact ⟨rfl, .inl ⟨rfl, rfl⟩⟩
    · rename_i k hk
      split at ha'
      · rw [ha']; exact ⟨rfl, .inl ⟨rfl, rfl⟩⟩
      · split at ha'
        · rw [ha']; exact ⟨rfl, .inl ⟨rfl, rfl⟩⟩
        · rename_i c hc
          split at ha'
          · rename_i he
            split at ha'
            · rename_i hcl
              rw [ha']
              exact ⟨rfl, .inr (.inr (.inr (.inr (.inr ⟨k, [], hk, rfl, rfl, c, hc, List.nil_prefix, fun _ => hcl⟩))))⟩
            · rw [ha']; exact ⟨rfl, .inl ⟨rfl, rfl⟩⟩
          · rename_i he
            rw [ha']
            refine ⟨rfl, .inr (.inr (.inr (.inr (.inr ⟨k, _, hk, rfl, rfl, c, hc, List.take_prefix _ _, ?_⟩))))⟩
            intro h0
            cases hs : c.sent with
            | nil => rw [hs] at he; exact absurd rfl he
            | cons x xs => rw [hs] at h0; cases h0
    · rw [ha']; exact ⟨rfl, .inl ⟨rfl, rfl⟩⟩
    · rw [ha']; exact ⟨rfl, .inl ⟨rfl, rfl⟩⟩

/-! ## What the connections of the tasks themselves carry -/

/-- The connection that `a` holds is as it was made, and those it has dropped carry nothing or what it wrote. -/
structure Own (W : Bytes → Prop) (mine : Option Nat) (cs : List Conn) : Prop where
  held : ∀ i, mine = some i → cs[i]? = some ⟨[], false, true⟩
  dropped : ∀ c ∈ cs, c.ours = true → c.sent = [] ∨ W c.sent

theorem mem_modify {f : Conn → Conn} {c : Conn} {cs : List Conn} {k : Nat} (h : c ∈ cs.modify k f) :
    c ∈ cs ∨ ∃ d, cs[k]? = some d ∧ c = f d := by
  obtain ⟨i, hi⟩ := List.mem_iff_getElem?.mp h
  rw [List.getElem?_modify] at hi
  cases hd : cs[i]? with
  | none => rw [hd] at hi; simp at hi
  | some d =>
    rw [hd] at hi
    by_cases hk : k = i
    · simp [hk] at hi
      exact .inr ⟨d, by rw [hk]; exact hd, hi.symm⟩
    · simp [hk] at hi
      rw [← hi]
      exact .inl (List.mem_of_getElem? hd)

theorem lt_of_some {cs : List Conn} {i : Nat} {c : Conn} (h : cs[i]? = some c) : i < cs.length := by
  rcases Nat.lt_or_ge i cs.length with hi | hi
  · exact hi
  · rw [List.getElem?_eq_none hi] at h; cases h

variable {W : Bytes → Prop}

theorem Own.untouched {mine : Option Nat} {cs : List Conn} (h : Own W mine cs) (k : Nat) (f : Conn → Conn)
    (hf : ∀ c, c.ours = true → f c = c) (hf' : ∀ c, c.ours = false → (f c).ours = false) :
    Own W mine (cs.modify k f) := by
  refine ⟨fun i hi => ?_, fun c hc ho => ?_⟩
  · rw [List.getElem?_modify, h.held i hi]
    by_cases hk : k = i
    · simp [hk, hf]
    · simp [hk]
  · rcases mem_modify hc with hc | ⟨d, hd, rfl⟩
    · exact h.dropped c hc ho
    · have hdo : d.ours = true := by
        cases hb : d.ours with
        | true => rfl
        | false => rw [hf' d hb] at ho; cases ho
      rw [hf d hdo] at ho ⊢
      exact h.dropped d (List.mem_of_getElem? hd) ho

theorem Own.snoc {mine : Option Nat} {cs : List Conn} (h : Own W mine cs) (c : Conn)
    (hc : c.ours = true → c.sent = []) : Own W mine (cs ++ [c]) := by
  refine ⟨fun i hi => ?_, fun d hd ho => ?_⟩
  · have := h.held i hi
    rw [List.getElem?_append_left (lt_of_some this), this]
  · rcases List.mem_append.mp hd with hd | hd
    · exact h.dropped d hd ho
    · rw [List.mem_singleton] at hd; subst hd; exact .inl (hc ho)

theorem Own.mono {W' : Bytes → Prop} {mine : Option Nat} {cs : List Conn} (h : Own W mine cs)
    (hw : ∀ b, W b → W' b) : Own W' mine cs :=
  ⟨h.held, fun c hc ho => (h.dropped c hc ho).imp id (hw _)⟩

theorem Own.none {mine : Option Nat} {cs : List Conn} (h : Own W mine cs) : Own W none cs :=
  ⟨fun _ hi => (by cases hi), h.dropped⟩

theorem Own.finish {mine : Option Nat} {cs : List Conn} (h : Own W mine cs) (bytes : Bytes) (hb : bytes = [] ∨ W bytes) :
    Own W Option.none (finish cs mine bytes) := by
  refine ⟨fun _ hi => (by cases hi), fun c hc ho => ?_⟩
  cases mine with
  | none => exact h.dropped c hc ho
  | some i =>
    rcases mem_modify hc with hc | ⟨d, hd, rfl⟩
    · exact h.dropped c hc ho
    · rw [h.held i rfl] at hd
      cases hd
      simpa using hb

theorem part_prefix (fault : Fault) (bytes : Bytes) : fault.part bytes <+: bytes := by
  cases fault
  · exact List.prefix_refl _
  · exact List.prefix_refl _
  · exact List.take_prefix _ _

theorem Own.turn (n : Nat) (fault : Fault) (a : Side σ) (b : Side τ) (h : Own W a.mine b.inbox)
    (hw : ∀ bytes k, nextP a.task = .write bytes k → ∀ part, part <+: bytes → W part) :
    Own W (turn nextP nextM n fault a b).1.mine (turn nextP nextM n fault a b).2.inbox := by
  unfold Open.turn
  split
  · exact h
  · split
    · split <;> exact h
    · split
      · refine ⟨fun i hi => ?_, (h.snoc ⟨[], false, true⟩ (fun _ => rfl)).dropped⟩
        cases hi
        simp
      · exact h
    · rename_i bytes k hk
      split
      · exact h.finish [] (.inl rfl)
      · exact h.finish _ (.inr (hw bytes k hk _ (part_prefix _ _)))
    · rename_i again _
      split
      · cases again <;> exact h
      · split <;> exact h
    · split
      · exact h
      · split
        · exact h
        · split
          · split <;> exact h
          · exact h
    · exact h
    · exact h.finish [] (.inl rfl)

theorem stranger_mine (a : Side σ) (f : List Conn → List Conn) : (a.stranger nextP f).mine = a.mine := by
  unfold Side.stranger
  split <;> rfl

theorem Own.stranger {mine : Option Nat} (a : Side σ) (f : List Conn → List Conn) (h : Own W mine a.inbox)
    (hf : ∀ cs, Own W mine cs → Own W mine (f cs)) : Own W mine (a.stranger nextP f).inbox := by
  unfold Side.stranger
  split
  · exact hf _ h
  · exact h

theorem Own.arrive {mine : Option Nat} (cs : List Conn) (h : Own W mine cs) : Own W mine (arrive cs) :=
  h.snoc _ (fun h => by cases h)

theorem Own.inject {mine : Option Nat} (i : Nat) (bytes : Bytes) (cs : List Conn) (h : Own W mine cs) :
    Own W mine (inject i bytes cs) := by
  refine h.untouched _ _ (fun c hc => by simp [hc]) (fun c hc => ?_)
  split <;> exact hc

theorem Own.hangUp {mine : Option Nat} (i : Nat) (cs : List Conn) (h : Own W mine cs) :
    Own W mine (hangUp i cs) := by
  refine h.untouched _ _ (fun c hc => by simp [hc]) (fun c hc => ?_)
  split <;> exact hc

theorem turn_mine (n : Nat) (fault : Fault) (a : Side σ) (b : Side τ) :
    (Open.turn nextP nextM n fault a b).2.mine = b.mine := by
  obtain ⟨cs, _, he⟩ := turn_peer (nextP := nextP) (nextM := nextM) n fault a b
  rw [he]

/-- What the connections of the pool carry. -/
theorem pool_own (I : Side σ → Prop) (hq : ∀ a cs, Grew a.inbox cs → I a → I { a with inbox := cs })
    (ht : ∀ n fault a (b : Side τ), I a → I (Open.turn nextP nextM n fault a b).1)
    (W : Side σ → Bytes → Prop) (hWq : ∀ a cs bytes, Grew a.inbox cs → W a bytes → W { a with inbox := cs } bytes)
    (hWt : ∀ n fault a (b : Side τ) bytes, W a bytes → W (Open.turn nextP nextM n fault a b).1 bytes)
    (hw : ∀ a bytes k, I a → nextP a.task = .write bytes k → ∀ part, part <+: bytes → W a part) (events : List Event) :
    ∀ s : World σ τ, I s.pool → Own (W s.pool) s.pool.mine s.miner.inbox →
      Own (W (s.run nextP nextM events).pool) (s.run nextP nextM events).pool.mine
        (s.run nextP nextM events).miner.inbox := by
  induction events with
  | nil => exact fun s _ h => h
  | cons e rest ih =>
    intro s hI h
    refine ih _ (pool_invariant I hq ht [e] s hI) (Own.mono (W := W s.pool) ?_ fun b =>
      pool_invariant (fun a => W a b) (fun a cs => hWq a cs b) (fun n fault a c => hWt n fault a c b) [e] s)
    unfold World.step
    split
    · exact h
    · split
      · exact Own.turn _ _ _ _ h fun bytes k => hw _ bytes k hI
      · rename_i n fault
        simp only [turn_mine, (turn_own (nextP := nextM) (nextM := nextP) n fault s.miner s.pool).1]
        exact h
      · simp only [stranger_mine]; exact h
      · exact Own.stranger _ _ h Own.arrive
      · simp only [stranger_mine]; exact h
      · exact Own.stranger _ _ h fun cs => Own.inject _ _ cs
      · simp only [stranger_mine]; exact h
      · exact Own.stranger _ _ h fun cs => Own.hangUp _ cs

/-- What the connections of the miner carry. -/
theorem miner_own (I : Side τ → Prop) (hq : ∀ a cs, Grew a.inbox cs → I a → I { a with inbox := cs })
    (ht : ∀ n fault a (b : Side σ), I a → I (Open.turn nextM nextP n fault a b).1)
    (W : Side τ → Bytes → Prop) (hWq : ∀ a cs bytes, Grew a.inbox cs → W a bytes → W { a with inbox := cs } bytes)
    (hWt : ∀ n fault a (b : Side σ) bytes, W a bytes → W (Open.turn nextM nextP n fault a b).1 bytes)
    (hw : ∀ a bytes k, I a → nextM a.task = .write bytes k → ∀ part, part <+: bytes → W a part) (events : List Event) :
    ∀ s : World σ τ, I s.miner → Own (W s.miner) s.miner.mine s.pool.inbox →
      Own (W (s.run nextP nextM events).miner) (s.run nextP nextM events).miner.mine
        (s.run nextP nextM events).pool.inbox := by
  induction events with
  | nil => exact fun s _ h => h
  | cons e rest ih =>
    intro s hI h
    refine ih _ (miner_invariant I hq ht [e] s hI) (Own.mono (W := W s.miner) ?_ fun b =>
      miner_invariant (fun a => W a b) (fun a cs => hWq a cs b) (fun n fault a c => hWt n fault a c b) [e] s)
    unfold World.step
    split
    · exact h
    · split
      · rename_i n fault
        simp only [turn_mine, (turn_own (nextP := nextP) (nextM := nextM) n fault s.pool s.miner).1]
        exact h
      · exact Own.turn _ _ _ _ h fun bytes k => hw _ bytes k hI
      · exact Own.stranger _ _ h Own.arrive
      · simp only [stranger_mine]; exact h
      · exact Own.stranger _ _ h fun cs => Own.inject _ _ cs
      · simp only [stranger_mine]; exact h
      · exact Own.stranger _ _ h fun cs => Own.hangUp _ cs
      · simp only [stranger_mine]; exact h

/-! ## Without strangers it is the program of `Model/Programs.lean` -/

/-- A connection, a task and a process as `Model/Programs.lean` has them. -/
def Conn.forget (c : Conn) : Examples.Conn := ⟨c.sent, c.closed⟩

def Side.forget (a : Side σ) : Examples.Side σ := ⟨a.task, a.dead, a.bound, a.inbox.map Conn.forget, a.accepted⟩

def World.forget (s : World σ τ) : Examples.World σ τ := ⟨s.pool.forget, s.miner.forget⟩

/-- `holds` says in which states a task has a stream to write to: it gets one by connecting and drops it by writing. -/
def Streams (next : σ → Req σ) (holds : σ → Bool) : Prop :=
  ∀ t, match next t with
    | .bind k => holds t = false ∧ holds k = false
    | .connect k => holds t = false ∧ holds k = true
    | .write _ k => holds t = true ∧ holds k = false
    | .accept k _ => holds t = false ∧ holds k = false
    | .read k => holds t = false ∧ ∀ b, holds (k b) = false
    | .stop => True
    | .panic => True

/-- All connections that the task does not hold are closed, and the one it holds is the last. -/
def Link (holds : σ → Bool) (a : Side σ) (cs : List Conn) : Prop :=
  (a.mine = none ∧ (∀ c ∈ cs, c.closed = true) ∧ (a.dead = false → holds a.task = false)) ∨
  ∃ l, cs = l ++ [⟨[], false, true⟩] ∧ a.mine = some l.length ∧ (∀ c ∈ l, c.closed = true) ∧ holds a.task = true

theorem finishLast_snoc (l : List Examples.Conn) (c : Examples.Conn) (bytes : Bytes) :
    finishLast (l ++ [c]) bytes = l ++ [⟨c.sent ++ bytes, true⟩] := by
  induction l with
  | nil => rfl
  | cons d l ih =>
    cases l with
    | nil => rfl
    | cons e l =>
      show d :: finishLast ((e :: l) ++ [c]) bytes = _
      rw [ih]
      rfl

theorem finishLast_closed (l : List Examples.Conn) (h : ∀ c ∈ l, c.closed = true) : finishLast l [] = l := by
  induction l with
  | nil => rfl
  | cons c l ih =>
    have hc := h c (List.mem_cons_self ..)
    cases l with
    | nil =>
      obtain ⟨sent, closed⟩ := c
      cases hc
      simp [finishLast]
    | cons d l => rw [finishLast, ih fun c hc => h c (List.mem_cons_of_mem _ hc)]; simp

theorem finish_last (l : List Conn) (bytes : Bytes) :
    finish (l ++ [⟨[], false, true⟩]) (some l.length) bytes = l ++ [⟨bytes, true, true⟩] := by
  induction l with
  | nil => rfl
  | cons d l ih => exact congrArg (d :: ·) ih

theorem map_closed {l : List Conn} (h : ∀ c ∈ l, c.closed = true) : ∀ c ∈ l.map Conn.forget, c.closed = true := by
  intro c hc
  obtain ⟨d, hd, rfl⟩ := List.mem_map.mp hc
  exact h d hd

/-- A task returns early only if an `accept` fails that is not in a loop. -/
theorem turn_left (nextA : σ → Req σ) (nextB : τ → Req τ) (n : Nat) (fault : Fault) (a : Side σ) (b : Side τ) :
    (Open.turn nextA nextB n fault a b).1.left = a.left ∨ (fault = .fail ∧ ∃ k, nextA a.task = .accept k false) := by
  unfold Open.turn
  split
  · exact .inl rfl
  · split
    · split <;> exact .inl rfl
    · split <;> exact .inl rfl
    · split <;> exact .inl rfl
    · rename_i k again hk
      split
      · rename_i hf
        cases again
        · exact .inr ⟨hf, k, hk⟩
        · exact .inl rfl
      · split <;> exact .inl rfl
    · split
      · exact .inl rfl
      · split
        · exact .inl rfl
        · split
          · split <;> exact .inl rfl
          · exact .inl rfl
    · exact .inl rfl
    · exact .inl rfl

/-- A task that has returned because `accept` failed is where it called it. -/
theorem turn_left_at (nextA : σ → Req σ) (nextB : τ → Req τ) (n : Nat) (fault : Fault) (a : Side σ) (b : Side τ)
    (h : a.left = true → ∃ k, nextA a.task = .accept k false) :
    (Open.turn nextA nextB n fault a b).1.left = true →
      ∃ k, nextA (Open.turn nextA nextB n fault a b).1.task = .accept k false := by
  intro hl
  cases ha : a.left with
  | true =>
    have : (Open.turn nextA nextB n fault a b).1 = a := by
      unfold Open.turn
      simp [ha]
    rw [this]
    exact h ha
  | false =>
    rcases turn_left nextA nextB n fault a b with h' | ⟨hf, k, hk⟩
    · rw [h', ha] at hl; cases hl
    · refine ⟨k, ?_⟩
      rw [show (Open.turn nextA nextB n fault a b).1.task = a.task from ?_]
      · exact hk
      · unfold Open.turn
        split
        · rfl
        · rw [hk, hf]; rfl

theorem finish_nothing (cs : List Conn) (i : Option Nat) : (finish cs i []).map (·.sent) = cs.map (·.sent) := by
  cases i with
  | none => rfl
  | some i =>
    refine List.ext_getElem? fun j => ?_
    simp only [finish, List.getElem?_map, List.getElem?_modify]
    cases cs[j]? with
    | none => rfl
    | some c => by_cases h : i = j <;> simp [h]

/-- What a failing call does: it neither sends nor reads anything, and the task panics if the call is not `accept` or
`try_read`. -/
theorem turn_fail (nextA : σ → Req σ) (nextB : τ → Req τ) (n : Nat) (a : Side σ) (b : Side τ) :
    let r := Open.turn nextA nextB n .fail a b
    r.1.task = a.task ∧ r.1.accepted = a.accepted ∧ r.1.inbox.map (·.sent) = a.inbox.map (·.sent) ∧
    r.2.task = b.task ∧ r.2.accepted = b.accepted ∧ r.2.inbox.map (·.sent) = b.inbox.map (·.sent) ∧
    (r.1.dead = false → r.1.left = false →
      (∃ k again, nextA a.task = .accept k again) ∨ (∃ k, nextA a.task = .read k) ∨ nextA a.task = .stop) := by
  intro r
  have hr : r = Open.turn nextA nextB n .fail a b := rfl
  unfold Open.turn at hr
  split at hr
  · rename_i h
    rw [hr]
    refine ⟨rfl, rfl, rfl, rfl, rfl, rfl, fun hd hl => ?_⟩
    rw [hd, hl] at h
    cases h
  · split at hr
    · rw [hr, if_pos rfl]
      exact ⟨rfl, rfl, rfl, rfl, rfl, rfl, fun hd => by cases hd⟩
    · rw [hr, if_neg (fun h => h.2 rfl)]
      exact ⟨rfl, rfl, rfl, rfl, rfl, rfl, fun hd => by cases hd⟩
    · rw [hr, if_pos rfl]
      exact ⟨rfl, rfl, rfl, rfl, rfl, finish_nothing _ _, fun hd => by cases hd⟩
    · rename_i k again hk
      rw [hr, if_pos rfl]
      refine ⟨?_, ?_, ?_, rfl, rfl, rfl, fun _ _ => .inl ⟨k, again, hk⟩⟩ <;> cases again <;> rfl
    · rename_i k hk
      rw [hr, if_pos rfl]
      exact ⟨rfl, rfl, rfl, rfl, rfl, rfl, fun _ _ => .inr (.inl ⟨k, hk⟩)⟩
    · rename_i hk
      rw [hr]
      exact ⟨rfl, rfl, rfl, rfl, rfl, rfl, fun _ _ => .inr (.inr hk)⟩
    · rw [hr]
      exact ⟨rfl, rfl, rfl, rfl, rfl, finish_nothing _ _, fun hd => by cases hd⟩

/-- A task that has panicked, or returned after a failing `accept`, does nothing any more. -/
theorem gone_stays {nextP : σ → Req σ} {nextM : τ → Req τ} (t : σ) (k : Nat) (d l : Bool) (h : d = true ∨ l = true) (events : List Event)
    (s : World σ τ) (hs : s.pool.task = t ∧ s.pool.accepted = k ∧ s.pool.dead = d ∧ s.pool.left = l) :
    let s' := s.run nextP nextM events
    s'.pool.task = t ∧ s'.pool.accepted = k ∧ s'.pool.dead = d ∧ s'.pool.left = l :=
  pool_invariant (fun a => a.task = t ∧ a.accepted = k ∧ a.dead = d ∧ a.left = l) (fun _ _ _ h => h) (fun n fault a b ha => by
    unfold Open.turn
    rw [if_pos (by rw [ha.2.2.1, ha.2.2.2]; rcases h with rfl | rfl <;> simp)]
    exact ha) events s hs

/-- If the miner has panicked or returned, nothing happens any more. -/
theorem over_stays {nextP : σ → Req σ} {nextM : τ → Req τ} (s : World σ τ) (h : s.ended nextM = true) (events : List Event) :
    s.run nextP nextM events = s := by
  induction events with
  | nil => rfl
  | cons x more ih =>
    show World.run nextP nextM (s.step nextP nextM x) more = s
    rw [show s.step nextP nextM x = s from if_pos h]
    exact ih

/-- A failing call in a run: the bytes on all connections, the two tasks and the numbers of accepted connections are the same
as before, and a task that goes on was about to call `accept` or `try_read`, or had returned. -/
theorem step_fail (nextP : σ → Req σ) (nextM : τ → Req τ) (s : World σ τ) (who : Role) (n : Nat) :
    let s' := s.step nextP nextM (.turn who n .fail)
    s'.pool.task = s.pool.task ∧ s'.miner.task = s.miner.task ∧ s'.pool.accepted = s.pool.accepted ∧
    s'.miner.accepted = s.miner.accepted ∧ s'.pool.inbox.map (·.sent) = s.pool.inbox.map (·.sent) ∧
    s'.miner.inbox.map (·.sent) = s.miner.inbox.map (·.sent) ∧
    (s.ended nextM = false → who = .pool → s'.pool.dead = false → s'.pool.left = false →
      (∃ k again, nextP s.pool.task = .accept k again) ∨ (∃ k, nextP s.pool.task = .read k) ∨ nextP s.pool.task = .stop) ∧
    (who = .miner → s'.ended nextM = false →
      (∃ k again, nextM s.miner.task = .accept k again) ∨ (∃ k, nextM s.miner.task = .read k)) := by
  intro s'
  have hs' : s' = s.step nextP nextM (.turn who n .fail) := rfl
  unfold World.step at hs'
  split at hs'
  · rename_i he
    rw [hs']
    exact ⟨rfl, rfl, rfl, rfl, rfl, rfl, fun h => (by rw [he] at h; cases h), fun _ h => (by rw [he] at h; cases h)⟩
  · cases who with
    | pool =>
      obtain ⟨h1, h2, h3, h4, h5, h6, h7⟩ := turn_fail nextP nextM n s.pool s.miner
      rw [hs']
      exact ⟨h1, h4, h2, h5, h3, h6, fun _ _ => h7, fun h => by cases h⟩
    | miner =>
      obtain ⟨h1, h2, h3, h4, h5, h6, h7⟩ := turn_fail nextM nextP n s.miner s.pool
      rw [hs']
      refine ⟨h4, h1, h5, h2, h6, h3, fun _ h => (by cases h), fun _ h => ?_⟩
      have hd : (Open.turn nextM nextP n .fail s.miner s.pool).1.dead = false ∧
          (Open.turn nextM nextP n .fail s.miner s.pool).1.left = false ∧
          returned nextM (Open.turn nextM nextP n .fail s.miner s.pool).1.task = false := by
        have h : ((Open.turn nextM nextP n .fail s.miner s.pool).1.dead ||
          (Open.turn nextM nextP n .fail s.miner s.pool).1.left ||
          returned nextM (Open.turn nextM nextP n .fail s.miner s.pool).1.task) = false := h
        simpa [and_assoc] using h
      rcases h7 hd.1 hd.2.1 with h | h | h
      · exact .inl h
      · exact .inr h
      · have := hd.2.2
        rw [h1, returned, h] at this
        cases this

theorem turn_left_none (nextA : σ → Req σ) (nextB : τ → Req τ) (n : Nat) (a : Side σ) (b : Side τ) :
    (Open.turn nextA nextB n .none a b).1.left = a.left :=
  (turn_left nextA nextB n .none a b).resolve_right fun h => by cases h.1

theorem turn_forget {nextA : σ → Req σ} {nextB : τ → Req τ} {holds : σ → Bool} (hS : Streams nextA holds) (n : Nat)
    (a : Side σ) (b : Side τ) (hleft : a.left = false) (hl : Link holds a b.inbox)
    (hb : ∀ k, a.dead = false → nextA a.task = .connect k → b.bound = true → b.listens nextB = true) :
    Examples.turn nextA n a.forget b.forget =
      ((Open.turn nextA nextB n .none a b).1.forget, (Open.turn nextA nextB n .none a b).2.forget) ∧
    Link holds (Open.turn nextA nextB n .none a b).1 (Open.turn nextA nextB n .none a b).2.inbox := by
  obtain ⟨task, dead, bound, inbox, accepted, mine, left⟩ := a
  simp only at hleft
  subst hleft
  have hs := hS task
  unfold Examples.turn Open.turn
  simp only [Side.forget, Bool.or_false, ne_eq, reduceCtorEq, not_false_eq_true, and_true, if_false, Fault.part] at hb hl ⊢
  cases dead with
  | true => exact ⟨rfl, hl⟩
  | false =>
    simp only [Bool.false_eq_true, if_false]
    have hheld : holds task = false → mine = none ∧ ∀ c ∈ b.inbox, c.closed = true := by
      intro h
      rcases hl with h' | ⟨l, _, _, _, h'⟩
      · exact ⟨h'.1, h'.2.1⟩
      · simp only at h'; rw [h] at h'; cases h'
    cases hn : nextA task with
    | bind k =>
      rw [hn] at hs
      obtain ⟨h1, h2⟩ := hheld hs.1
      exact ⟨rfl, .inl ⟨h1, h2, fun _ => hs.2⟩⟩
    | connect k =>
      rw [hn] at hs
      obtain ⟨h1, h2⟩ := hheld hs.1
      by_cases hbd : b.bound = true
      · have hbl := hb k rfl hn hbd
        simp only [hbd, hbl, if_true]
        refine ⟨by simp [Conn.forget], .inr ⟨b.inbox, rfl, rfl, h2, hs.2⟩⟩
      · have hbl : b.listens nextB = false := by
          unfold Side.listens
          simp [hbd]
        simp only [hbd, hbl, Bool.false_eq_true, if_false]
        exact ⟨trivial, .inl ⟨h1, h2, fun h => by cases h⟩⟩
    | write bytes k =>
      rw [hn] at hs
      rcases hl with h' | ⟨l, hl1, hl2, hl3, _⟩
      · have := h'.2.2 rfl
        simp only at this
        rw [hs.1] at this
        cases this
      · simp only at hl1 hl2
        subst hl2
        simp only [hl1, finish_last, List.map_append, List.map_cons, List.map_nil, finishLast_snoc]
        refine ⟨rfl, .inl ⟨rfl, ?_, fun _ => hs.2⟩⟩
        intro c hc
        rcases List.mem_append.mp hc with hc | hc
        · exact hl3 c hc
        · rw [List.mem_singleton] at hc; rw [hc]
    | accept k again =>
      rw [hn] at hs
      obtain ⟨h1, h2⟩ := hheld hs.1
      simp only [List.length_map]
      split
      · exact ⟨rfl, .inl ⟨h1, h2, fun _ => hs.2⟩⟩
      · exact ⟨rfl, hl⟩
    | read k =>
      rw [hn] at hs
      obtain ⟨h1, h2⟩ := hheld hs.1
      simp only [List.getElem?_map]
      cases hc : inbox[accepted - 1]? with
      | none => exact ⟨rfl, hl⟩
      | some c =>
        simp only [Option.map_some, Conn.forget]
        split
        · split
          · exact ⟨rfl, .inl ⟨h1, h2, fun _ => hs.2 _⟩⟩
          · exact ⟨rfl, hl⟩
        · exact ⟨rfl, .inl ⟨h1, h2, fun _ => hs.2 _⟩⟩
    | stop => exact ⟨rfl, hl⟩
    | panic =>
      rcases hl with ⟨h1, h2, _⟩ | ⟨l, hl1, hl2, hl3, _⟩
      · simp only at h1
        subst h1
        simp only [finish, finishLast_closed _ (map_closed h2)]
        exact ⟨trivial, .inl ⟨rfl, h2, fun h => by cases h⟩⟩
      · simp only at hl1 hl2
        subst hl2
        simp only [hl1, finish_last, List.map_append, List.map_cons, List.map_nil, finishLast_snoc]
        refine ⟨rfl, .inl ⟨rfl, ?_, fun h => by cases h⟩⟩
        intro c hc
        rcases List.mem_append.mp hc with hc | hc
        · exact hl3 c hc
        · rw [List.mem_singleton] at hc; rw [hc]

/-- While the miner has not connected yet, the pool waits. -/
def Waits (nextM : τ → Req τ) (waiting : σ → Prop) (s : World σ τ) : Prop :=
  (∃ k, nextM s.miner.task = .connect k) → s.pool.inbox = [] ∧ s.pool.dead = false ∧ waiting s.pool.task

/-- Without strangers. -/
theorem run_forget {nextP : σ → Req σ} {nextM : τ → Req τ} {holdsP : σ → Bool} {holdsM : τ → Bool}
    (hP : Streams nextP holdsP) (hM : Streams nextM holdsM) (waiting : σ → Prop)
    (hw1 : ∀ t, waiting t → (∃ k, nextP t = .bind k ∧ waiting k) ∨ ∃ k again, nextP t = .accept k again)
    (hw2 : ∀ t, (match nextM t with
      | .bind k => ¬ ∃ k', nextM k = .connect k'
      | .connect k => ¬ ∃ k', nextM k = .connect k'
      | .write _ k => ¬ ∃ k', nextM k = .connect k'
      | .accept k _ => ¬ ∃ k', nextM k = .connect k'
      | .read k => ∀ b, ¬ ∃ k', nextM (k b) = .connect k'
      | _ => True))
    (schedule : List (Role × Nat)) : ∀ s : World σ τ, s.pool.left = false → s.miner.left = false →
    Link holdsP s.pool s.miner.inbox → Link holdsM s.miner s.pool.inbox → Waits nextM waiting s →
    (s.run nextP nextM (schedule.map fun t => .turn t.1 t.2 .none)).forget =
      Examples.World.run nextP nextM s.forget schedule := by
  induction schedule with
  | nil => exact fun s _ _ _ _ _ => rfl
  | cons t rest ih =>
    intro s hleP hleM hlP hlM hwait
    show (World.run nextP nextM (World.step nextP nextM s (.turn t.1 t.2 .none)) _).forget =
      Examples.World.run nextP nextM (Examples.World.step nextP nextM s.forget t) rest
    have hend : s.forget.ended nextM = s.ended nextM := by
      unfold World.ended Examples.World.ended returned
      rw [hleM, Bool.or_false]
      rfl
    by_cases he : s.ended nextM = true
    · have h1 : World.step nextP nextM s (.turn t.1 t.2 .none) = s := by unfold World.step; rw [if_pos he]
      have h2 : Examples.World.step nextP nextM s.forget t = s.forget := by
        unfold Examples.World.step; rw [hend, if_pos he]
      rw [h1, h2]
      exact ih s hleP hleM hlP hlM hwait
    · have hd : s.miner.dead = false ∧ returned nextM s.miner.task = false := by
        unfold World.ended at he
        rw [hleM] at he
        simpa using he
      obtain ⟨who, n⟩ := t
      cases who with
      | pool =>
        obtain ⟨h1, h2⟩ := turn_forget (nextB := nextM) hP n s.pool s.miner hleP hlP (by
          intro k _ _ hbd
          unfold Side.listens
          rw [hbd, hd.1, hd.2, hleM]
          rfl)
        have hown := turn_own (nextP := nextP) (nextM := nextM) n .none s.pool s.miner
        obtain ⟨cs, _, hpeer⟩ := turn_peer (nextP := nextP) (nextM := nextM) n .none s.pool s.miner
        have e1 : World.step nextP nextM s (.turn .pool n .none) =
            ⟨(Open.turn nextP nextM n .none s.pool s.miner).1, (Open.turn nextP nextM n .none s.pool s.miner).2⟩ := by
          unfold World.step; rw [if_neg he]
        have e2 : Examples.World.step nextP nextM s.forget (.pool, n) =
            World.forget ⟨(Open.turn nextP nextM n .none s.pool s.miner).1,
              (Open.turn nextP nextM n .none s.pool s.miner).2⟩ := by
          unfold Examples.World.step
          rw [hend, if_neg he]
          have : Examples.turn nextP n s.forget.pool s.forget.miner = _ := h1
          simp only [this]
          rfl
        rw [e1, e2]
        refine ih _ ((turn_left_none ..).trans hleP) (by rw [hpeer]; exact hleM) h2 ?_ ?_
        · simp only [hown.1]
          rw [hpeer]
          exact hlM
        · intro hc
          simp only at hc ⊢
          rw [hpeer] at hc
          obtain ⟨w1, w2, w3⟩ := hwait hc
          rw [hown.1]
          refine ⟨w1, ?_⟩
          unfold Open.turn
          rw [w2, hleP]
          simp only [Bool.or_self, Bool.false_eq_true, reduceCtorEq, if_false]
          rcases hw1 _ w3 with ⟨k, hk, hwk⟩ | ⟨k, again, hk⟩
          · rw [hk]; exact ⟨rfl, hwk⟩
          · rw [hk]
            simp only [w1, List.length_nil, Nat.not_lt_zero, if_false]
            exact ⟨w2, w3⟩
      | miner =>
        obtain ⟨h1, h2⟩ := turn_forget (nextB := nextP) hM n s.miner s.pool hleM hlM (by
          intro k _ hk hbd
          obtain ⟨w1, w2, w3⟩ := hwait ⟨k, hk⟩
          unfold Side.listens returned
          rw [hbd, w2, hleP]
          rcases hw1 _ w3 with ⟨k, hk, _⟩ | ⟨k, again, hk⟩ <;> rw [hk] <;> rfl)
        have hown := turn_own (nextP := nextM) (nextM := nextP) n .none s.miner s.pool
        obtain ⟨cs, _, hpeer⟩ := turn_peer (nextP := nextM) (nextM := nextP) n .none s.miner s.pool
        have e1 : World.step nextP nextM s (.turn .miner n .none) =
            ⟨(Open.turn nextM nextP n .none s.miner s.pool).2, (Open.turn nextM nextP n .none s.miner s.pool).1⟩ := by
          unfold World.step; rw [if_neg he]
        have e2 : Examples.World.step nextP nextM s.forget (.miner, n) =
            World.forget ⟨(Open.turn nextM nextP n .none s.miner s.pool).2,
              (Open.turn nextM nextP n .none s.miner s.pool).1⟩ := by
          unfold Examples.World.step
          rw [hend, if_neg he]
          have : Examples.turn nextM n s.forget.miner s.forget.pool = _ := h1
          simp only [this]
          rfl
        rw [e1, e2]
        refine ih _ (by rw [hpeer]; exact hleP) ((turn_left_none ..).trans hleM) ?_ h2 ?_
        · simp only [hown.1]
          rw [hpeer]
          exact hlP
        · intro hc
          simp only at hc ⊢
          have h2' := hw2 s.miner.task
          have hsame : (Open.turn nextM nextP n .none s.miner s.pool).1.task = s.miner.task := by
            rcases hown.2 with h | ⟨k, hk, ht, _⟩ | ⟨k, hk, ht, _⟩ | ⟨b, k, hk, ht, _⟩ | ⟨k, _, hk, ht, _⟩ |
              ⟨k, b, hk, ht, _⟩
            · exact h.1
            all_goals
              rw [hk] at h2'
              rw [ht] at hc
              first
                | exact absurd hc h2'
                | exact absurd hc (h2' _)
          rw [hsame] at hc
          obtain ⟨k, hk⟩ := hc
          obtain ⟨w1, w2, w3⟩ := hwait ⟨k, hk⟩
          -- a connect that leaves the task as it is has failed, and leaves the pool as it is
          have h2'' := hw2 s.miner.task
          rw [hk] at h2''
          have hne : k ≠ s.miner.task := by
            rintro rfl
            exact h2'' ⟨_, hk⟩
          have hp : (Open.turn nextM nextP n .none s.miner s.pool).2 = s.pool := by
            unfold Open.turn at hsame ⊢
            rw [hd.1, hleM, hk] at hsame ⊢
            simp only [Bool.or_self, Bool.false_eq_true, if_false] at hsame ⊢
            split
            · rename_i hcond
              rw [if_pos hcond] at hsame
              exact absurd hsame hne
            · rfl
          rw [hp]
          exact ⟨w1, w2, w3⟩

/-! ## setup_connection -/

section Setup
open Examples.Setup

/-- What the pool knows. -/
def SetupPool (a : Side PoolAt) : Prop :=
  match a.task with
  | .start => a.accepted = 0
  | .bound => a.accepted = 0
  | .reading => a.accepted = 1
  | .replying reply => ∃ arrived, ReadFrom a.inbox 0 arrived ∧ poolHandle (tryRead freshBuffer arrived) = .ok (some reply)
  | .writing reply => ∃ arrived, ReadFrom a.inbox 0 arrived ∧ poolHandle (tryRead freshBuffer arrived) = .ok (some reply)
  | .finished => ∃ arrived o, ReadFrom a.inbox 0 arrived ∧ poolHandle (tryRead freshBuffer arrived) = .ok o
  | .panicking => ∃ arrived, ReadFrom a.inbox 0 arrived ∧ ∀ o, poolHandle (tryRead freshBuffer arrived) ≠ .ok o

theorem SetupPool.grew (a : Side PoolAt) (cs : List Conn) (hg : Grew a.inbox cs) (h : SetupPool a) :
    SetupPool { a with inbox := cs } := by
  unfold SetupPool at h ⊢
  cases ht : a.task <;> rw [ht] at h <;> simp only at h ⊢
  case start => exact h
  case bound => exact h
  case reading => exact h
  case replying => exact h.imp fun _ h => ⟨h.1.grew hg, h.2⟩
  case writing => exact h.imp fun _ h => ⟨h.1.grew hg, h.2⟩
  case finished => exact h.imp fun _ h => h.imp fun _ h => ⟨h.1.grew hg, h.2⟩
  case panicking => exact h.imp fun _ h => ⟨h.1.grew hg, h.2⟩

/-- Where the pool is when it has handled what it read. -/
def poolThen : Out Empty (Option Bytes) → PoolAt
  | .ok (some reply) => .replying reply
  | .ok none => .finished
  | _ => .panicking

theorem pool_reading : poolNext .reading = .read fun arrived => poolThen (poolHandle (tryRead freshBuffer arrived)) := by
  simp only [poolNext]
  refine congrArg Req.read (funext fun arrived => ?_)
  generalize tryRead freshBuffer arrived = b
  unfold poolThen
  rfl

theorem SetupPool.turn {nextM : τ → Req τ} (n : Nat) (fault : Fault) (a : Side PoolAt) (b : Side τ) (h : SetupPool a) :
    SetupPool (Open.turn poolNext nextM n fault a b).1 := by
  obtain ⟨hin, hc⟩ := turn_own (nextP := poolNext) (nextM := nextM) n fault a b
  generalize (Open.turn poolNext nextM n fault a b).1 = a' at hin hc
  obtain ⟨task, dead, bound, inbox, accepted, mine, left⟩ := a
  obtain ⟨task', dead', bound', inbox', accepted', mine', left'⟩ := a'
  simp only at hin hc
  subst hin
  rcases hc with ⟨rfl, rfl⟩ | ⟨k, hk, rfl, rfl⟩ | ⟨k, hk, rfl, rfl⟩ | ⟨bytes, k, hk, rfl, rfl⟩ | ⟨k, _, hk, rfl, rfl⟩ |
    ⟨k, arrived, hk, rfl, rfl, hr⟩
  · exact h
  · cases task <;> simp only [poolNext] at hk <;> cases hk
    exact h
  · cases task <;> simp only [poolNext] at hk <;> cases hk
    exact h
  · cases task <;> simp only [poolNext] at hk <;> cases hk
    exact h.imp fun _ h => ⟨_, h⟩
  · cases task <;> simp only [poolNext] at hk <;> cases hk
    show accepted + 1 = 1
    have : accepted = 0 := h
    omega
  · cases task
    case reading =>
      have hk := Req.read.inj (pool_reading.symm.trans hk)
      subst hk
      have h1 : accepted' = 1 := h
      subst h1
      show SetupPool ⟨poolThen (poolHandle (tryRead freshBuffer arrived)), dead', bound', inbox', 1, mine', left'⟩
      cases hp : poolHandle (tryRead freshBuffer arrived) with
      | ok o =>
        cases o with
        | none => exact ⟨arrived, none, hr, hp⟩
        | some reply => exact ⟨arrived, hr, hp⟩
      | err e => cases e
      | panic => exact ⟨arrived, hr, fun o => by rw [hp]; intro h; cases h⟩
    all_goals exact absurd hk (by simp [poolNext])

/-- What the miner knows. -/
def SetupMiner (a : Side MinerAt) : Prop :=
  match a.task with
  | .start => a.accepted = 0
  | .sending => a.accepted = 0
  | .sent => a.accepted = 0
  | .bound => a.accepted = 0
  | .reading => a.accepted = 1
  | .finished printed => ∃ arrived, ReadFrom a.inbox 0 arrived ∧ minerHandle (tryRead freshBuffer arrived) = .ok printed
  | .panicking => ∃ arrived, ReadFrom a.inbox 0 arrived ∧ ∀ o, minerHandle (tryRead freshBuffer arrived) ≠ .ok o

theorem SetupMiner.grew (a : Side MinerAt) (cs : List Conn) (hg : Grew a.inbox cs) (h : SetupMiner a) :
    SetupMiner { a with inbox := cs } := by
  unfold SetupMiner at h ⊢
  cases ht : a.task <;> rw [ht] at h <;> simp only at h ⊢
  case finished => exact h.imp fun _ h => ⟨h.1.grew hg, h.2⟩
  case panicking => exact h.imp fun _ h => ⟨h.1.grew hg, h.2⟩
  all_goals exact h

/-- Where the miner is when it has handled what it read. -/
def minerThen : Out Empty (Option (Flags miningSuccessFlags)) → MinerAt
  | .ok printed => .finished printed
  | _ => .panicking

theorem miner_reading (m : SetupConnection) :
    minerNext m .reading = .read fun arrived => minerThen (minerHandle (tryRead freshBuffer arrived)) := by
  simp only [minerNext]
  refine congrArg Req.read (funext fun arrived => ?_)
  generalize tryRead freshBuffer arrived = b
  unfold minerThen
  rfl

theorem miner_sending (m : SetupConnection) : (∃ w, minerSend m = .ok w ∧ minerNext m .sending = .write w .sent) ∨
    minerNext m .sending = .panic := by
  cases h : minerSend m with
  | ok w => exact .inl ⟨w, rfl, by simp only [minerNext, h]⟩
  | err e => cases e
  | panic => exact .inr (by simp only [minerNext, h])

theorem SetupMiner.turn {nextP : σ → Req σ} (m : SetupConnection) (n : Nat) (fault : Fault) (a : Side MinerAt)
    (b : Side σ) (h : SetupMiner a) : SetupMiner (Open.turn (minerNext m) nextP n fault a b).1 := by
  obtain ⟨hin, hc⟩ := turn_own (nextP := minerNext m) (nextM := nextP) n fault a b
  generalize (Open.turn (minerNext m) nextP n fault a b).1 = a' at hin hc
  obtain ⟨task, dead, bound, inbox, accepted, mine, left⟩ := a
  obtain ⟨task', dead', bound', inbox', accepted', mine', left'⟩ := a'
  simp only at hin hc
  subst hin
  have hsend : task = .sending → (∃ w, minerSend m = .ok w ∧ minerNext m task = .write w .sent) ∨
      minerNext m task = .panic := by
    rintro rfl; exact miner_sending m
  rcases hc with ⟨rfl, rfl⟩ | ⟨k, hk, rfl, rfl⟩ | ⟨k, hk, rfl, rfl⟩ | ⟨bytes, k, hk, rfl, rfl⟩ | ⟨k, _, hk, rfl, rfl⟩ |
    ⟨k, arrived, hk, rfl, rfl, hr⟩
  · exact h
  all_goals cases task
  all_goals first
    | (exfalso; rcases hsend rfl with ⟨w, _, he⟩ | he <;> rw [he] at hk <;> cases hk; done)
    | (exfalso; simp [minerNext] at hk; done)
    | skip
  · cases hk; exact h
  · cases hk; exact h
  · rcases hsend rfl with ⟨w, _, he⟩ | he <;> rw [he] at hk <;> cases hk
    exact h
  · cases hk
    show accepted + 1 = 1
    have : accepted = 0 := h
    omega
  · have hk := Req.read.inj ((miner_reading m).symm.trans hk)
    subst hk
    have h1 : accepted' = 1 := h
    subst h1
    show SetupMiner ⟨minerThen (minerHandle (tryRead freshBuffer arrived)), dead', bound', inbox', 1, mine', left'⟩
    cases hp : minerHandle (tryRead freshBuffer arrived) with
    | ok o => exact ⟨arrived, hr, hp⟩
    | err e => cases e
    | panic => exact ⟨arrived, hr, fun o => by rw [hp]; intro h; cases h⟩

theorem setup_pool (m : SetupConnection) (events : List Event) : SetupPool (setup m events).pool :=
  pool_invariant SetupPool SetupPool.grew (fun n fault a b => SetupPool.turn n fault a b) events _ rfl

theorem setup_miner (m : SetupConnection) (events : List Event) : SetupMiner (setup m events).miner :=
  miner_invariant SetupMiner SetupMiner.grew (fun n fault a b => SetupMiner.turn m n fault a b) events _ rfl

/-- What the pool answers to. -/
theorem setup_replies (m : SetupConnection) (events : List Event) (c : Conn)
    (hc : c ∈ (setup m events).miner.inbox) (ho : c.ours = true) :
    c.sent = [] ∨ ∃ arrived, ReadFrom (setup m events).pool.inbox 0 arrived ∧ ∃ reply,
      poolHandle (tryRead freshBuffer arrived) = .ok (some reply) ∧ c.sent <+: reply := by
  refine (pool_own SetupPool SetupPool.grew (fun n fault a b => SetupPool.turn n fault a b)
    (fun a bytes => ∃ arrived, ReadFrom a.inbox 0 arrived ∧ ∃ reply,
      poolHandle (tryRead freshBuffer arrived) = .ok (some reply) ∧ bytes <+: reply)
    (fun a cs bytes hg h => h.imp fun _ h => ⟨h.1.grew hg, h.2⟩) (fun n fault a b bytes h => ?_) ?_ events _
    (show SetupPool { task := .start } from rfl) ⟨?_, ?_⟩).dropped c hc ho
  · rw [(turn_own (nextP := poolNext) n fault a b).1]; exact h
  · intro a bytes k hI hk part hpart
    unfold SetupPool at hI
    cases ht : a.task <;> rw [ht] at hI hk
    case writing =>
      cases hk
      exact hI.imp fun _ h => ⟨h.1, _, h.2, hpart⟩
    all_goals exact absurd hk (by simp [poolNext])
  · exact fun i hi => by cases hi
  · exact fun c hc => by cases hc

/-- What the miner asks. -/
theorem setup_requests (m : SetupConnection) (events : List Event) (c : Conn)
    (hc : c ∈ (setup m events).pool.inbox) (ho : c.ours = true) :
    c.sent = [] ∨ ∃ w, minerSend m = .ok w ∧ c.sent <+: w := by
  refine (miner_own (fun _ => True) (fun _ _ _ _ => trivial) (fun _ _ _ _ _ => trivial)
    (fun _ b => ∃ w, minerSend m = .ok w ∧ b <+: w) (fun _ _ _ _ h => h) (fun _ _ _ _ _ h => h) ?_ events _ trivial
    ⟨?_, ?_⟩).dropped c hc ho
  · intro a bytes k _ hk part hpart
    cases ht : a.task <;> rw [ht] at hk
    case sending =>
      rcases miner_sending m with ⟨w, hw, he⟩ | he <;> rw [he] at hk <;> cases hk
      exact ⟨_, hw, hpart⟩
    all_goals exact absurd hk (by simp [minerNext])
  · exact fun i hi => by cases hi
  · exact fun c hc => by cases hc

/-- What is cut off a message that ends in zeros is in the buffer already. -/
theorem pad {l : Bytes} {k : Nat} (hl : l.length ≤ 1024) (hk : k ≤ l.length)
    (hz : l.drop k = List.replicate (l.length - k) 0) : tryRead freshBuffer (l.take k) = tryRead freshBuffer l := by
  have h1 : (l.take k).length = k := by rw [List.length_take]; omega
  rw [tryRead_fits _ (by omega), tryRead_fits _ hl, h1]
  conv => rhs; rw [← List.take_append_drop k l, hz]
  rw [List.append_assoc, List.replicate_append_replicate]
  congr 2
  rw [List.length_append, List.length_take, List.length_replicate]
  omega

/-- The miner prints the flags of a SetupConnectionSuccess. -/
theorem success_handled (r : SetupConnectionSuccess miningSuccessFlags) :
    minerHandle (tryRead freshBuffer (Wire.frame ⟨.setupConnectionSuccess, Wire.setupConnectionSuccess r⟩)) =
      .ok (some r.flags) := by
  have rts := lawful_setupSuccess.roundTrips r trivial
  obtain ⟨h3, h4⟩ := arrives rts (by rw [size_setupSuccess]; decide)
  unfold minerHandle
  erw [h3]
  simp only [unwrap_ok]
  show (unwrap (unframe (SetupConnectionSuccess miningSuccessFlags) _) >>= fun s => pure (some s.flags)) = _
  rw [h4]
  rfl

/-- The bytes of one. -/
theorem success_bytes (r : SetupConnectionSuccess miningSuccessFlags) :
    Wire.frame ⟨.setupConnectionSuccess, Wire.setupConnectionSuccess r⟩ =
      [0, 0, 1, 6, 0, 0] ++ Wire.u16 r.used_version ++ Wire.u32 r.flags.bits := by
  unfold Wire.frame
  simp only [size_setupSuccess]
  rw [show Wire.setupConnectionSuccess r = Wire.u16 r.used_version ++ Wire.u32 r.flags.bits from rfl, ← List.append_assoc]
  congr 2

/-- The header of the answer, cut anywhere. -/
theorem cut_small : ∀ k ≤ 6, ∀ p, minerHandle (tryRead freshBuffer (([0, 0, 1, 6, 0, 0] : Bytes).take k)) = .ok p →
    p = none ∨ p = some ⟨0, by decide⟩ ∨ p = some ⟨1, by decide⟩ := by
  have key : ∀ k ≤ 6, (match minerHandle (tryRead freshBuffer (([0, 0, 1, 6, 0, 0] : Bytes).take k)) with
      | .ok (some f) => f.bits == 0
      | _ => true) = true := by decide +kernel
  intro k hk p hp
  have := key k hk
  rw [hp] at this
  cases p with
  | none => exact .inl rfl
  | some f =>
    obtain ⟨bits, hb⟩ := f
    have : bits = 0 := by simpa using this
    subst this
    exact .inr (.inl rfl)

/-- The answer of the pool, cut anywhere. -/
theorem cut_reply (v : UInt16) (a : Bytes) (p : Option (Flags miningSuccessFlags))
    (ha : a <+: Wire.frame ⟨.setupConnectionSuccess, Wire.setupConnectionSuccess (successReply v)⟩)
    (h : minerHandle (tryRead freshBuffer a) = .ok p) :
    p = none ∨ p = some ⟨0, by decide⟩ ∨ p = some ⟨1, by decide⟩ := by
  have hlen : ∀ r : SetupConnectionSuccess miningSuccessFlags,
      (Wire.frame ⟨.setupConnectionSuccess, Wire.setupConnectionSuccess r⟩).length = 12 := by
    intro r; rw [wire_frame_length, size_setupSuccess]
  have hat := List.prefix_iff_eq_take.mp ha
  have hle := ha.length_le
  rw [hlen] at hle
  generalize hk : a.length = k at hat hle
  have hk' : k = 0 ∨ k = 1 ∨ k = 2 ∨ k = 3 ∨ k = 4 ∨ k = 5 ∨ k = 6 ∨ k = 7 ∨ k = 8 ∨ 9 ≤ k := by omega
  have key : ∀ r : SetupConnectionSuccess miningSuccessFlags,
      a = (Wire.frame ⟨.setupConnectionSuccess, Wire.setupConnectionSuccess r⟩).take k →
      (Wire.frame ⟨.setupConnectionSuccess, Wire.setupConnectionSuccess r⟩).drop k = List.replicate (12 - k) 0 →
      p = some r.flags := by
    intro r hr hd
    rw [hr, pad (by rw [hlen]; omega) (by rw [hlen]; exact hle) (by rw [hlen]; exact hd), success_handled] at h
    exact (Out.ok.inj h).symm
  have hsix : a.take 6 = ([0, 0, 1, 6, 0, 0] : Bytes).take k := by
    rw [hat, success_bytes, List.take_take, Nat.min_comm, ← List.take_take, List.append_assoc]
    congr 1
  rcases hk' with rfl | rfl | rfl | rfl | rfl | rfl | rfl | rfl | rfl | h9
  iterate 7
    · rw [List.take_of_length_le (by omega)] at hsix
      rw [hsix] at h
      exact cut_small _ (by decide) p h
  · refine .inr (.inl (key ⟨UInt16.ofNat (v.toNat % 256), ⟨0, by decide⟩⟩ ?_ ?_))
    · rw [hat, success_bytes, success_bytes]
      simp [Wire.u16, successReply]
    · rw [success_bytes]
      have : v.toNat % 256 % 65536 / 256 = 0 := by omega
      simp [Wire.u16, Wire.u32, this]
  · refine .inr (.inl (key ⟨v, ⟨0, by decide⟩⟩ ?_ ?_))
    · rw [hat, success_bytes, success_bytes]
      simp [Wire.u16, successReply]
    · rw [success_bytes]
      simp [Wire.u16, Wire.u32]
  · refine .inr (.inr (key (successReply v) hat ?_))
    rw [success_bytes]
    have : k = 9 ∨ k = 10 ∨ k = 11 ∨ k = 12 := by omega
    rcases this with rfl | rfl | rfl | rfl <;> simp [Wire.u16, Wire.u32, successReply]

/-- The states with a stream to write to. -/
def poolHolds : PoolAt → Bool
  | .writing _ => true
  | _ => false

def minerHolds : MinerAt → Bool
  | .sending => true
  | _ => false

theorem poolThen_holds (r : Out Empty (Option Bytes)) : poolHolds (poolThen r) = false := by
  unfold poolThen
  split <;> rfl

theorem minerThen_holds (r : Out Empty (Option (Flags miningSuccessFlags))) : minerHolds (minerThen r) = false ∧
    minerThen r ≠ .start := by
  unfold minerThen
  split <;> exact ⟨rfl, fun h => by cases h⟩

/-- Without strangers, and if no call fails that can succeed, this is the program of C80. -/
theorem C88_setup_alone (m : SetupConnection) (schedule : List (Role × Nat)) :
    (setup m (schedule.map fun t => .turn t.1 t.2 .none)).forget = after m schedule := by
  refine run_forget (holdsP := poolHolds) (holdsM := minerHolds) ?_ ?_ (fun t => t = .start ∨ t = .bound) ?_ ?_ schedule _ rfl rfl
    (.inl ⟨rfl, fun _ hc => (by cases hc), fun _ => rfl⟩)
    (.inl ⟨rfl, fun _ hc => (by cases hc), fun _ => rfl⟩) (fun _ => ⟨rfl, rfl, .inl rfl⟩)
  · intro t
    cases t
    case reading =>
      rw [pool_reading]
      exact ⟨rfl, fun b => poolThen_holds _⟩
    all_goals simp [poolNext, poolHolds]
  · intro t
    cases t
    case reading =>
      rw [miner_reading]
      exact ⟨rfl, fun b => (minerThen_holds _).1⟩
    case sending => rcases miner_sending m with ⟨w, _, he⟩ | he <;> rw [he] <;> simp [minerHolds]
    all_goals simp [minerNext, minerHolds]
  · rintro t (rfl | rfl)
    · exact .inl ⟨_, rfl, .inr rfl⟩
    · exact .inr ⟨_, _, rfl⟩
  · have hc : ∀ t, (∃ k, minerNext m t = .connect k) → t = .start := by
      rintro t ⟨k, hk⟩
      cases t
      case start => rfl
      case sending => rcases miner_sending m with ⟨w, _, he⟩ | he <;> rw [he] at hk <;> cases hk
      all_goals simp [minerNext] at hk
    intro t
    cases t
    case reading =>
      rw [miner_reading]
      exact fun b h => (minerThen_holds _).2 (hc _ h)
    case sending =>
      rcases miner_sending m with ⟨w, _, he⟩ | he <;> rw [he]
      · intro h; cases hc _ h
      · trivial
    case start => intro h; cases hc _ h
    case sent => intro h; cases hc _ h
    case bound => intro h; cases hc _ h
    case finished => trivial
    case panicking => trivial

/-- Whoever connects and whatever they write, close, or leave open, in any order: what the miner prints is decided by the
first connection made to it and by nothing else, what the pool answers by the first connection made to the pool, and all
that the pool ever writes is that answer, or the beginning of it that `try_write` accepts; the miner writes its request
and nothing else. -/
theorem C88_setup_first (m : SetupConnection) (events : List Event) :
    let s := setup m events
    (∀ printed, s.miner.task = .finished printed → ∃ (c : Conn) (arrived : Bytes), s.miner.inbox[0]? = some c ∧
      arrived <+: c.sent ∧ (arrived = [] → c.closed = true) ∧ minerHandle (tryRead freshBuffer arrived) = .ok printed) ∧
    (∀ c ∈ s.miner.inbox, c.ours = true → c.sent ≠ [] → ∃ (d : Conn) (arrived : Bytes), s.pool.inbox[0]? = some d ∧
      arrived <+: d.sent ∧ (arrived = [] → d.closed = true) ∧
      ∃ reply, poolHandle (tryRead freshBuffer arrived) = .ok (some reply) ∧ c.sent <+: reply) ∧
    ∀ c ∈ s.pool.inbox, c.ours = true → c.sent ≠ [] → ∃ w, minerSend m = .ok w ∧ c.sent <+: w := by
  intro s
  refine ⟨fun printed hp => ?_, fun c hc ho hne => ?_, fun c hc ho hne => ?_⟩
  · have h := setup_miner m events
    unfold SetupMiner at h
    rw [show (setup m events).miner.task = .finished printed from hp] at h
    obtain ⟨arrived, ⟨c, h1, h2, h3⟩, h4⟩ := h
    exact ⟨c, arrived, h1, h2, h3, h4⟩
  · rcases setup_replies m events c hc ho with h | ⟨arrived, ⟨d, h1, h2, h3⟩, h4⟩
    · exact absurd h hne
    · exact ⟨d, arrived, h1, h2, h3, h4⟩
  · exact (setup_requests m events c hc ho).resolve_left hne

/-- If the first connection to the miner is the pool's, the miner prints that the version is fixed, or, if its read was
cut short, that nothing is, or it prints nothing; it prints no other flags, whatever strangers do and whomever the pool has
answered. -/
theorem C88_setup_pool_first (m : SetupConnection) (events : List Event) (c : Conn)
    (hc : (setup m events).miner.inbox[0]? = some c) (ho : c.ours = true) (printed : Option (Flags miningSuccessFlags))
    (hp : (setup m events).miner.task = .finished printed) :
    printed = none ∨ printed = some ⟨0, by decide⟩ ∨ printed = some ⟨1, by decide⟩ := by
  obtain ⟨c', arrived, h1, h2, h3, h4⟩ := (C88_setup_first m events).1 printed hp
  rw [hc] at h1
  cases h1
  rcases setup_replies m events c (List.mem_of_getElem? hc) ho with h | ⟨a, _, reply, h, hpre⟩
  · rw [h] at h2
    rw [List.prefix_nil.mp h2] at h4
    exact cut_small 0 (by decide) printed h4
  · obtain ⟨v, e, extra, fr, rest, _, _, _, _, f, hf, hs⟩ := C59_reply_only_to_valid _ _ (by
      unfold IsSlice
      have := tryRead_length freshBuffer a
      rw [this, freshBuffer_length]
      decide) h
    have hw := minerSend_eq (lawful_setupSuccess.roundTrips (successReply v.min_version) trivial).1
      (by rw [size_setupSuccess]; decide)
    have hw' : minerSend (successReply v.min_version) = .ok reply := by
      unfold minerSend
      have hf' : frame (successReply v.min_version) = .ok f := hf
      rw [hf']
      show unwrap (serialize f) = _
      rw [hs]
      rfl
    rw [hw] at hw'
    rw [← Out.ok.inj hw'] at hpre
    have h2 := h2.trans hpre
    exact cut_reply _ _ _ h2 h4

/-- A connection that a stranger has made and leaves alone stops whoever has to read it: if it is the first at the pool,
the pool has not answered, and the miner has received nothing from it; if it is the first at the miner, the miner has
printed nothing. -/
theorem C88_setup_idle (m : SetupConnection) (events : List Event) (mine : Bool) :
    let s := setup m events
    (s.pool.inbox[0]? = some ⟨[], false, mine⟩ →
      (s.pool.task = .start ∨ s.pool.task = .bound ∨ s.pool.task = .reading) ∧
      ∀ c ∈ s.miner.inbox, c.ours = true → c.sent = []) ∧
    (s.miner.inbox[0]? = some ⟨[], false, mine⟩ → ∀ printed, s.miner.task ≠ .finished printed) := by
  intro s
  have idle : ∀ (cs : List Conn) arrived, cs[0]? = some ⟨[], false, mine⟩ → ReadFrom cs 0 arrived → False := by
    rintro cs arrived h0 ⟨c, h1, h2, h3⟩
    rw [h0] at h1
    cases h1
    exact Bool.noConfusion (h3 (List.prefix_nil.mp h2))
  refine ⟨fun h0 => ⟨?_, fun c hc ho => ?_⟩, fun h0 printed hp => ?_⟩
  · have h := setup_pool m events
    unfold SetupPool at h
    have hs : s = setup m events := rfl
    rw [← hs] at h
    cases ht : s.pool.task <;> rw [ht] at h
    case start => exact .inl rfl
    case bound => exact .inr (.inl rfl)
    case reading => exact .inr (.inr rfl)
    case finished => obtain ⟨a, _, h, _⟩ := h; exact (idle _ _ h0 h).elim
    all_goals obtain ⟨a, h, _⟩ := h; exact (idle _ _ h0 h).elim
  · rcases setup_replies m events c hc ho with h | ⟨arrived, h, _⟩
    · exact h
    · exact (idle _ _ h0 h).elim
  · have h := setup_miner m events
    unfold SetupMiner at h
    rw [show (setup m events).miner.task = .finished printed from hp] at h
    obtain ⟨arrived, h, _⟩ := h
    exact idle _ _ h0 h

/-- Whether the pool has accepted a connection. -/
def poolPast : PoolAt → Bool
  | .start => false
  | .bound => false
  | _ => true

theorem poolThen_past (r : Out Empty (Option Bytes)) : poolPast (poolThen r) = true := by
  unfold poolThen
  split <;> rfl

/-- It does not go back. -/
theorem SetupPool.past {nextM : τ → Req τ} (n : Nat) (fault : Fault) (a : Side PoolAt) (b : Side τ)
    (h : poolPast a.task = true) : poolPast (Open.turn poolNext nextM n fault a b).1.task = true := by
  obtain ⟨_, hc⟩ := turn_own (nextP := poolNext) (nextM := nextM) n fault a b
  rcases hc with ⟨ht, _⟩ | ⟨k, hk, ht, _⟩ | ⟨k, hk, ht, _⟩ | ⟨bytes, k, hk, ht, _⟩ | ⟨k, _, hk, ht, _⟩ |
    ⟨k, arrived, hk, ht, _⟩
  · rw [ht]; exact h
  all_goals
    rw [ht]
    cases hs : a.task <;> rw [hs] at hk h
  all_goals first
    | (cases h; done)
    | (rw [← Req.read.inj (pool_reading.symm.trans hk)]; exact poolThen_past _)
    | (exfalso; rw [pool_reading] at hk; cases hk; done)
    | (exfalso; simp [poolNext] at hk; done)
    | (simp only [poolNext] at hk; cases hk; rfl)

/-- A failing `accept` is the end of a task of this program.  If that of the pool fails, it has answered nobody; if that
of the miner fails, it has printed nothing. -/
theorem C88_setup_accept (m : SetupConnection) (events : List Event) :
    let s := setup m events
    (s.pool.left = true → s.pool.task = .bound ∧ s.pool.accepted = 0 ∧ ∀ c ∈ s.miner.inbox, c.ours = true → c.sent = []) ∧
    (s.miner.left = true → s.miner.task = .bound ∧ s.miner.accepted = 0) := by
  refine ⟨fun hl => ?_, fun hl => ?_⟩
  · obtain ⟨k, hk⟩ : ∃ k, poolNext (setup m events).pool.task = .accept k false :=
      pool_invariant (nextP := poolNext) (nextM := minerNext m)
        (fun a => a.left = true → ∃ k, poolNext a.task = .accept k false) (fun _ _ _ h => h)
        (fun n fault a b => turn_left_at _ _ n fault a b) events ⟨{ task := .start }, { task := .start }⟩
        (fun h => by cases h) hl
    have ht : (setup m events).pool.task = .bound := by
      cases ht : (setup m events).pool.task <;> rw [ht] at hk <;> first | rfl | (exfalso; simp [poolNext] at hk; done)
    have hp := setup_pool m events
    unfold SetupPool at hp
    rw [ht] at hp
    refine ⟨ht, hp, fun c hc ho => ?_⟩
    have hown : Own (fun _ => poolPast (setup m events).pool.task = true)
        (setup m events).pool.mine (setup m events).miner.inbox := by
      refine pool_own (fun _ => True) (fun _ _ _ _ => trivial) (fun _ _ _ _ _ => trivial)
        (fun a _ => poolPast a.task = true) (fun _ _ _ _ h => h)
        (fun n fault a b _ h => SetupPool.past n fault a b h) ?_ events _ trivial ⟨fun i hi => (by cases hi), fun c hc => (by cases hc)⟩
      intro a bytes k _ hk _ _
      cases hs : a.task <;> rw [hs] at hk
      case writing => rfl
      all_goals exact absurd hk (by simp [poolNext])
    exact (hown.dropped c hc ho).resolve_right fun h => by rw [ht] at h; cases h
  · obtain ⟨k, hk⟩ : ∃ k, minerNext m (setup m events).miner.task = .accept k false :=
      miner_invariant (nextP := poolNext) (nextM := minerNext m)
        (fun a => a.left = true → ∃ k, minerNext m a.task = .accept k false) (fun _ _ _ h => h)
        (fun n fault a b => turn_left_at _ _ n fault a b) events ⟨{ task := .start }, { task := .start }⟩
        (fun h => by cases h) hl
    have ht : (setup m events).miner.task = .bound := by
      cases ht : (setup m events).miner.task <;> rw [ht] at hk
      case sending => rcases miner_sending m with ⟨w, _, he⟩ | he <;> rw [he] at hk <;> cases hk
      all_goals first | rfl | (exfalso; simp [minerNext] at hk; done)
    have hp := setup_miner m events
    unfold SetupMiner at hp
    rw [ht] at hp
    exact ⟨ht, hp⟩

theorem setup_append (m : SetupConnection) (es es' : List Event) :
    setup m (es ++ es') = (setup m es).run poolNext (minerNext m) es' := List.foldl_append

theorem setup_snoc (m : SetupConnection) (es : List Event) (e : Event) :
    setup m (es ++ [e]) = (setup m es).step poolNext (minerNext m) e := setup_append m es [e]

/-- And it is the end: a pool that waits in `accept` when this fails accepts nothing afterwards, whatever happens, and
nobody can connect to it any more; if that of the miner fails, the process is over. -/
theorem C88_setup_accept_fails (m : SetupConnection) (events : List Event) (n : Nat)
    (hs : (setup m events).ended (minerNext m) = false) :
    (((setup m events).pool.task = .bound ∧ (setup m events).pool.dead = false) → ∀ more,
      let s := setup m (events ++ .turn .pool n .fail :: more)
      s.pool.task = .bound ∧ s.pool.accepted = 0 ∧ s.pool.left = true ∧ s.pool.listens poolNext = false ∧
        ∀ c ∈ s.miner.inbox, c.ours = true → c.sent = []) ∧
    ((setup m events).miner.task = .bound → ∀ more,
      let s := setup m (events ++ .turn .miner n .fail :: more)
      s.pool = (setup m events).pool ∧ s.miner = { (setup m events).miner with left := true } ∧ s.ended (minerNext m) = true) := by
  refine ⟨fun ⟨ht, hd⟩ more => ?_, fun ht more => ?_⟩ <;> intro s
  · have e : s = ((setup m events).step poolNext (minerNext m) (.turn .pool n .fail)).run poolNext (minerNext m) more :=
      setup_append m events _
    have hI : s.pool.left = true := by
      rw [e]
      refine pool_invariant (fun a => a.left = true) (fun _ _ _ h => h) (fun n fault a b h => ?_) more _ ?_
      · unfold turn
        rw [if_pos (by rw [h]; cases a.dead <;> rfl)]
        exact h
      · unfold World.step turn
        rw [if_neg (by rw [hs]; exact Bool.false_ne_true)]
        cases hl : (setup m events).pool.left
        · simp [ht, hd, poolNext]
        · simp [hl]
    obtain ⟨h1, h2, h3⟩ := (C88_setup_accept m (events ++ .turn .pool n .fail :: more)).1 hI
    exact ⟨h1, h2, hI, by unfold Side.listens; rw [hI]; cases s.pool.bound <;> cases s.pool.dead <;> rfl, h3⟩
  · have hdl : (setup m events).miner.dead = false ∧ (setup m events).miner.left = false := by
      unfold World.ended at hs
      revert hs
      cases (setup m events).miner.dead <;> cases (setup m events).miner.left <;> simp
    have e1 : (setup m events).step poolNext (minerNext m) (.turn .miner n .fail) =
        ⟨(setup m events).pool, { (setup m events).miner with left := true }⟩ := by
      unfold World.step turn
      rw [if_neg (by rw [hs]; exact Bool.false_ne_true)]
      simp [ht, hdl.1, hdl.2, minerNext]
    have e : s = World.run poolNext (minerNext m) ⟨(setup m events).pool, { (setup m events).miner with left := true }⟩ more := by
      rw [← e1]
      exact setup_append m events _
    have hover : World.ended (minerNext m)
        (⟨(setup m events).pool, { (setup m events).miner with left := true }⟩ : World PoolAt MinerAt) = true := by
      unfold World.ended
      cases (setup m events).miner.dead <;> rfl
    rw [over_stays _ hover more] at e
    rw [e]
    exact ⟨rfl, rfl, hover⟩

/- The `accept` of the pool is about to fail, then that of the miner. -/
example (m : SetupConnection) (w : Bytes) (hw : minerSend m = .ok w) :
    let s := setup m [.turn .pool 0 .none, .turn .miner 0 .none, .turn .miner 0 .none]
    let t := setup m [.turn .pool 0 .none, .turn .miner 0 .none, .turn .miner 0 .none, .turn .pool 0 .fail, .turn .miner 0 .none]
    s.pool.task = .bound ∧ s.pool.dead = false ∧ s.ended (minerNext m) = false ∧ t.miner.task = .bound ∧
      t.ended (minerNext m) = false := by
  simp [setup, World.run, World.step, World.ended, turn, returned, Side.listens, Fault.part, finish, poolNext, minerNext, hw]

/-- A call that fails sends and reads nothing.  If it is `bind`, `connect` or `try_write`, its task panics: what the pool had
to say is never said, and with the miner the process ends. -/
theorem C88_setup_fails (m : SetupConnection) (events : List Event) (who : Role) (n : Nat) :
    let s := setup m events
    let s' := setup m (events ++ [.turn who n .fail])
    s'.pool.task = s.pool.task ∧ s'.miner.task = s.miner.task ∧ s'.pool.accepted = s.pool.accepted ∧
    s'.miner.accepted = s.miner.accepted ∧ s'.pool.inbox.map (·.sent) = s.pool.inbox.map (·.sent) ∧
    s'.miner.inbox.map (·.sent) = s.miner.inbox.map (·.sent) ∧
    (s.ended (minerNext m) = false → who = .pool →
      (s.pool.task = .start ∨ ∃ reply, s.pool.task = .replying reply ∨ s.pool.task = .writing reply) →
      ∀ more, (setup m (events ++ .turn who n .fail :: more)).pool.task = s.pool.task ∧
        (setup m (events ++ .turn who n .fail :: more)).pool.dead = true) ∧
    (who = .miner → (s.miner.task = .start ∨ s.miner.task = .sending ∨ s.miner.task = .sent) →
      ∀ more, setup m (events ++ .turn who n .fail :: more) = s' ∧ s'.ended (minerNext m) = true) := by
  intro s s'
  have e : s' = s.step poolNext (minerNext m) (.turn who n .fail) := setup_snoc m events _
  have em : ∀ more, setup m (events ++ .turn who n .fail :: more) = s'.run poolNext (minerNext m) more := fun more => by
    rw [e]
    exact setup_append m events _
  obtain ⟨h1, h2, h3, h4, h5, h6, h7, h8⟩ := step_fail poolNext (minerNext m) s who n
  rw [← e] at h1 h2 h3 h4 h5 h6 h7 h8
  refine ⟨h1, h2, h3, h4, h5, h6, fun he hw ht more => ?_, fun hw ht more => ?_⟩
  · have hl : s'.pool.left = false := by
      cases hl : s'.pool.left with
      | false => rfl
      | true =>
        have := ((C88_setup_accept m (events ++ [.turn who n .fail])).1 hl).1
        rw [show (setup m (events ++ [.turn who n .fail])).pool.task = s.pool.task from h1] at this
        rcases ht with h | ⟨_, h | h⟩ <;> rw [h] at this <;> cases this
    have hd : s'.pool.dead = true := by
      cases hd : s'.pool.dead with
      | true => rfl
      | false =>
        exfalso
        rcases h7 he hw hd hl with ⟨k, a, h⟩ | ⟨k, h⟩ | h <;> rcases ht with ht | ⟨_, ht | ht⟩ <;> rw [ht] at h <;> cases h
    have := gone_stays (nextP := poolNext) (nextM := minerNext m) _ _ _ _ (.inl rfl) more s' ⟨h1, rfl, hd, rfl⟩
    rw [em]
    exact ⟨this.1, this.2.2.1⟩
  · have ho : s'.ended (minerNext m) = true := by
      cases ho : s'.ended (minerNext m) with
      | true => rfl
      | false =>
        exfalso
        rcases h8 hw ho with ⟨k, a, h⟩ | ⟨k, h⟩ <;> rcases ht with ht | ht | ht <;> rw [ht] at h
        all_goals first
          | (cases h; done)
          | (rcases miner_sending m with ⟨w, _, he⟩ | he <;> rw [he] at h <;> cases h)
    rw [em]
    exact ⟨over_stays _ ho more, ho⟩

/- The `try_write` of the miner fails. -/
example (m : SetupConnection) (w : Bytes) (hw : minerSend m = .ok w) :
    let s := setup m [.turn .pool 0 .none, .turn .miner 0 .none]
    s.ended (minerNext m) = false ∧ s.miner.task = .sending ∧
      (setup m [.turn .pool 0 .none, .turn .miner 0 .none, .turn .miner 0 .fail]).pool.inbox = [⟨[], true, true⟩] := by
  simp [setup, World.run, World.step, World.ended, turn, returned, Side.listens, finish, poolNext, minerNext, hw]

/-- Anybody on the machine can answer instead of the pool: for all flags there are events after which the miner has
printed them, has returned, and the pool has accepted nothing and written nothing. -/
theorem C88_setup_spoofed (m : SetupConnection) (w : Bytes) (hw : minerSend m = .ok w)
    (f : Flags miningSuccessFlags) : ∃ events,
    (setup m events).miner.task = .finished (some f) ∧ (setup m events).miner.dead = false ∧
    (setup m events).pool.accepted = 0 ∧ ∀ c ∈ (setup m events).miner.inbox, c.ours = false := by
  have hf := success_handled ⟨2, f⟩
  have hlen : (Wire.frame ⟨.setupConnectionSuccess, Wire.setupConnectionSuccess ⟨2, f⟩⟩).length = 12 := by
    rw [wire_frame_length, size_setupSuccess]
  generalize Wire.frame ⟨.setupConnectionSuccess, Wire.setupConnectionSuccess ⟨2, f⟩⟩ = reply at hf hlen
  have he : reply ≠ [] := by rintro rfl; cases hlen
  have ht : reply.take 1024 = reply := List.take_of_length_le (by omega)
  have e1 : setup m [.turn .pool 0 .none, .turn .miner 0 .none, .turn .miner 0 .none, .turn .miner 0 .none,
      .connect .miner, .write .miner 0 reply, .turn .miner 0 .none] =
      ⟨{ task := .bound, bound := true, inbox := [⟨w, true, true⟩] },
       { task := .reading, bound := true, inbox := [⟨reply, false, false⟩], accepted := 1 }⟩ := by
    simp [setup, World.run, World.step, World.ended, turn, returned, Side.listens, Side.stranger, Fault.part, arrive, inject, finish,
      poolNext, minerNext, hw]
  refine ⟨[.turn .pool 0 .none, .turn .miner 0 .none, .turn .miner 0 .none, .turn .miner 0 .none, .connect .miner,
    .write .miner 0 reply, .turn .miner 0 .none] ++ [.turn .miner 1023 .none], ?_⟩
  rw [setup_snoc, e1]
  simp [World.step, World.ended, turn, returned, miner_reading, he, ht, hf, minerThen]

/-- Whoever connects to the pool first is the one it serves: for every request `r` that the pool answers there are events
in which a stranger sends `r`, the pool answers that, and the miner prints the answer as the one to its own request, which
nobody has read. -/
theorem C88_setup_displaced (m : SetupConnection) (w : Bytes) (hw : minerSend m = .ok w) (r reply : Bytes)
    (hr : poolHandle (tryRead freshBuffer r) = .ok (some reply)) (hr0 : r ≠ []) (hr1 : r.length ≤ 1024)
    (hp0 : reply ≠ []) (hp1 : reply.length ≤ 1024) (printed : Option (Flags miningSuccessFlags))
    (hp : minerHandle (tryRead freshBuffer reply) = .ok printed) : ∃ events,
    (setup m events).miner.task = .finished printed ∧ (setup m events).pool.task = .finished ∧
    (setup m events).pool.inbox = [⟨r, false, false⟩, ⟨w, true, true⟩] ∧ (setup m events).pool.accepted = 1 ∧
    (setup m events).miner.inbox = [⟨reply, true, true⟩] := by
  have t1 : r.take 1024 = r := List.take_of_length_le (by omega)
  have t2 : reply.take 1024 = reply := List.take_of_length_le (by omega)
  have e1 : setup m [.turn .pool 0 .none, .connect .pool, .write .pool 0 r, .turn .miner 0 .none, .turn .miner 0 .none,
      .turn .miner 0 .none, .turn .pool 0 .none] =
      ⟨{ task := .reading, bound := true, inbox := [⟨r, false, false⟩, ⟨w, true, true⟩], accepted := 1 },
       { task := .bound, bound := true }⟩ := by
    simp [setup, World.run, World.step, World.ended, turn, returned, Side.listens, Side.stranger, Fault.part, arrive, inject, finish,
      poolNext, minerNext, hw, List.modify_cons]
  have e2 : setup m ([.turn .pool 0 .none, .connect .pool, .write .pool 0 r, .turn .miner 0 .none, .turn .miner 0 .none,
      .turn .miner 0 .none, .turn .pool 0 .none] ++ [.turn .pool 1023 .none]) =
      ⟨{ task := .replying reply, bound := true, inbox := [⟨r, false, false⟩, ⟨w, true, true⟩], accepted := 1 },
       { task := .bound, bound := true }⟩ := by
    rw [setup_snoc, e1]
    simp [World.step, World.ended, turn, returned, pool_reading, minerNext, hr0, t1, hr, poolThen]
  have e3 : setup m (([.turn .pool 0 .none, .connect .pool, .write .pool 0 r, .turn .miner 0 .none, .turn .miner 0 .none,
      .turn .miner 0 .none, .turn .pool 0 .none] ++ [.turn .pool 1023 .none]) ++
      [.turn .pool 0 .none, .turn .pool 0 .none, .turn .miner 0 .none]) =
      ⟨{ task := .finished, bound := true, inbox := [⟨r, false, false⟩, ⟨w, true, true⟩], accepted := 1 },
       { task := .reading, bound := true, inbox := [⟨reply, true, true⟩], accepted := 1 }⟩ := by
    rw [setup_append, e2]
    simp [World.run, World.step, World.ended, turn, returned, Side.listens, Fault.part, poolNext, minerNext, finish]
  refine ⟨(([.turn .pool 0 .none, .connect .pool, .write .pool 0 r, .turn .miner 0 .none, .turn .miner 0 .none,
      .turn .miner 0 .none, .turn .pool 0 .none] ++ [.turn .pool 1023 .none]) ++
      [.turn .pool 0 .none, .turn .pool 0 .none, .turn .miner 0 .none]) ++ [.turn .miner 1023 .none], ?_⟩
  rw [setup_snoc, e3]
  simp [World.step, World.ended, turn, returned, miner_reading, hp0, t2, hp, minerThen]

/- The request of the example itself; a stranger sends the same one. -/
example : ∃ m w reply, exampleSetup = .ok m ∧ minerSend m = .ok w ∧
    poolHandle (tryRead freshBuffer w) = .ok (some reply) ∧ w ≠ [] ∧ w.length ≤ 1024 ∧ reply ≠ [] ∧
    reply.length ≤ 1024 ∧ minerHandle (tryRead freshBuffer reply) = .ok (some ⟨1, by decide⟩) := by
  obtain ⟨m, w, hm, hw, hl⟩ : ∃ m w, exampleSetup = .ok m ∧ minerSend m = .ok w ∧ w.length ≤ 1024 :=
    ⟨_, _, rfl, rfl, by decide⟩
  have h := SetupRun.honest hm hw hl
  exact ⟨m, w, _, hm, hw, h.pool, h.w_ne, hl, h.reply_ne, h.reply_le, h.miner⟩

/- The `accept` of the pool fails; so does that of the miner, afterwards.  The request is left lying. -/
example (m : SetupConnection) (w : Bytes) (hw : minerSend m = .ok w) :
    let s := setup m [.turn .pool 0 .none, .turn .miner 0 .none, .turn .miner 0 .none, .turn .pool 0 .fail, .turn .pool 0 .none,
      .turn .miner 0 .none, .turn .miner 0 .fail]
    s.pool.left = true ∧ s.miner.left = true ∧ s.pool.inbox = [⟨w, true, true⟩] := by
  simp [setup, World.run, World.step, World.ended, turn, returned, Side.listens, Fault.part, finish, poolNext, minerNext, hw]

/- A stranger that connects to the pool first and waits. -/
example (m : SetupConnection) : (setup m [.turn .pool 0 .none, .connect .pool, .turn .pool 0 .none, .turn .pool 0 .none,
    .turn .miner 0 .none]).pool.inbox[0]? = some ⟨[], false, false⟩ := by
  simp [setup, World.run, World.step, World.ended, turn, returned, Side.listens, Side.stranger, arrive, poolNext, minerNext]

end Setup

/-! ## noise_handshake -/

section Handshake
open Examples.Handshake Noise
variable (P : Prims) (E : SigScheme) (clock : Nat → SystemTime)

/-- The loop of `Miner::listen` seen from its end: what has been read, and the miner, its buffer and what is printed
after that. -/
inductive Reached (m0 : Miner) : List (SystemTime × Bytes) → Miner → Bytes → List Bool → Prop
  | start : Reached m0 [] m0 freshBuffer []
  | more {arrivals : List (SystemTime × Bytes)} {m m' : Miner} {b b' : Bytes} {printed : List Bool}
      {v : Option Bool} {a : Bytes} : Reached m0 arrivals m b printed →
      m.handle P E (clock printed.length) (tryRead b a) = .ok (m', b', v) →
      Reached m0 (arrivals ++ [(clock printed.length, a)]) m' b' (printed ++ v.toList)

variable {P E clock}

theorem Reached.listen {m0 m : Miner} {b : Bytes} {arrivals : List (SystemTime × Bytes)} {printed : List Bool}
    (h : Reached P E clock m0 arrivals m b printed) : ∀ rest,
    Miner.listen P E m0 freshBuffer (arrivals ++ rest) =
      (printed ++ (Miner.listen P E m b rest).1, (Miner.listen P E m b rest).2) := by
  induction h with
  | start => exact fun rest => rfl
  | @more arrivals m m' b b' printed v a _ hh ih =>
    intro rest
    rw [List.append_assoc, ih]
    show (_ ++ (Miner.listen P E m b ((clock printed.length, a) :: rest)).1,
      (Miner.listen P E m b ((clock printed.length, a) :: rest)).2) = _
    rw [Miner.listen, hh]
    simp only [List.append_assoc]

/-- These arrivals were read from the first `n` connections, in turn. -/
def Came (cs : List Conn) (n : Nat) (arrivals : List (SystemTime × Bytes)) : Prop :=
  arrivals.length = n ∧ ∀ (j : Nat) (t : SystemTime) (a : Bytes), arrivals[j]? = some (t, a) → ReadFrom cs j a

theorem Came.grew {cs cs' : List Conn} {n : Nat} {arrivals : List (SystemTime × Bytes)} (hg : Grew cs cs')
    (h : Came cs n arrivals) : Came cs' n arrivals := ⟨h.1, fun j t a ha => (h.2 j t a ha).grew hg⟩

theorem Came.more {cs : List Conn} {n : Nat} {arrivals : List (SystemTime × Bytes)} {t : SystemTime} {a : Bytes}
    (h : Came cs n arrivals) (hr : ReadFrom cs n a) : Came cs (n + 1) (arrivals ++ [(t, a)]) := by
  refine ⟨by rw [List.length_append, h.1]; rfl, fun j t' a' ha => ?_⟩
  rcases Nat.lt_trichotomy j arrivals.length with hj | hj | hj
  · rw [List.getElem?_append_left hj] at ha
    exact h.2 j t' a' ha
  · rw [List.getElem?_append_right (by omega), show j - arrivals.length = 0 by omega] at ha
    cases ha
    rw [hj, h.1]
    exact hr
  · rw [List.getElem?_eq_none (by rw [List.length_append]; simp; omega)] at ha
    cases ha

variable (P E clock) in
/-- What the miner knows. -/
def ShakeMiner (rnd : Keypair) (m0 : Miner) (a : Side MinerAt) : Prop :=
  match a.task with
  | .start => a.accepted = 0
  | .sending => a.accepted = 0
  | .sent m => a.accepted = 0 ∧ ∃ i1 w1, send P rnd m0.noise_session freshBuffer = .ok (i1, w1) ∧
      m = { m0 with noise_session := i1 }
  | .listening m b printed => ∃ i1 w1 arrivals, send P rnd m0.noise_session freshBuffer = .ok (i1, w1) ∧
      Came a.inbox a.accepted arrivals ∧ Reached P E clock { m0 with noise_session := i1 } arrivals m b printed
  | .reading m b printed => ∃ i1 w1 arrivals n, send P rnd m0.noise_session freshBuffer = .ok (i1, w1) ∧
      a.accepted = n + 1 ∧ Came a.inbox n arrivals ∧
      Reached P E clock { m0 with noise_session := i1 } arrivals m b printed
  | .panicking printed => ∃ i1 w1 arrivals n m b, send P rnd m0.noise_session freshBuffer = .ok (i1, w1) ∧
      a.accepted = n + 1 ∧ Came a.inbox n arrivals ∧
      Reached P E clock { m0 with noise_session := i1 } arrivals m b printed

theorem ShakeMiner.grew {rnd : Keypair} {m0 : Miner} (a : Side MinerAt) (cs : List Conn) (hg : Grew a.inbox cs)
    (h : ShakeMiner P E clock rnd m0 a) : ShakeMiner P E clock rnd m0 { a with inbox := cs } := by
  unfold ShakeMiner at h ⊢
  cases ht : a.task <;> rw [ht] at h <;> simp only at h ⊢
  case listening =>
    obtain ⟨i1, w1, arrivals, h1, h2, h3⟩ := h
    exact ⟨i1, w1, arrivals, h1, h2.grew hg, h3⟩
  case reading =>
    obtain ⟨i1, w1, arrivals, n, h1, h2, h3, h4⟩ := h
    exact ⟨i1, w1, arrivals, n, h1, h2, h3.grew hg, h4⟩
  case panicking =>
    obtain ⟨i1, w1, arrivals, n, m, b, h1, h2, h3, h4⟩ := h
    exact ⟨i1, w1, arrivals, n, m, b, h1, h2, h3.grew hg, h4⟩
  all_goals exact h

/-- Where the miner is when it has handled what it read. -/
def shakeThen (printed : List Bool) : Out Empty (Miner × Bytes × Option Bool) → MinerAt
  | .ok (m, buffer, verdict) => .listening m buffer (printed ++ verdict.toList)
  | _ => .panicking printed

theorem shake_reading (rnd : Keypair) (m0 m : Miner) (b : Bytes) (printed : List Bool) :
    minerNext P E rnd clock m0 (.reading m b printed) =
      .read fun arrived => shakeThen printed (m.handle P E (clock printed.length) (tryRead b arrived)) := by
  simp only [minerNext]
  refine congrArg Req.read (funext fun arrived => ?_)
  unfold shakeThen
  rfl

theorem shake_sending (rnd : Keypair) (m0 : Miner) :
    (∃ i1 w1, send P rnd m0.noise_session freshBuffer = .ok (i1, w1) ∧
      minerNext P E rnd clock m0 .sending = .write w1 (.sent { m0 with noise_session := i1 })) ∨
    minerNext P E rnd clock m0 .sending = .panic := by
  simp only [minerNext]
  generalize send P rnd m0.noise_session freshBuffer = r
  cases r with
  | ok r => obtain ⟨i1, w1⟩ := r; exact .inl ⟨i1, w1, rfl, rfl⟩
  | err e => cases e
  | panic => exact .inr rfl

theorem ShakeMiner.turn {rnd : Keypair} {m0 : Miner} {nextP : σ → Req σ} (n : Nat) (fault : Fault) (a : Side MinerAt)
    (b : Side σ) (h : ShakeMiner P E clock rnd m0 a) :
    ShakeMiner P E clock rnd m0 (Open.turn (minerNext P E rnd clock m0) nextP n fault a b).1 := by
  obtain ⟨hin, hc⟩ := turn_own (nextP := minerNext P E rnd clock m0) (nextM := nextP) n fault a b
  generalize (Open.turn (minerNext P E rnd clock m0) nextP n fault a b).1 = a' at hin hc
  obtain ⟨task, dead, bound, inbox, accepted, mine, left⟩ := a
  obtain ⟨task', dead', bound', inbox', accepted', mine', left'⟩ := a'
  simp only at hin hc
  subst hin
  have hs := shake_sending (P := P) (E := E) (clock := clock) rnd m0
  rcases hc with ⟨rfl, rfl⟩ | ⟨k, hk, rfl, rfl⟩ | ⟨k, hk, rfl, rfl⟩ | ⟨bytes, k, hk, rfl, rfl⟩ | ⟨k, _, hk, rfl, rfl⟩ |
    ⟨k, arrived, hk, rfl, rfl, hr⟩
  · exact h
  all_goals cases task
  all_goals first
    | (exfalso; rcases hs with ⟨_, _, _, he⟩ | he <;> rw [he] at hk <;> cases hk; done)
    | (exfalso; simp [minerNext] at hk; done)
    | skip
  · cases hk
    obtain ⟨h0, i1, w1, h1, rfl⟩ := h
    exact ⟨i1, w1, [], h1, ⟨h0.symm, fun j t a ha => by simp at ha⟩, .start⟩
  · cases hk; exact h
  · rcases hs with ⟨i1, w1, h1, he⟩ | he
    · rw [he] at hk
      cases hk
      exact ⟨h, i1, _, h1, rfl⟩
    · rw [he] at hk
      cases hk
  · cases hk
    obtain ⟨i1, w1, arrivals, h1, h2, h3⟩ := h
    exact ⟨i1, w1, arrivals, accepted, h1, rfl, h2, h3⟩
  · rename_i m buf printed
    have hk := Req.read.inj ((shake_reading rnd m0 m buf printed).symm.trans hk)
    subst hk
    obtain ⟨i1, w1, arrivals, j, h1, h2, h3, h4⟩ := h
    simp only at h2
    subst h2
    show ShakeMiner P E clock rnd m0 ⟨shakeThen printed (m.handle P E (clock printed.length) (tryRead buf arrived)),
      dead', bound', inbox', j + 1, mine', left'⟩
    cases hp : m.handle P E (clock printed.length) (tryRead buf arrived) with
    | ok o =>
      obtain ⟨m', b', v⟩ := o
      exact ⟨i1, w1, arrivals ++ [(clock printed.length, arrived)], h1, h3.more hr, h4.more hp⟩
    | err e => cases e
    | panic => exact ⟨i1, w1, arrivals, j, m, buf, h1, rfl, h3, h4⟩

theorem shake_miner (rndP rndM : Keypair) (now1 now2 : SystemTime) (p : Pool E) (m : Miner) (events : List Event) :
    ShakeMiner P E clock rndM m (handshake P rndP rndM now1 now2 clock p m events).miner :=
  miner_invariant _ ShakeMiner.grew (fun n fault a b => ShakeMiner.turn n fault a b) events _
    (show ShakeMiner P E clock rndM m { task := .start } from rfl)

/-- A failing `accept` does not end the loop of the miner. -/
theorem shake_miner_left (rndP rndM : Keypair) (now1 now2 : SystemTime) (p : Pool E) (m : Miner) (events : List Event) :
    (handshake P rndP rndM now1 now2 clock p m events).miner.left = false := by
  refine miner_invariant (fun a => a.left = false) (fun _ _ _ h => h) (fun n fault a b h => ?_) events _ rfl
  rcases turn_left (minerNext P E rndM clock m) (poolNext P rndP now1 now2 p) n fault a b with h' | ⟨_, k, hk⟩
  · exact h'.trans h
  · exfalso
    cases ht : a.task <;> rw [ht] at hk
    case sending =>
      rcases shake_sending rndM m with ⟨i1, w1, h1, he⟩ | he <;> rw [he] at hk <;> cases hk
    all_goals simp [minerNext] at hk

theorem first_session {rnd sI : Keypair} {text : String} {i1 : NoiseSession} {w1 : Bytes}
    (h1 : send P rnd (Miner.new P sI text).noise_session freshBuffer = .ok (i1, w1)) :
    i1.isTransport = false ∧ i1.mc = 1 := by
  have hb := NoiseSession.send_basic (P := P) rnd (NoiseSession.initSession P true [] sI) freshBuffer
  have h1 : send P rnd (NoiseSession.initSession P true [] sI) freshBuffer = .ok (i1, w1) := h1
  unfold send at h1
  split at h1
  · rename_i heq
    cases h1
    rw [heq] at hb
    exact ⟨hb.transport, hb.mc⟩
  · cases h1

theorem first_transport {rnd sI : Keypair} {text : String} {i1 : NoiseSession} {w1 : Bytes}
    (h1 : send P rnd (Miner.new P sI text).noise_session freshBuffer = .ok (i1, w1)) : i1.isTransport = false :=
  (first_session h1).1

theorem recv_transport {s s' : NoiseSession} {b b' : Bytes} (h : recv P s b = .ok (s', b')) :
    s'.isTransport = (s.isTransport || s.mc == 1) := by
  have hb := NoiseSession.recv_basic (P := P) s b
  unfold recv at h
  split at h
  · rename_i heq
    cases h
    rw [heq] at hb
    simpa [Out.isOk, NoiseSession.isTransport] using hb.transport
  · cases h

/-- The miner prints a verdict for every connection but the first, and takes the time of the verdict. -/
theorem Reached.times {m0 m : Miner} {b : Bytes} {arrivals : List (SystemTime × Bytes)} {printed : List Bool}
    (h : Reached P E clock m0 arrivals m b printed) (h0 : m0.noise_session.isTransport = false)
    (h1 : m0.noise_session.mc = 1) :
    (arrivals = [] ∧ m = m0 ∧ printed = []) ∨
    (m.noise_session.isTransport = true ∧ printed.length + 1 = arrivals.length ∧
      ∀ j t a, arrivals[j + 1]? = some (t, a) → t = clock j) := by
  induction h with
  | start => exact .inl ⟨rfl, rfl, rfl⟩
  | @more arrivals m m' b b' printed v a _ hh ih =>
    right
    unfold Miner.handle at hh
    rcases ih with ⟨rfl, rfl, rfl⟩ | ⟨i1, i2, i3⟩
    · rw [h0] at hh
      simp only [Bool.false_eq_true, if_false] at hh
      obtain ⟨⟨s, b⟩, hr, hh⟩ := Out.bind_eq_ok hh
      cases hh
      refine ⟨?_, by simp, by simp⟩
      rw [recv_transport hr, h1]
      simp
    · rw [i1] at hh
      simp only [if_true] at hh
      obtain ⟨⟨s, b⟩, hr, hh⟩ := Out.bind_eq_ok hh
      obtain ⟨msg, _, hh⟩ := Out.bind_eq_ok hh
      obtain ⟨key, _, hh⟩ := Out.bind_eq_ok hh
      obtain ⟨cf, _, hh⟩ := Out.bind_eq_ok hh
      cases hh
      refine ⟨by rw [recv_transport hr, i1]; rfl, by simp; omega, fun j t a ha => ?_⟩
      rcases Nat.lt_trichotomy (j + 1) arrivals.length with hj | hj | hj
      · rw [List.getElem?_append_left hj] at ha
        exact i3 j t a ha
      · rw [List.getElem?_append_right (by omega), show j + 1 - arrivals.length = 0 by omega] at ha
        cases ha
        rw [show printed.length = j by omega]
      · rw [List.getElem?_eq_none (by rw [List.length_append]; simp; omega)] at ha
        cases ha

/-- What the miner has printed comes from the connections made to it, in turn. -/
theorem shake_printed (rndP rndM : Keypair) (now1 now2 : SystemTime) (p : Pool E) (m : Miner) (events : List Event)
    (v : Bool) (hv : v ∈ (handshake P rndP rndM now1 now2 clock p m events).miner.task.printed) :
    ∃ i1 w1 arrivals n m' b printed, send P rndM m.noise_session freshBuffer = .ok (i1, w1) ∧
      Came (handshake P rndP rndM now1 now2 clock p m events).miner.inbox n arrivals ∧
      Reached P E clock { m with noise_session := i1 } arrivals m' b printed ∧
      v ∈ (Miner.listen P E { m with noise_session := i1 } freshBuffer arrivals).1 := by
  have h := shake_miner (P := P) (clock := clock) rndP rndM now1 now2 p m events
  generalize handshake P rndP rndM now1 now2 clock p m events = s at h hv
  have key : ∀ i1 arrivals m' b, Reached P E clock { m with noise_session := i1 } arrivals m' b s.miner.task.printed →
      v ∈ (Miner.listen P E { m with noise_session := i1 } freshBuffer arrivals).1 := by
    intro i1 arrivals m' b hr
    have := hr.listen []
    rw [List.append_nil] at this
    rw [this]
    exact List.mem_append_left _ hv
  unfold ShakeMiner at h
  cases ht : s.miner.task <;> rw [ht] at h hv key
  case listening =>
    obtain ⟨i1, w1, arrivals, h1, h2, h3⟩ := h
    exact ⟨i1, w1, arrivals, _, _, _, _, h1, h2, h3, key _ _ _ _ h3⟩
  case reading =>
    obtain ⟨i1, w1, arrivals, n, h1, _, h2, h3⟩ := h
    exact ⟨i1, w1, arrivals, _, _, _, _, h1, h2, h3, key _ _ _ _ h3⟩
  case panicking =>
    obtain ⟨i1, w1, arrivals, n, m', b, h1, _, h2, h3⟩ := h
    exact ⟨i1, w1, arrivals, _, _, _, _, h1, h2, h3, key _ _ _ _ h3⟩
  all_goals cases hv

/-- What a printed `true` means when strangers connect to both listeners and write what they like: connection number 0
to the miner carried a second handshake message from somebody with a static key `rs`; a later one, number `j + 1`, carried
a message that was encrypted under the transport key that requires the shared secrets with `rs`, with nonce `j`, and holds
a signed message that is not expired when verdict number `j` is printed; and the authority issued that certificate for
`rs`, or its signature was forged. -/
theorem C88_handshake_authenticated (hA : AeadCorrect P) (hT : AeadTight P) (issued : List SignedCertificate)
    (signed : List Bytes) (hsigned : ∀ b, b ∈ signed ↔ ∃ c ∈ issued, serialize c = .ok b) (text : String)
    (sI : Keypair) (eI : Arr 32) (rndP : Keypair) (now1 now2 : SystemTime) (clock : Nat → SystemTime) (p : Pool E)
    (events : List Event)
    (htrue : true ∈ (handshake P rndP (Keypair.default P eI) now1 now2 clock p (Miner.new P sI text)
      events).miner.task.printed) :
    ∃ i1 w1, send P (Keypair.default P eI) (Miner.new P sI text).noise_session freshBuffer = .ok (i1, w1) ∧
    ∃ (cs : List Conn) (c1 : Conn) (a1 : Bytes), cs = (handshake P rndP (Keypair.default P eI) now1 now2 clock p
        (Miner.new P sI text) events).miner.inbox ∧ cs[0]? = some c1 ∧ a1 <+: c1.sent ∧
    ∃ b1 er rs payload encS, Holds b1 a1 ∧
      encS = NX.encryptedStatic P [] (w1.take 32) (w1.drop 32) er.toList (P.dh eI er) rs.toList ∧
      b1 = er.toList ++ encS ++ NX.encryptedPayload P [] (w1.take 32) (w1.drop 32) er.toList encS
        (P.dh eI er) (P.dh eI rs) payload ∧
      ∃ (j : Nat) (c2 : Conn) (a c : Bytes), ∃ mac pl, ∃ msg : SignatureNoiseMessage E,
        cs[j + 1]? = some c2 ∧ a <+: c2.sent ∧ Holds (c ++ mac.toList) a ∧
        P.aeadOpen (NX.transportKeys P (P.dh eI er) (P.dh eI rs)).2 (NX.nonce j) [] c mac = some pl ∧
        pl.take 74 = Wire.signatureNoiseMessage msg ∧
        0 ≤ (clock j).nanos ∧ (clock j).seconds % 2 ^ 32 < (msg.not_valid_after.toNat : Int) ∧
        ((⟨msg.version, msg.valid_from, msg.not_valid_after, rs⟩ : SignedCertificate) ∈ issued ∨
          ∃ pk, E.base58 text = some pk.toList ∧ Forges E pk signed
            (Wire.certBytes msg.version msg.valid_from msg.not_valid_after rs) msg.signature.bytes) := by
  obtain ⟨i1, w1, arrivals, n, m', b', printed, h1, hcame, hreach, hmem⟩ := shake_printed rndP _ now1 now2 p _ events true htrue
  obtain ⟨t1, a1, rest, b1, er, rs, payload, encS, rfl, g1, g2, g3, j, now, a, c, mac, pl, msg, g4, g5⟩ :=
    C58_authenticated P E hA hT issued signed hsigned text sI eI i1 w1 arrivals h1 hmem
  obtain ⟨c1, k1, k2, _⟩ := hcame.2 0 t1 a1 rfl
  obtain ⟨c2, k3, k4, _⟩ := hcame.2 (j + 1) now a (by rw [List.getElem?_cons_succ]; exact g4)
  have hnow : now = clock j := by
    rcases hreach.times (first_session h1).1 (first_session h1).2 with ⟨h, _⟩ | ⟨_, _, h⟩
    · cases h
    · exact h j now a (by rw [List.getElem?_cons_succ]; exact g4)
  subst hnow
  exact ⟨i1, w1, h1, _, c1, a1, rfl, k1, k2, b1, er, rs, payload, encS, g1, g2, g3, j, c2, a, c, mac, pl, msg, k3, k4, g5⟩

/-- Where the pool is when it has read. -/
def poolShakeThen : Out Empty (NoiseSession × Bytes) → PoolAt
  | .ok (session, buffer) => .received session buffer
  | _ => .panicking

theorem pool_shake_reading (rnd : Keypair) (now1 now2 : SystemTime) (p : Pool E) :
    poolNext P rnd now1 now2 p .reading =
      .read fun arrived => poolShakeThen (recv P p.noise_session (tryRead freshBuffer arrived)) := by
  simp only [poolNext]
  refine congrArg Req.read (funext fun arrived => ?_)
  generalize tryRead freshBuffer arrived = b
  unfold poolShakeThen
  rfl

/-- The states with a stream to write to. -/
def poolShakeHolds : PoolAt → Bool
  | .connected1 _ _ => true
  | .connected2 _ _ => true
  | _ => false

def minerShakeHolds : MinerAt → Bool
  | .sending => true
  | _ => false

theorem poolShakeThen_holds (r : Out Empty (NoiseSession × Bytes)) : poolShakeHolds (poolShakeThen r) = false := by
  unfold poolShakeThen
  split <;> rfl

theorem shakeThen_holds (printed : List Bool) (r : Out Empty (Miner × Bytes × Option Bool)) :
    minerShakeHolds (shakeThen printed r) = false ∧ shakeThen printed r ≠ .start := by
  unfold shakeThen
  split <;> exact ⟨rfl, fun h => by cases h⟩

/-- Without strangers, and if no call fails that can succeed, this is the program of C81. -/
theorem C88_handshake_alone (rndP rndM : Keypair) (now1 now2 : SystemTime) (clock : Nat → SystemTime) (p : Pool E)
    (m : Miner) (schedule : List (Role × Nat)) :
    (handshake P rndP rndM now1 now2 clock p m (schedule.map fun t => .turn t.1 t.2 .none)).forget =
      after P rndP rndM now1 now2 clock p m schedule := by
  have hs := shake_sending (P := P) (E := E) (clock := clock) rndM m
  refine run_forget (holdsP := poolShakeHolds) (holdsM := minerShakeHolds) ?_ ?_ (fun t => t = .start ∨ t = .bound) ?_ ?_ schedule _ rfl rfl
    (.inl ⟨rfl, fun _ hc => (by cases hc), fun _ => rfl⟩)
    (.inl ⟨rfl, fun _ hc => (by cases hc), fun _ => rfl⟩) (fun _ => ⟨rfl, rfl, .inl rfl⟩)
  · intro t
    cases t
    case reading =>
      rw [pool_shake_reading]
      exact ⟨rfl, fun b => poolShakeThen_holds _⟩
    case connected1 s b =>
      simp only [poolNext]
      generalize send P rndP s b = r
      cases r with
      | ok r => exact ⟨rfl, rfl⟩
      | err e => cases e
      | panic => trivial
    case connected2 s b =>
      simp only [poolNext]
      generalize send P rndP s b = r
      cases r with
      | ok r => exact ⟨rfl, rfl⟩
      | err e => cases e
      | panic => trivial
    case sent1 s =>
      simp only [poolNext]
      generalize p.certify now1 now2 = r
      cases r with
      | ok r => exact ⟨rfl, rfl⟩
      | err e => cases e
      | panic => trivial
    all_goals simp [poolNext, poolShakeHolds]
  · intro t
    cases t
    case reading m' b' printed =>
      rw [shake_reading]
      exact ⟨rfl, fun b => (shakeThen_holds _ _).1⟩
    case sending =>
      generalize minerNext P E rndM clock m .sending = r at hs ⊢
      rcases hs with ⟨i1, w1, h1, he⟩ | he <;> rw [he] <;> simp [minerShakeHolds]
    all_goals simp [minerNext, minerShakeHolds]
  · rintro t (rfl | rfl)
    · exact .inl ⟨_, rfl, .inr rfl⟩
    · exact .inr ⟨_, _, rfl⟩
  · have hc : ∀ t, (∃ k, minerNext P E rndM clock m t = .connect k) → t = .start := by
      rintro t ⟨k, hk⟩
      cases t
      case start => rfl
      case sending => rcases hs with ⟨i1, w1, h1, he⟩ | he <;> rw [he] at hk <;> cases hk
      all_goals simp [minerNext] at hk
    intro t
    cases t
    case reading m' b' printed =>
      rw [shake_reading]
      exact fun b h => (shakeThen_holds _ _).2 (hc _ h)
    case sending =>
      generalize minerNext P E rndM clock m .sending = r at hs ⊢
      rcases hs with ⟨i1, w1, h1, he⟩ | he <;> rw [he]
      · intro h; cases hc _ h
      · trivial
    case start => intro h; cases hc _ h
    case sent m' => simp only [minerNext]; rintro ⟨k, hk⟩; cases hk
    case listening => intro h; cases hc _ h
    case panicking => trivial

theorem Reached.printed_le {m0 m : Miner} {b : Bytes} {arrivals : List (SystemTime × Bytes)} {printed : List Bool}
    (h : Reached P E clock m0 arrivals m b printed) (h0 : m0.noise_session.isTransport = false) :
    (arrivals = [] ∧ m = m0 ∧ b = freshBuffer ∧ printed = []) ∨ printed.length + 1 ≤ arrivals.length := by
  induction h with
  | start => exact .inl ⟨rfl, rfl, rfl, rfl⟩
  | @more arrivals m m' b b' printed v a _ hh ih =>
    right
    rw [List.length_append, List.length_append]
    rcases ih with ⟨rfl, rfl, rfl, rfl⟩ | ih
    · have hv : v = none := by
        unfold Miner.handle at hh
        rw [h0] at hh
        simp only [Bool.false_eq_true, if_false] at hh
        obtain ⟨⟨s, b⟩, _, hh⟩ := Out.bind_eq_ok hh
        cases hh
        rfl
      subst hv
      simp
    · have : v.toList.length ≤ 1 := by cases v <;> simp
      simp only [List.length_cons, List.length_nil]
      omega

/-- A connection to the miner that a stranger leaves open and empty stops the loop: the miner prints nothing that later
connections would make it print, however many messages of the pool wait behind it.  If it is one of the first two, the
miner has printed nothing. -/
theorem C88_handshake_idle (text : String) (sI : Keypair) (rndP rndM : Keypair) (now1 now2 : SystemTime)
    (clock : Nat → SystemTime) (p : Pool E) (events : List Event) (k : Nat) (mine : Bool)
    (hk : (handshake P rndP rndM now1 now2 clock p (Miner.new P sI text) events).miner.inbox[k]? =
      some ⟨[], false, mine⟩) :
    (handshake P rndP rndM now1 now2 clock p (Miner.new P sI text) events).miner.task.printed.length ≤ k - 1 ∧
    (handshake P rndP rndM now1 now2 clock p (Miner.new P sI text) events).miner.accepted ≤ k + 1 := by
  have h := shake_miner (P := P) (clock := clock) rndP rndM now1 now2 p (Miner.new P sI text) events
  generalize handshake P rndP rndM now1 now2 clock p (Miner.new P sI text) events = s at h hk
  have key : ∀ n arrivals, Came s.miner.inbox n arrivals → n ≤ k := by
    intro n arrivals hc
    rcases Nat.lt_or_ge k n with hlt | hge
    · obtain ⟨c, h1, h2, h3⟩ := hc.2 k (arrivals[k]'(by rw [hc.1]; exact hlt)).1 (arrivals[k]'(by rw [hc.1]; exact hlt)).2
        (by rw [List.getElem?_eq_getElem (by rw [hc.1]; exact hlt)])
      rw [hk] at h1
      cases h1
      exact Bool.noConfusion (h3 (List.prefix_nil.mp h2))
    · exact hge
  have key2 : ∀ i1 w1 arrivals n m' b pr, send P rndM (Miner.new P sI text).noise_session freshBuffer = .ok (i1, w1) →
      Came s.miner.inbox n arrivals →
      Reached P E clock { Miner.new P sI text with noise_session := i1 } arrivals m' b pr → pr.length ≤ n - 1 := by
    intro i1 w1 arrivals n m' b pr h1 h2 h3
    rcases h3.printed_le (first_transport h1) with ⟨_, _, _, rfl⟩ | h4
    · simp
    · rw [h2.1] at h4; omega
  unfold ShakeMiner at h
  cases ht : s.miner.task <;> rw [ht] at h <;> simp only [MinerAt.printed, List.length_nil]
  case listening =>
    obtain ⟨i1, w1, arrivals, h1, h2, h3⟩ := h
    have := key _ _ h2
    have := key2 _ _ _ _ _ _ _ h1 h2 h3
    omega
  case reading =>
    obtain ⟨i1, w1, arrivals, n, h1, h4, h2, h3⟩ := h
    have := key _ _ h2
    have := key2 _ _ _ _ _ _ _ h1 h2 h3
    omega
  case panicking =>
    obtain ⟨i1, w1, arrivals, n, m', b, h1, h4, h2, h3⟩ := h
    have := key _ _ h2
    have := key2 _ _ _ _ _ _ _ h1 h2 h3
    omega
  case sent => have := h.1; omega
  all_goals (have : s.miner.accepted = 0 := h; omega)

theorem handshake_append (rndP rndM : Keypair) (now1 now2 : SystemTime) (p : Pool E) (m : Miner) (es es' : List Event) :
    handshake P rndP rndM now1 now2 clock p m (es ++ es') =
      (handshake P rndP rndM now1 now2 clock p m es).run (poolNext P rndP now1 now2 p) (minerNext P E rndM clock m) es' :=
  List.foldl_append

/-- A failing `accept` does not stop this miner: it has never returned, and one more failure while it listens changes
nothing. -/
theorem C88_handshake_accept (rndP rndM : Keypair) (now1 now2 : SystemTime) (clock : Nat → SystemTime) (p : Pool E)
    (m : Miner) (events : List Event) (n : Nat) :
    (handshake P rndP rndM now1 now2 clock p m events).miner.left = false ∧
    ∀ m' b printed, (handshake P rndP rndM now1 now2 clock p m events).miner.task = .listening m' b printed →
      handshake P rndP rndM now1 now2 clock p m (events ++ [.turn .miner n .fail]) =
        handshake P rndP rndM now1 now2 clock p m events := by
  refine ⟨shake_miner_left rndP rndM now1 now2 p m events, fun m' b printed ht => ?_⟩
  rw [handshake_append]
  generalize handshake P rndP rndM now1 now2 clock p m events = s at ht ⊢
  simp only [World.run, List.foldl_cons, List.foldl_nil, World.step]
  split
  · rfl
  · simp only [turn, ht, minerNext]
    split <;> rfl

/-- Other calls that fail send and read nothing either, and end the task; so does a failing `accept` of the pool, which does
nothing any more then. -/
theorem C88_handshake_fails (rndP rndM : Keypair) (now1 now2 : SystemTime) (clock : Nat → SystemTime) (p : Pool E)
    (m : Miner) (events : List Event) (who : Role) (n : Nat) :
    let s := handshake P rndP rndM now1 now2 clock p m events
    let s' := handshake P rndP rndM now1 now2 clock p m (events ++ [.turn who n .fail])
    s'.pool.task = s.pool.task ∧ s'.miner.task = s.miner.task ∧ s'.pool.accepted = s.pool.accepted ∧
    s'.miner.accepted = s.miner.accepted ∧ s'.pool.inbox.map (·.sent) = s.pool.inbox.map (·.sent) ∧
    s'.miner.inbox.map (·.sent) = s.miner.inbox.map (·.sent) ∧
    (s.ended (minerNext P E rndM clock m) = false → who = .pool → s.pool.task ≠ .reading →
      (∀ session, s.pool.task ≠ .finished session) →
      ∀ more, (handshake P rndP rndM now1 now2 clock p m (events ++ .turn who n .fail :: more)).pool.task = s.pool.task ∧
        (handshake P rndP rndM now1 now2 clock p m (events ++ .turn who n .fail :: more)).pool.accepted = s.pool.accepted) ∧
    (who = .miner → (s.miner.task = .start ∨ s.miner.task = .sending ∨ ∃ m', s.miner.task = .sent m') →
      ∀ more, handshake P rndP rndM now1 now2 clock p m (events ++ .turn who n .fail :: more) = s' ∧
        s'.ended (minerNext P E rndM clock m) = true) := by
  intro s s'
  have e : s' = s.step (poolNext P rndP now1 now2 p) (minerNext P E rndM clock m) (.turn who n .fail) :=
    handshake_append rndP rndM now1 now2 p m events _
  have em : ∀ more, handshake P rndP rndM now1 now2 clock p m (events ++ .turn who n .fail :: more) =
      s'.run (poolNext P rndP now1 now2 p) (minerNext P E rndM clock m) more := fun more => by
    rw [e]
    exact handshake_append rndP rndM now1 now2 p m events _
  obtain ⟨h1, h2, h3, h4, h5, h6, h7, h8⟩ := step_fail (poolNext P rndP now1 now2 p) (minerNext P E rndM clock m) s who n
  rw [← e] at h1 h2 h3 h4 h5 h6 h7 h8
  refine ⟨h1, h2, h3, h4, h5, h6, fun he hw hr hf more => ?_, fun hw ht more => ?_⟩
  · have hd : s'.pool.dead = true ∨ s'.pool.left = true := by
      cases hd : s'.pool.dead with
      | true => exact .inl rfl
      | false =>
        cases hl : s'.pool.left with
        | true => exact .inr rfl
        | false =>
          exfalso
          have hb : s.pool.task = .bound → False := fun hb => by
            rw [e, hw] at hl hd
            unfold World.step at hl hd
            rw [if_neg (by rw [he]; exact Bool.false_ne_true)] at hl hd
            unfold turn at hl hd
            simp only at hl hd
            split at hl
            · rename_i hdl
              rw [if_pos hdl] at hd
              rw [hl, hd] at hdl
              cases hdl
            · rw [hb] at hl
              simp [poolNext] at hl
          rcases h7 he hw hd hl with ⟨k, a, h⟩ | ⟨k, h⟩ | h
          all_goals
            cases ht : s.pool.task <;> rw [ht] at h
            case bound => exact hb ht
            case reading => exact hr ht
            case finished => exact hf _ ht
            case connected1 => simp only [poolNext] at h; split at h <;> cases h
            case sent1 => simp only [poolNext] at h; split at h <;> cases h
            case connected2 => simp only [poolNext] at h; split at h <;> cases h
            all_goals (simp [poolNext] at h)
    have := gone_stays (nextP := poolNext P rndP now1 now2 p) (nextM := minerNext P E rndM clock m) _ _ _ _ hd more s' ⟨h1, h3, rfl, rfl⟩
    rw [em]
    exact ⟨this.1, this.2.1⟩
  · have ho : s'.ended (minerNext P E rndM clock m) = true := by
      cases ho : s'.ended (minerNext P E rndM clock m) with
      | true => rfl
      | false =>
        exfalso
        rcases h8 hw ho with ⟨k, a, h⟩ | ⟨k, h⟩ <;> rcases ht with ht | ht | ⟨_, ht⟩ <;> rw [ht] at h
        all_goals first
          | (rcases shake_sending (P := P) (E := E) (clock := clock) rndM m with ⟨i1, w1, _, he⟩ | he <;> rw [he] at h <;> cases h; done)
          | (simp [minerNext] at h; done)
    rw [em]
    exact ⟨over_stays _ ho more, ho⟩

/- The pool waits in `accept`, and this fails. -/
example (rndP rndM : Keypair) (now1 now2 : SystemTime) (clock : Nat → SystemTime) (p : Pool E) (m : Miner) :
    let s := handshake P rndP rndM now1 now2 clock p m [.turn .pool 0 .none]
    let s' := handshake P rndP rndM now1 now2 clock p m [.turn .pool 0 .none, .turn .pool 0 .fail]
    s.ended (minerNext P E rndM clock m) = false ∧ s.pool.task = .bound ∧ s'.pool.left = true ∧ s.miner.task = .start := by
  simp [handshake, World.run, World.step, World.ended, turn, returned, poolNext, minerNext]

/-- A stranger that connects to the miner before the pool does, and closes the connection without a word, ends the
program: the miner panics, whatever has happened before. -/
theorem C88_handshake_hung_up (text : String) (sI : Keypair) (rndP rndM : Keypair) (now1 now2 : SystemTime)
    (clock : Nat → SystemTime) (p : Pool E) (events : List Event) (m : Miner) (b : Bytes) (printed : List Bool)
    (ht : (handshake P rndP rndM now1 now2 clock p (Miner.new P sI text) events).miner.task = .listening m b printed)
    (hd : (handshake P rndP rndM now1 now2 clock p (Miner.new P sI text) events).miner.dead = false)
    (hb : (handshake P rndP rndM now1 now2 clock p (Miner.new P sI text) events).miner.bound = true)
    (hi : (handshake P rndP rndM now1 now2 clock p (Miner.new P sI text) events).miner.inbox = []) :
    let s := handshake P rndP rndM now1 now2 clock p (Miner.new P sI text)
      (events ++ [.connect .miner, .close .miner 0, .turn .miner 0 .none, .turn .miner 0 .none, .turn .miner 0 .none])
    s.miner.dead = true ∧ s.miner.task.printed = [] := by
  have h := shake_miner (P := P) (clock := clock) rndP rndM now1 now2 p (Miner.new P sI text) events
  have hl := shake_miner_left (P := P) (clock := clock) rndP rndM now1 now2 p (Miner.new P sI text) events
  intro s
  have hs : s = _ := handshake_append rndP rndM now1 now2 p (Miner.new P sI text) events _
  rw [hs]
  clear hs s
  generalize handshake P rndP rndM now1 now2 clock p (Miner.new P sI text) events = s at h ht hd hb hi hl
  obtain ⟨pool, ⟨task, dead, bound, inbox, accepted, mine, left⟩⟩ := s
  simp only at ht hd hb hi hl
  subst ht hd hb hi hl
  obtain ⟨i1, w1, arrivals, h1, h2, h3⟩ := h
  simp only at h2
  have harr : arrivals = [] := by
    cases arrivals with
    | nil => rfl
    | cons x rest =>
      obtain ⟨c, hc, _⟩ := h2.2 0 x.1 x.2 rfl
      cases hc
  subst harr
  have hacc : accepted = 0 := h2.1.symm
  subst hacc
  rcases h3.printed_le (first_transport h1) with ⟨_, rfl, rfl, rfl⟩ | h4
  case inr => simp at h4
  obtain ⟨i1', w1', g1, g2⟩ := C58_empty_connection P E text sI rndM (clock 0) []
  rw [h1] at g1
  obtain ⟨rfl, rfl⟩ := Prod.mk.inj (Out.ok.inj g1)
  have hh : ∀ x, Miner.handle P E (clock 0) ⟨text, i1⟩ (tryRead freshBuffer []) ≠ .ok x := by
    intro x hx
    rw [Miner.listen, hx] at g2
    obtain ⟨m', b', v⟩ := x
    simp [Miner.listen] at g2
  have hh' : Miner.handle P E (clock 0) ⟨text, i1⟩ (tryRead freshBuffer []) = .panic := by
    cases hx : Miner.handle P E (clock 0) ⟨text, i1⟩ (tryRead freshBuffer []) with
    | ok x => exact absurd hx (hh x)
    | err e => cases e
    | panic => rfl
  have hnew : ({ Miner.new P sI text with noise_session := i1 } : Miner) = ⟨text, i1⟩ := rfl
  rw [hnew]
  generalize Miner.new P sI text = m0
  have e1 : World.run (poolNext P rndP now1 now2 p) (minerNext P E rndM clock m0)
      ⟨pool, ⟨.listening ⟨text, i1⟩ freshBuffer [], false, true, [], 0, mine, false⟩⟩
      [.connect .miner, .close .miner 0, .turn .miner 0 .none] =
      ⟨pool, ⟨.reading ⟨text, i1⟩ freshBuffer [], false, true, [⟨[], true, false⟩], 1, mine, false⟩⟩ := by
    generalize freshBuffer = fb
    simp [World.run, World.step, World.ended, turn, returned, Side.listens, Side.stranger, Open.arrive, Open.hangUp,
      minerNext]
  have e2 : World.step (poolNext P rndP now1 now2 p) (minerNext P E rndM clock m0)
      ⟨pool, ⟨.reading ⟨text, i1⟩ freshBuffer [], false, true, [⟨[], true, false⟩], 1, mine, false⟩⟩ (.turn .miner 0 .none) =
      ⟨pool, ⟨.panicking [], false, true, [⟨[], true, false⟩], 1, mine, false⟩⟩ := by
    simp [World.step, World.ended, turn, returned, shake_reading, hh', shakeThen]
  have e3 : World.run (poolNext P rndP now1 now2 p) (minerNext P E rndM clock m0)
      ⟨pool, ⟨.listening ⟨text, i1⟩ freshBuffer [], false, true, [], 0, mine, false⟩⟩
      ([.connect .miner, .close .miner 0, .turn .miner 0 .none] ++ [.turn .miner 0 .none, .turn .miner 0 .none]) =
      World.step (poolNext P rndP now1 now2 p) (minerNext P E rndM clock m0)
        ⟨pool, ⟨.panicking [], false, true, [⟨[], true, false⟩], 1, mine, false⟩⟩ (.turn .miner 0 .none) := by
    unfold World.run at e1 ⊢
    rw [List.foldl_append, e1, List.foldl_cons, e2, List.foldl_cons, List.foldl_nil]
  have e4 : ([.connect .miner, .close .miner 0, .turn .miner 0 .none, .turn .miner 0 .none, .turn .miner 0 .none] :
      List Event) = [.connect .miner, .close .miner 0, .turn .miner 0 .none] ++
        [.turn .miner 0 .none, .turn .miner 0 .none] := rfl
  rw [e4, e3]
  simp [World.step, World.ended, turn, returned, minerNext, MinerAt.printed]

/- Events after which the miner has printed `true`, so that `C88_handshake_authenticated` applies: all goes well, and then a
stranger connects to the miner and leaves. -/
example : true ∈ (handshake toyPrims (Keypair.default toyPrims (Arr.replicate 32 4))
    (Keypair.default toyPrims (Arr.replicate 32 3)) ⟨1000 * 1000000000⟩ ⟨1000 * 1000000000⟩
    (fun _ => ⟨1003 * 1000000000⟩) (Pool.new (E := toyScheme) toyPrims (Arr.replicate 32 7) (Arr.replicate 32 5))
    (Miner.new toyPrims Keypair.empty "key")
    ((([(.pool, 1023), (.miner, 1023), (.miner, 1023), (.miner, 1023)] ++ List.replicate 6 (.pool, 1023) ++
      List.replicate 4 (.miner, 1023) : List (Role × Nat)).map fun t => .turn t.1 t.2 .none) ++
      [.connect .miner, .close .miner 2])).miner.task.printed := by
  have hc := (C81_completes toyPrims toyScheme (Arr.replicate 32 7) "key" Keypair.empty (Arr.replicate 32 3)
    (Arr.replicate 32 4) (Arr.replicate 32 5) ⟨1000 * 1000000000⟩ ⟨1000 * 1000000000⟩ (fun _ => ⟨1003 * 1000000000⟩)
    ⟨toy_correct, toy_dh, toyScheme_laws, by decide, by decide, by decide, by decide, by decide, toy_keysNonzero _,
      toy_hkdf_ne_zeros _ _⟩ (List.replicate 6 (.pool, 1023)) (List.replicate 4 (.miner, 1023)) (by decide) (by decide)
    (by decide)).1
  simp only [exampleAfter] at hc
  rw [← C88_handshake_alone] at hc
  rw [handshake_append]
  generalize handshake toyPrims _ _ _ _ _ _ _ _ = s at hc ⊢
  have hq : ∀ s e, (∀ who n f, e ≠ Event.turn who n f) → (World.step
      (poolNext toyPrims (Keypair.default toyPrims (Arr.replicate 32 4)) ⟨1000 * 1000000000⟩ ⟨1000 * 1000000000⟩
        (Pool.new (E := toyScheme) toyPrims (Arr.replicate 32 7) (Arr.replicate 32 5)))
      (minerNext toyPrims toyScheme (Keypair.default toyPrims (Arr.replicate 32 3)) (fun _ => ⟨1003 * 1000000000⟩)
        (Miner.new toyPrims Keypair.empty "key")) s e).miner.task = s.miner.task := by
    intro s e he
    unfold World.step Side.stranger
    split
    · rfl
    · split <;> first | exact absurd rfl (he _ _ _) | rfl | (simp only []; split <;> rfl)
  have h2 : s.miner.task.printed = [true] := hc
  unfold World.run
  rw [List.foldl_cons, List.foldl_cons, List.foldl_nil, hq _ _ (by intros; intro h; cases h),
    hq _ _ (by intros; intro h; cases h), h2]
  exact List.mem_singleton.mpr rfl

/- The situation of `C88_handshake_hung_up`, and, after a stranger's connection, of `C88_handshake_idle`: the miner has sent
its message and listens; the pool has not answered yet. -/
example (text : String) (sI rndP rndM : Keypair) (now1 now2 : SystemTime) (p : Pool E) : ∃ m,
    let s := handshake P rndP rndM now1 now2 clock p (Miner.new P sI text)
      [.turn .pool 0 .none, .turn .miner 0 .none, .turn .miner 0 .none, .turn .miner 0 .none]
    (s.miner.task = .listening m freshBuffer [] ∧ s.miner.dead = false ∧ s.miner.bound = true ∧ s.miner.inbox = []) ∧
    (handshake P rndP rndM now1 now2 clock p (Miner.new P sI text)
      [.turn .pool 0 .none, .turn .miner 0 .none, .turn .miner 0 .none, .turn .miner 0 .none,
        .connect .miner]).miner.inbox[0]? = some ⟨[], false, false⟩ := by
  obtain ⟨i1, w1, h1, _⟩ := C58_empty_connection P E text sI rndM ⟨0⟩ []
  generalize Miner.new P sI text = m0 at h1
  have hn : minerNext P E rndM clock m0 .sending = .write w1 (.sent { m0 with noise_session := i1 }) := by
    show m0.written (send P rndM m0.noise_session freshBuffer) = _
    rw [h1]
    rfl
  have hb : minerNext P E rndM clock m0 (.sent { m0 with noise_session := i1 }) =
      .bind (.listening { m0 with noise_session := i1 } freshBuffer []) := rfl
  have hl : minerNext P E rndM clock m0 (.listening { m0 with noise_session := i1 } freshBuffer []) =
      .accept (.reading { m0 with noise_session := i1 } freshBuffer []) true := rfl
  have h0 : minerNext P E rndM clock m0 .start = .connect .sending := rfl
  have p0 : poolNext P rndP now1 now2 p .start = .bind .bound := rfl
  have p1 : poolNext P rndP now1 now2 p .bound = .accept .reading false := rfl
  refine ⟨{ m0 with noise_session := i1 }, ?_⟩
  unfold handshake
  generalize freshBuffer = fb at hb hl ⊢
  generalize minerNext P E rndM clock m0 = nm at *
  generalize poolNext P rndP now1 now2 p = np at *
  simp [World.run, World.step, World.ended, turn, returned, Side.listens, Side.stranger, Fault.part, arrive, finish, hn, hb, hl, h0, p0,
    p1]

end Handshake

end SV2.Examples.Open
