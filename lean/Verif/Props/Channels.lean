import Verif.Model.Config
import Verif.Lemmas.Birthday
import Verif.Props.Network
/-!
# C85: channels under random ids
-/

namespace SV2

/-- The draws of `n` channel ids in which no id occurs twice. -/
def AllDifferent (n : Nat) (draws : Fin n → Fin (UInt32.size - 1)) : Prop :=
  ∀ i j, i ≠ j → newChannelId (draws i) ≠ newChannelId (draws j)

theorem allDifferent_iff (n : Nat) (draws : Fin n → Fin (UInt32.size - 1)) :
    AllDifferent n draws ↔ Function.Injective draws := by
  constructor
  · intro h i j hij
    by_contra hne
    exact h i j hne (by rw [hij])
  · intro h i j hne he
    exact hne (h (C53_injective _ _ he))

theorem card_allDifferent (n : Nat) :
    Nat.card {draws : Fin n → Fin (UInt32.size - 1) // AllDifferent n draws} = (2 ^ 32 - 1).descFactorial n := by
  rw [← Birthday.card_distinct]
  exact Nat.card_congr (Equiv.subtypeEquivRight (allDifferent_iff n))

/-- Of the `(2 ^ 32 - 1) ^ n` draws of `n` ids at most the fraction `n (n - 1) / (2 (2 ^ 32 - 1))` has an id twice. -/
theorem C85_bound (n : Nat) :
    Nat.card (Fin n → Fin (UInt32.size - 1)) = (2 ^ 32 - 1) ^ n ∧
    2 * (2 ^ 32 - 1) * Nat.card {draws : Fin n → Fin (UInt32.size - 1) // ¬ AllDifferent n draws} ≤
      n * (n - 1) * (2 ^ 32 - 1) ^ n := by
  have h1 : Nat.card (Fin n → Fin (UInt32.size - 1)) = (2 ^ 32 - 1) ^ n := by
    rw [Nat.card_fun, Nat.card_fin, Nat.card_fin]
    rfl
  refine ⟨h1, ?_⟩
  classical
  have h2 : Nat.card {draws : Fin n → Fin (UInt32.size - 1) // AllDifferent n draws} +
      Nat.card {draws : Fin n → Fin (UInt32.size - 1) // ¬ AllDifferent n draws} = (2 ^ 32 - 1) ^ n := by
    rw [← h1, ← Nat.card_sum]
    exact Nat.card_congr (Equiv.sumCompl _)
  rw [card_allDifferent] at h2
  have := Birthday.bound (2 ^ 32 - 1) n
  rw [← h2] at this
  rw [← h2]
  linarith [Nat.mul_add (2 * (2 ^ 32 - 1)) ((2 ^ 32 - 1 : Nat).descFactorial n)
    (Nat.card {draws : Fin n → Fin (UInt32.size - 1) // ¬ AllDifferent n draws})]

/-- From 77164 ids on, and not before, an id occurs twice in more than half of the draws. -/
theorem C85_half (n : Nat) :
    2 * Nat.card {draws : Fin n → Fin (UInt32.size - 1) // AllDifferent n draws} < (2 ^ 32 - 1) ^ n ↔ 77164 ≤ n := by
  rw [card_allDifferent]
  exact Birthday.half_iff n

/-- A channel is opened on a connection: `channels.entry(conn).or_insert(HashMap::new()).insert(id, channel)`.  The manager
afterwards, and the channel that had the id before. -/
def ChannelManager.open (m : ChannelManager) (conn id : UInt32) (channel : Channel) : ChannelManager × Option Channel :=
  let inner := ((m.channels conn).getD HashMap.new).insert id channel
  (⟨(m.channels.insert conn inner.1).1⟩, inner.2)

/-- `channels.get(conn)?.get(id)`. -/
def ChannelManager.find (m : ChannelManager) (conn id : UInt32) : Option Channel :=
  (m.channels conn).bind (· id)

/-- Channels opened one after the other: connection, id, channel. -/
def ChannelManager.opens (m : ChannelManager) (opened : List (UInt32 × UInt32 × Channel)) : ChannelManager :=
  opened.foldl (fun m o => (m.open o.1 o.2.1 o.2.2).1) m

theorem find_open (m : ChannelManager) (conn id : UInt32) (channel : Channel) (conn' id' : UInt32) :
    (m.open conn id channel).1.find conn' id' =
      if conn' = conn ∧ id' = id then some channel else m.find conn' id' := by
  unfold ChannelManager.open ChannelManager.find HashMap.insert
  by_cases h : conn' = conn
  · subst h
    by_cases h' : id' = id
    · simp [h']
    · simp only [if_true, Option.bind_some, h', and_false, if_false]
      cases m.channels conn' <;> rfl
  · simp [h]

/-- What a manager has after any channels were opened: under each connection and id the channel that was opened last with
both.  So channels of other connections and with other ids are never touched, and an id that is drawn again for the same
connection replaces the channel that had it. -/
theorem C85_last (opened : List (UInt32 × UInt32 × Channel)) (conn id : UInt32) :
    (ChannelManager.new.opens opened).find conn id =
      ((opened.reverse.find? fun o => o.1 == conn && o.2.1 == id).map fun o => o.2.2) := by
  induction opened using List.reverseRecOn with
  | nil => rfl
  | append_singleton opened o ih =>
    obtain ⟨c, i, ch⟩ := o
    unfold ChannelManager.opens at ih ⊢
    rw [List.foldl_append, List.foldl_cons, List.foldl_nil, find_open, List.reverse_append]
    simp only [List.reverse_cons, List.reverse_nil, List.nil_append, List.singleton_append, List.find?_cons]
    by_cases h : conn = c ∧ id = i
    · obtain ⟨rfl, rfl⟩ := h
      simp
    · rw [if_neg h, ih]
      have : (c == conn && i == id) = false := by
        rw [Bool.and_eq_false_iff, beq_eq_false_iff_ne, beq_eq_false_iff_ne]
        by_cases hc : conn = c
        · exact .inr fun e => h ⟨hc, e.symm⟩
        · exact .inl fun e => hc e.symm
      simp [this]

/-- Every channel opened on one connection is found under its id exactly if an id given twice was given with the same
channel. -/
theorem C85_kept (conn : UInt32) (opened : List (UInt32 × Channel)) :
    (∀ o ∈ opened, (ChannelManager.new.opens (opened.map fun o => (conn, o.1, o.2))).find conn o.1 = some o.2) ↔
      ∀ o ∈ opened, ∀ o' ∈ opened, o.1 = o'.1 → o.2 = o'.2 := by
  have key : ∀ id, (ChannelManager.new.opens (opened.map fun o => (conn, o.1, o.2))).find conn id =
      (opened.reverse.find? fun o => o.1 == id).map (·.2) := by
    intro id
    rw [C85_last, ← List.map_reverse, List.find?_map]
    simp only [Option.map_map, Function.comp_def, beq_self_eq_true, Bool.true_and]
  simp only [key]
  constructor
  · intro h o ho o' ho' he
    have h1 := h o ho
    have h2 := h o' ho'
    rw [he, h2] at h1
    exact (Option.some.inj h1).symm
  · intro h o ho
    cases hf : opened.reverse.find? fun x => x.1 == o.1 with
    | none =>
      have := List.find?_eq_none.mp hf o (List.mem_reverse.mpr ho)
      simp at this
    | some x =>
      have h1 := List.find?_some hf
      have h2 := List.mem_reverse.mp (List.mem_of_find?_eq_some hf)
      simp only [beq_iff_eq] at h1
      rw [Option.map_some, h x h2 o ho h1]

/-! Concrete: the id 7 is drawn again for connection 1, whose first channel is lost; connection 2 keeps its own. -/

example (a b c : Channel) : let m := ChannelManager.new.opens [(1, 7, a), (2, 7, c), (1, 7, b)]
    m.find 1 7 = some b ∧ m.find 2 7 = some c ∧ m.find 1 8 = none ∧
    ((ChannelManager.new.opens [(1, 7, a), (2, 7, c)]).open 1 7 b).2 = some a := ⟨rfl, rfl, rfl, rfl⟩

example : ¬ AllDifferent 2 (fun _ => ⟨7, by decide⟩) ∧ AllDifferent 2 (fun i => ⟨i.val, by simp [UInt32.size]; omega⟩) :=
  ⟨fun h => h 0 1 (by decide) rfl, fun i j hne he => hne (by
    have := C53_injective _ _ he
    simp only [Fin.mk.injEq] at this
    exact Fin.ext this)⟩

end SV2
