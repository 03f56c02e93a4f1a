import Verif.Model.Crypto.Base58
import Mathlib.Data.Nat.Digits.Defs
import Mathlib.Data.Nat.Digits.Lemmas
/-!
# Base58 decoding and encoding are inverse
-/

namespace SV2.Crypto.Base58

theorem value_append (b : Nat) (l : List Nat) (n : Nat) :
    l.foldl (fun n d => n * b + d) n = n * b ^ l.length + value b l := by
  unfold value
  induction l generalizing n with
  | nil => simp
  | cons d l ih =>
    simp only [List.foldl_cons, List.length_cons]
    rw [ih (n * b + d), ih (0 * b + d)]
    ring

theorem value_eq (b : Nat) (l : List Nat) : value b l = Nat.ofDigits b l.reverse := by
  induction l with
  | nil => rfl
  | cons d l ih =>
    rw [List.reverse_cons, Nat.ofDigits_append, Nat.ofDigits_singleton, ← ih, List.length_reverse]
    show List.foldl _ (0 * b + d) l = _
    rw [value_append]
    ring

theorem digits_eq (b : Nat) (hb : 1 < b) (fuel n : Nat) (h : n ≤ fuel) : digits b fuel n = Nat.digits b n := by
  induction fuel generalizing n with
  | zero =>
    obtain rfl : n = 0 := by omega
    simp [digits]
  | succ fuel ih =>
    rw [digits]
    split
    · subst_vars; simp
    · rename_i hn
      rw [Nat.digits_def' hb (by omega), ih]
      have := Nat.div_lt_self (Nat.pos_of_ne_zero hn) hb
      omega

theorem convert_eq (b c : Nat) (hc : 1 < c) (l : List Nat) :
    convert b c l = l.takeWhile (· = 0) ++ (Nat.digits c (Nat.ofDigits b l.reverse)).reverse := by
  rw [convert, digits_eq c hc _ _ le_rfl, value_eq]

theorem of_mem_takeWhile {d : Nat} {l : List Nat} (h : d ∈ l.takeWhile (· = 0)) : d = 0 := by
  have := List.all_takeWhile (p := fun x : Nat => decide (x = 0)) (l := l)
  rw [List.all_eq_true] at this
  simpa using this d h

theorem takeWhile_zero (l : List Nat) :
    l.takeWhile (· = 0) = List.replicate (l.takeWhile (· = 0)).length 0 := by
  apply List.eq_replicate_of_mem
  intro a ha
  exact of_mem_takeWhile ha

theorem dropWhile_head (l : List Nat) (h : l.dropWhile (· = 0) ≠ []) : (l.dropWhile (· = 0)).head h ≠ 0 := by
  have := List.head_dropWhile_not (p := fun x : Nat => decide (x = 0)) h
  simpa using this

theorem takeWhile_cons_pos (z : Nat) (m : List Nat) (h : ∀ h : m ≠ [], m.head h ≠ 0) :
    (List.replicate z 0 ++ m).takeWhile (· = 0) = List.replicate z 0 := by
  rw [List.takeWhile_append_of_pos (by simp)]
  cases m with
  | nil => simp
  | cons a m =>
    have : a ≠ 0 := h (by simp)
    rw [List.takeWhile_cons_of_neg (by simpa using this), List.append_nil]

theorem convert_convert (b c : Nat) (hb : 1 < b) (hc : 1 < c) (l : List Nat) (hl : ∀ d ∈ l, d < b) :
    convert c b (convert b c l) = l := by
  have hsplit : l.takeWhile (· = 0) ++ l.dropWhile (· = 0) = l := List.takeWhile_append_dropWhile
  generalize hz : (l.takeWhile (· = 0)).length = z
  have ht := takeWhile_zero l
  rw [hz] at ht
  generalize hm : l.dropWhile (· = 0) = m at hsplit
  have hhead : ∀ h : m ≠ [], m.head h ≠ 0 := by
    subst hm
    exact dropWhile_head l
  rw [ht] at hsplit
  have hv : Nat.ofDigits b l.reverse = Nat.ofDigits b m.reverse := by
    rw [← hsplit, List.reverse_append, List.reverse_replicate, Nat.ofDigits_append_replicate_zero]
  have hdm : Nat.digits b (Nat.ofDigits b m.reverse) = m.reverse := by
    apply Nat.digits_ofDigits b hb
    · intro d hd
      apply hl
      rw [← hsplit]
      simp only [List.mem_append]
      exact .inr (by simpa using hd)
    · intro h
      rw [List.getLast_reverse]
      exact hhead _
  rw [convert_eq c b hb, convert_eq b c hc, ht, hv]
  generalize hn : Nat.ofDigits b m.reverse = n at hdm ⊢
  rw [List.reverse_append, List.reverse_reverse, List.reverse_replicate, Nat.ofDigits_append_replicate_zero,
    Nat.ofDigits_digits, hdm, List.reverse_reverse, takeWhile_cons_pos]
  · exact hsplit
  · intro h
    rw [List.head_reverse]
    exact Nat.getLast_digit_ne_zero c (by intro h0; subst h0; simp at h)

theorem convert_lt (b c : Nat) (hc : 1 < c) (l : List Nat) : ∀ d ∈ convert b c l, d < c := by
  intro d hd
  rw [convert_eq b c hc, List.mem_append] at hd
  rcases hd with hd | hd
  · have := of_mem_takeWhile hd
    omega
  · exact Nat.digits_lt_base hc (by simpa using hd)

theorem alphabet_length : alphabet.length = 58 := by decide +kernel

theorem idxOf_getD : ∀ d < 58, alphabet.idxOf? (alphabet.getD d '1') = some d := by decide +kernel

theorem getD_idxOf (c : Char) (d : Nat) (h : alphabet.idxOf? c = some d) :
    d < 58 ∧ alphabet.getD d '1' = c := by
  rw [List.idxOf?_eq_some_iff] at h
  obtain ⟨hlt, heq, _⟩ := h
  rw [alphabet_length] at hlt
  refine ⟨hlt, ?_⟩
  simp_all

/-- Decoding what was encoded. -/
theorem decode_encode (b : Bytes) : decode (encode b) = some b := by
  have hlt := convert_lt 256 58 (by omega) (b.map UInt8.toNat)
  have hcc := convert_convert 256 58 (by omega) (by omega) (b.map UInt8.toNat)
    (by intro d hd; obtain ⟨x, _, rfl⟩ := List.mem_map.mp hd; exact x.toNat_lt)
  unfold decode encode
  generalize convert 256 58 (b.map UInt8.toNat) = l at hlt hcc
  have : ((String.ofList (l.map fun d => alphabet.getD d '1')).toList.mapM (alphabet.idxOf? ·)) = some l := by
    rw [String.toList_ofList]
    clear hcc
    induction l with
    | nil => rfl
    | cons d l ih =>
      rw [List.map_cons, List.mapM_cons, idxOf_getD d (hlt d (by simp)),
        ih (fun d hd => hlt d (by simp [hd]))]
      rfl
  rw [this, Option.map_some, hcc, List.map_map]
  congr 1
  conv => rhs; rw [← List.map_id b]
  apply List.map_congr_left
  intro x _
  simp

/-- Encoding what was decoded: no two texts stand for the same bytes. -/
theorem encode_decode (s : String) (b : Bytes) (h : decode s = some b) : encode b = s := by
  unfold decode at h
  rw [Option.map_eq_some_iff] at h
  obtain ⟨l, hl, rfl⟩ := h
  have key : ∀ (cs : List Char) (l : List Nat), cs.mapM (alphabet.idxOf? ·) = some l →
      (∀ d ∈ l, d < 58) ∧ l.map (fun d => alphabet.getD d '1') = cs := by
    intro cs
    induction cs with
    | nil => intro l h; cases h; simp
    | cons c cs ih =>
      intro l h
      rw [List.mapM_cons] at h
      cases hc : alphabet.idxOf? c with
      | none => rw [hc] at h; cases h
      | some d =>
        cases hcs : cs.mapM (alphabet.idxOf? ·) with
        | none => rw [hc, hcs] at h; cases h
        | some l' =>
          rw [hc, hcs] at h
          cases h
          have := ih l' hcs
          have hd := getD_idxOf c d hc
          simp only [List.mem_cons, forall_eq_or_imp, List.map_cons, hd.2, this.2]
          exact ⟨⟨hd.1, this.1⟩, trivial⟩
  obtain ⟨hlt, hmap⟩ := key _ _ hl
  unfold encode
  have : ((convert 58 256 l).map UInt8.ofNat).map UInt8.toNat = convert 58 256 l := by
    rw [List.map_map]
    conv => rhs; rw [← List.map_id (convert 58 256 l)]
    apply List.map_congr_left
    intro d hd
    have := convert_lt 58 256 (by omega) l d hd
    simp [Nat.mod_eq_of_lt this]
  rw [this, convert_convert 58 256 (by omega) (by omega) l hlt, hmap, String.ofList_toList]

end SV2.Crypto.Base58
