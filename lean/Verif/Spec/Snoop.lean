import Verif.Spec.Eavesdrop
/-!
# Two sessions that talk, and now and then change keys, and somebody who wants to know which of two texts is sent

Unlike the attacker of `Verif/Spec/Eavesdrop.lean` this one also has the sessions rekey.
-/

namespace SV2.Noise

/-- An attacker that chooses each move from all it has seen, and in the end says yes or no; before each it hashes and computes
blocks.  It need not remember what it learned before: it can ask again. -/
structure Snoop where
  next : List Seen → Curious Move
  verdict : List Seen → Curious Bool

variable (P : Prims) (rest : Arr 32 → Arr 12 → Nat → UInt8) (blocks : Blocks)

/-- What it sees in a number of moves from these sessions; `second` says which texts are sent.  It sees neither the keys nor
what is read. -/
def Snoop.watch (snoop : Snoop) (second : Bool) : (rounds : Nat) → Duo → List Seen → List Seen
  | 0, _, seen => seen
  | rounds + 1, s, seen =>
    let r := s.act (P.withBlocks rest blocks) second ((snoop.next seen).play P rest blocks).result
    Snoop.watch snoop second rounds r.2.2 (seen ++ [Seen.blind ⟨r.1, r.2.1, r.2.2.1, r.2.2.2⟩])

/-- In the end it says yes. -/
def Snoop.Yes (snoop : Snoop) (second : Bool) (rounds : Nat) (s : Duo) : Prop :=
  ((snoop.verdict (snoop.watch P rest blocks second rounds s [])).play P rest blocks).result = true

end SV2.Noise
