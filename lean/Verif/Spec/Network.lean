import Verif.Model.Network
/-!
# What the network module is compared with
-/

namespace SV2.Peer
variable {M : Type}

/-- The messages put into the buffer by calls that returned, in order. -/
def pushed (events : List (Event M)) : List M :=
  events.filterMap fun e => match e.call, e.returned with
    | .push m, some _ => some m
    | _, _ => none

/-- The messages handed out, in order. -/
def handedOut (events : List (Event M)) : List M :=
  events.flatMap fun e => match e.call, e.returned with
    | .drain, some ms => ms
    | _, _ => []

/-- The calls that thread `t` has finished, in order. -/
def callsOf (t : Nat) (events : List (Event M)) : List (Call M) :=
  (events.filter fun e => e.thread == t).map fun e => e.call

/-- The thread has nothing left to do. -/
def Thread.Finished (th : Thread M) : Prop := th.pc = .dead ∨ (th.pc = .ready ∧ th.todo = [])

end SV2.Peer
