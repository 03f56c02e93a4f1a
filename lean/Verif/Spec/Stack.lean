import Verif.Spec.Noise
import Verif.Spec.Stream
import Verif.Model.Frame
/-!
# Frames over a Noise session

How a user puts frames through a session, as in the examples of the library: serialize the frame, leave sixteen bytes for
the tag, send; receive, deserialize the frame from the start of the buffer.
-/

namespace SV2.Stack
open Noise

/-- The buffer given to `send_message` for a frame: the serialized frame and sixteen more bytes (whatever they are). -/
def packet (f : Message) (room : Arr 16) : Bytes :=
  match serialize f with
  | .ok b => b ++ room.toList
  | _ => []

/-- What can happen: either side sends a frame, or the network delivers any bytes it likes to either side. -/
inductive StackAct where
  | iSend (secret : Arr 32) (f : Message) (room : Arr 16)
  | rSend (secret : Arr 32) (f : Message) (room : Arr 16)
  | toR (wire : Bytes)
  | toI (wire : Bytes)

def StackAct.act : StackAct → Act
  | .iSend secret f room => .iSend secret (packet f room)
  | .rSend secret f room => .rSend secret (packet f room)
  | .toR wire => .toR wire
  | .toI wire => .toI wire

/-- The frames the initiator wants to send. -/
def framesI (acts : List StackAct) : List Message :=
  acts.filterMap fun a => match a with | .iSend _ f _ => some f | _ => none

/-- The frames the responder wants to send. -/
def framesR (acts : List StackAct) : List Message :=
  acts.filterMap fun a => match a with | .rSend _ f _ => some f | _ => none

/-- What the receiver reads from the buffers of its successful receives.  The tag is still at the end of them. -/
def read (got : List (Bytes × NResult Unit × Bytes)) : List (Result Message) :=
  (got.filter fun g => g.2.1.isOk).map fun g => deserialize Message g.2.2

end SV2.Stack
