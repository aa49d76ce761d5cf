import Verif.Spec.Session
/-! The message limit as seen by an async receiver that gets every frame in a chunk of its own. -/

namespace WS.Spec

/-- Payload bytes of a list of frames. -/
def payloadSum (fs : List Frame) : Nat := (fs.map fun f => f.payload.length).sum

/-- Unfinished messages that stay within a message limit if the 64 bytes per frame are added for
the last frame only. -/
def FitsApart (maxMsg : Nat) (held : List Frame) : Prop :=
  held.length < 2 ^ 20 ∧ payloadSum held + 64 ≤ maxMsg

end WS.Spec
