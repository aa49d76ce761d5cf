import Verif.Spec.Session
/-! RFC 6455 section 5.6/5.5: which messages can be sent in one frame. -/

namespace WS.Spec

/-- The message can travel in one frame to a receiver that takes frames of up to `lim` payload
bytes: text is UTF-8, control payloads are at most 125 bytes (a close code takes two of them). -/
def Message.Sendable (lim : Nat) : Message → Prop
  | .text s => IsUtf8 s ∧ s.length ≤ lim
  | .binary b => b.length ≤ lim
  | .ping b => b.length ≤ 125 ∧ b.length ≤ lim
  | .pong b => b.length ≤ 125 ∧ b.length ≤ lim
  | .close => True
  | .closeWith _ r => IsUtf8 r ∧ r.length + 2 ≤ 125 ∧ r.length + 2 ≤ lim

/-- The frame carries the whole message. -/
def Carries (f : Frame) (m : Message) : Prop :=
  f.fin = true ∧ f.rsv1 = false ∧ f.rsv2 = false ∧ f.rsv3 = false ∧ Means f.opcode f.payload m

end WS.Spec
