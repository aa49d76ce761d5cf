import Verif.Base
/-! # Specification for C87: limits that leave room on a machine with a `usize` of `bits` bits -/

namespace WS.Spec

/-- Is this the report of a limit that a message exceeds? -/
def overLimit (e : WsErr) : Bool :=
  decide (e = .protocol "Exceeded maximum WebSocket message size" ∨
    e = .protocol "Exceeded count of data frames in one WebSocket message")

/-- A receiver that allows frames of `df` bytes and messages of `msg` bytes, and whose user goes on after `k` reports that a message
exceeds a limit, leaves room in the address space: the message, or one frame if that is more, and `k + 1` further frames, with 64 bytes
to spare for every frame, take less than half of it. -/
def LimitsFit (bits df msg k : Nat) : Prop := max msg (df + 64) + (k + 1) * (df + 64) < 2 ^ (bits - 1)

instance (bits df msg k : Nat) : Decidable (LimitsFit bits df msg k) := inferInstanceAs (Decidable (_ < _))

end WS.Spec
