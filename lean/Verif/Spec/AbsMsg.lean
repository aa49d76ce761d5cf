import Verif.Spec.Message
import Verif.Model.Message
/-! What model messages and frames stand for in the specification. -/

namespace WS

def FrameView.fragment (v : FrameView) : Spec.Fragment :=
  ⟨v.opcode.toNat, v.rsv1 || v.rsv2 || v.rsv3, v.payload⟩

/-- An owned message, as the specification's message. -/
def OwnedMsg.spec : OwnedMsg → Spec.Message
  | .text s => .text s
  | .binary b => .binary b
  | .ping b => .ping b
  | .pong b => .pong b
  | .close none => .close
  | .close (some c) => .closeWith c.statusCode.toNat c.reason

/-- A borrowed message, as the specification's message; `none` for field combinations that no
public constructor makes. -/
def Msg.spec (m : Msg) : Option Spec.Message :=
  match m.opcode, m.cdStatusCode, m.payload with
  | .text, none, d => some (.text d)
  | .binary, none, d => some (.binary d)
  | .ping, none, d => some (.ping d)
  | .pong, none, d => some (.pong d)
  | .close, none, [] => some .close
  | .close, some c, r => some (.closeWith c.toNat r)
  | _, _, _ => none

/-- `String` fields hold valid UTF-8 (Rust's invariant for `String`). -/
def OwnedMsg.Valid : OwnedMsg → Prop
  | .text s => Spec.IsUtf8 s
  | .close (some c) => Spec.IsUtf8 c.reason
  | _ => True

end WS
