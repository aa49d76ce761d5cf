import Verif.Spec.Cases
import Verif.Spec.Chat
/-!
# What the async chat client should say
-/

namespace WS.Spec

/-- The third list is made of the first two, each in its order. -/
inductive Merge {α : Type} : List α → List α → List α → Prop
  | nil : Merge [] [] []
  | left {a x y z} : Merge x y z → Merge (a :: x) y (a :: z)
  | right {a x y z} : Merge x y z → Merge x (a :: y) (a :: z)

/-- A ping asks for a pong, a Close for the same Close (RFC 6455 section 5.5.1: "it typically echos the status code"). -/
def Message.controlFor : Message → Option Message
  | .ping b => some (.pong b)
  | .close => some .close
  | .closeWith c r => some (.closeWith c r)
  | _ => none

end WS.Spec

namespace WS

/-- Calls of the stream give the messages `ms`, then `x`, which is the end or an error (or a panic). -/
structure Drained (fr : Framed MsgCodec) (s : Src) (ms : List OwnedMsg) (x : Item OwnedMsg) : Prop where
  calls : (fr.nextMany msgDecoder (ms.length + 1) s).1 = ms.map .item ++ [x]
  stop : ∀ m, x ≠ .item m

end WS
