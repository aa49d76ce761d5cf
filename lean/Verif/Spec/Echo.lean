import Verif.Spec.Send
import Verif.Model.Talk
/-!
# What an echo program should do
-/

namespace WS.Spec

def Message.isClose : Message → Bool
  | .close => true
  | .closeWith _ _ => true
  | _ => false

/-- Data comes back, a ping is answered with its payload (RFC 6455 section 5.5.2-5.5.3), a pong asks for
nothing. -/
def Message.reply : Message → Option Message
  | .text s => some (.text s)
  | .binary b => some (.binary b)
  | .ping b => some (.pong b)
  | _ => none

/-- The same, except that a pong comes back too. -/
def Message.reflect : Message → Option Message
  | .pong b => some (.pong b)
  | m => m.reply

/-- What an echo program has to say to a peer that says `ms` and then nothing more: the replies to
everything before the first close, and one close. -/
def echoes (ms : List Message) : List Message :=
  (ms.takeWhile fun m => !m.isClose).filterMap Message.reply ++ [.close]

/-- The bytes are frames, each carrying one whole message: these ones, in this order. -/
def Says (masked : Bool) (ms : List Message) (bs : List UInt8) : Prop :=
  ∃ fs : List Frame, Wire masked fs bs ∧ fs.length = ms.length ∧ ∀ p ∈ fs.zip ms, Carries p.1 p.2

end WS.Spec

namespace WS

/-- The receive calls yield the messages `ms`, none of them a close, and then `x`, which is a close or no
message. -/
structure Hears (r : Receiver) (s : Src) (ms : List OwnedMsg) (x : Res OwnedMsg) : Prop where
  calls : (r.recvMany (ms.length + 1) s).1 = ms.map Res.ok ++ [x]
  open_ : ∀ m ∈ ms, m.isClose = false
  stop : ∀ m, x = .ok m → m.isClose = true

/-- The stream yields the messages `ms`, none of them a close, and then `x`, which is a close or no message. -/
structure AHears (fr : Framed MsgCodec) (s : Src) (ms : List OwnedMsg) (x : Item OwnedMsg) : Prop where
  calls : (fr.nextMany msgDecoder (ms.length + 1) s).1 = ms.map Item.item ++ [x]
  open_ : ∀ m ∈ ms, m.isClose = false
  stop : ∀ m, x = .item m → m.isClose = true

end WS
