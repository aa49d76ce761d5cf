import Verif.Spec.Echo
import Verif.Spec.AbsMsg
import Verif.Model.Chat
/-!
# What the chat client should say
-/

namespace WS.Spec

/-- What a line asks for. -/
def lineSays (line : List UInt8) : Message :=
  if line = ascii "/close" then .close
  else if line = ascii "/ping" then .ping (ascii "PING")
  else .text line

/-- A ping is answered with its payload, a close with a close (RFC 6455 sections 5.5.1, 5.5.2); anything else asks for
no answer. -/
def Message.answer : Message → Option Message
  | .ping b => some (.pong b)
  | .close => some .close
  | .closeWith _ _ => some .close
  | _ => none

end WS.Spec

namespace WS

/-- What a result of the receive call asks for: an error ends the conversation. -/
def resAnswer : Res OwnedMsg → Option Spec.Message
  | .ok m => m.spec.answer
  | .err _ => some .close
  | .panic _ => none

/-- What one thread has put into the channel. -/
def saidBy (t : Thread) (log : List (Thread × OwnedMsg)) : List Spec.Message :=
  (log.filter fun e => e.1 = t).map fun e => e.2.spec

end WS
