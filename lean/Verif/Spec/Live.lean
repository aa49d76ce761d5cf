import Verif.Spec.Chat
import Verif.Spec.Send
import Verif.Model.Live
/-!
# What examples/client.rs and examples/server.rs should say to each other

Nothing here knows about bytes.
-/

namespace WS.Spec

/-- What the server says to what it hears. -/
def Message.back : Message → Message
  | .ping b => .pong b
  | .closeWith _ _ => .close
  | m => m

/-- What the user sees when the server has heard `ms`. -/
def screen (ms : List Message) : List Message := .text (ascii "Hello") :: ms.map Message.back

end WS.Spec

namespace WS

/-- What the conversation needs: lines are text that both sides take in one frame, and the client takes the greeting. -/
structure Fitting (lines : List Bytes) (lc ls : Nat) : Prop where
  up : ∀ l ∈ lines, (Spec.Message.text l).Sendable ls
  down : ∀ l ∈ lines, (Spec.Message.text l).Sendable lc
  hello : 5 ≤ lc

/-- Everybody moves again and again. -/
def FairBeat (f : Nat → Beat) : Prop :=
  ∀ n, (∀ t, ∃ m, n ≤ m ∧ f m = .turn t) ∧ (∃ m, n ≤ m ∧ f m = .serve) ∧ (∃ m k, n ≤ m ∧ f m = .up k) ∧ ∃ m k, n ≤ m ∧ f m = .down k

end WS
