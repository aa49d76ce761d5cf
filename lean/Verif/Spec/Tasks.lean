import Verif.Spec.Live
import Verif.Spec.Tight
import Verif.Model.Tasks
/-!
# What examples/async-client.rs and examples/async-server.rs should say to each other, and how they can be stuck
-/

namespace WS.Spec

/-- What the user of the async client sees when the async server has heard `ms`. -/
def asyncScreen (ms : List Message) : List Message := .text (ascii "Hello World!") :: ms.map Message.back

end WS.Spec

namespace WS

/-- What the conversation needs: lines are text that both sides take in one frame, and the client takes the greeting. -/
structure Suiting (lines : List Bytes) (lc ls : Nat) : Prop where
  up : ∀ l ∈ lines, (Spec.Message.text l).Sendable ls
  down : ∀ l ∈ lines, (Spec.Message.text l).Sendable lc
  hello : 12 ≤ lc

/-- Everybody moves again and again, and finds that the network carries something. -/
def FairMoves (f : Nat → Move) : Prop :=
  ∀ n, (∃ m, n ≤ m ∧ f m = .type) ∧ (∃ m i k, n ≤ m ∧ f m = .chat (i + 1) (k + 1)) ∧ ∃ m i k, n ≤ m ∧ f m = .serve (i + 1) (k + 1)

/-- The payload of what is sent for a line, and of what is answered to it. -/
def lineSize (l : Bytes) : Nat := if l = ascii "/close" then 0 else if l = ascii "/ping" then 4 else l.length

/-- Both wait for the other to read: the network is full both ways, the client holds a message that its sink does not take, and so does the server, or it has
not got rid of its greeting. -/
def Tandem.Stuck (r : Room) (x : Tandem) : Prop :=
  (∃ m, x.chat.phase = .forward (some m)) ∧ 8192 ≤ x.chat.out.sink.buf.data.length ∧ r.up ≤ x.upTransit.length ∧ r.down ≤ x.downTransit.length ∧
    ((∃ m, x.server.phase = .forward (some m)) ∧ 8192 ≤ x.server.out.sink.buf.data.length ∨ x.server.phase = .greeting ∧ x.server.out.sink.buf.data ≠ [])

end WS
