import Verif.Model.Adaptive
import Verif.Spec.Dialogue
import Verif.Spec.Send
import Verif.Spec.AbsMsg
/-!
# How two programs that choose as they go can get on with each other

Two programs and what has happened to each. Nothing here knows about bytes, frames, masking, schedules or the way the
network cuts the stream.
-/

namespace WS

/-- The messages among what has happened to a program that it has sent, in order. -/
def saidIn : List Event → List OwnedMsg
  | [] => []
  | .said m _ :: es => m :: saidIn es
  | .heard _ :: es => saidIn es

/-- How often it has listened. -/
def hearsIn : List Event → Nat
  | [] => 0
  | .said _ _ :: es => hearsIn es
  | .heard _ :: es => hearsIn es + 1

/-- To the program `mine`, after `a`, with `b` the past of its peer `theirs`, the next thing to happen can be `e`: it sends, and that succeeds; or it listens, and hears the
message of its peer it is to hear next; or it listens, has heard all its peer has to say, and hears the end. -/
def Next (mine theirs : Plan) (a b : List Event) (e : Event) : Prop :=
  (∃ m, mine a = some (.say m) ∧ e = .said m true) ∨
    (mine a = some .hear ∧
      ((∃ m, (saidIn b)[hearsIn a]? = some m ∧ e = .heard (.message m)) ∨
        ((saidIn b).length ≤ hearsIn a ∧ theirs b = none ∧ e = .heard .ended)))

/-- What can have happened to two programs. -/
inductive Unfold (cp sp : Plan) : List Event → List Event → Prop
  | start : Unfold cp sp [] []
  | client {a b e} : Unfold cp sp a b → Next cp sp a b e → Unfold cp sp (a ++ [e]) b
  | server {a b e} : Unfold cp sp a b → Next sp cp b a e → Unfold cp sp a (b ++ [e])

/-- Whatever the programs come to say, the other side can take: the server frames of up to `ls` bytes, the client of up to `lc`. -/
structure Speakable (cp sp : Plan) (lc ls : Nat) : Prop where
  client : ∀ {a b m}, Unfold cp sp a b → cp a = some (.say m) → m.spec.Sendable ls
  server : ∀ {a b m}, Unfold cp sp a b → sp b = some (.say m) → m.spec.Sendable lc

/-- The program has ended, or it listens, has heard all its peer has said, and its peer has not ended. -/
def Rests (mine theirs : Plan) (a b : List Event) : Prop :=
  mine a = none ∨ (mine a = some .hear ∧ (saidIn b).length ≤ hearsIn a ∧ theirs b ≠ none)

/-- One list of events goes on from the other. -/
def Agree (a b : List Event) : Prop := a <+: b ∨ b <+: a

/-- The messages a program has been given, in order. -/
def gotIn : List Event → List OwnedMsg
  | [] => []
  | .heard (.message m) :: es => m :: gotIn es
  | _ :: es => gotIn es

/-- What examples/server.rs:32-44 answers to a message. -/
def answerTo : OwnedMsg → OwnedMsg
  | .close _ => .close none
  | .ping b => .pong b
  | m => m

/-- The messages up to the first close, the close included. -/
def throughClose : List OwnedMsg → List OwnedMsg
  | [] => []
  | .close c :: _ => [.close c]
  | m :: ms => m :: throughClose ms

/-- All that a client that says `ms` ever gets to hear from examples/server.rs. -/
def greetedReplies (ms : List OwnedMsg) : List OwnedMsg := .text (ascii "Hello") :: (throughClose ms).map answerTo

end WS
