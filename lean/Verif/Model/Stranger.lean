import Verif.Model.Adaptive
/-!
# A program and a peer that does as it likes

In Model/Adaptive both ends of the connection use the library. Here one end is a program that does (`Actor`), and at the other there is anybody at all: what happens to the program
is that it gets a turn, that bytes come in, of whatever kind and cut in whatever way, or that the end of the stream does. What the peer sends may depend on what the program has written, on the
time, or on anything else: the list says what it did send.

Simplifications: those of Model/Adaptive; the transport does not fail while it is read from.
-/

namespace WS

/-- What can happen next to a program that uses the library's calls (src/client/sync.rs:162-194; the Stream and Sink of websocket-base/src/codec/ws.rs:271-344). -/
inductive Brings
  /-- the program takes a turn -/
  | turn
  /-- these bytes arrive -/
  | bytes (b : Bytes)
  /-- the peer has closed its side of the connection -/
  | finish
  deriving DecidableEq, Repr

/-- One thing happens to a program. Nothing comes behind the end of the stream. What has come waits in the transport until a call reads it (src/receiver.rs:119-124; `Framed` for async clients). -/
def Actor.meets (a : Actor) : Brings → Actor
  | .turn => a.act
  | .bytes b =>
    if a.party.ended = true ∨ b = [] then a else { a with party := { a.party with arrived := a.party.arrived ++ [.chunk b] } }
  | .finish => { a with party := { a.party with ended := true } }

/-- What has become of a program after all that. -/
def Actor.endures (a : Actor) (es : List Brings) : Actor := es.foldl Actor.meets a

end WS
