import Verif.Model.Dialogue
/-!
# Two programs and a network with little room

In Model/Dialogue the network holds any number of bytes. A real one holds what fits in the socket buffers, and

* `write_all` (websocket-base/src/ws/dataframe.rs:53-92, one call for a whole frame) does not return, and a `flush` of the sink stays
  "not ready" (tokio-codec `FramedWrite::poll_complete`), until all but what fits has been taken by the peer;
* bytes are taken by the peer only inside its receiving calls, blocking (src/client/sync.rs:192-194) or async.

A send is recorded when it begins; the program's next turn comes when it has returned. Simplification: what is sent to a program that has done everything
on its list is taken off the network.
-/

namespace WS

/-- How many bytes the network holds, from the client to the server and back. -/
structure Room where
  up : Nat
  down : Nat
  deriving DecidableEq, Repr

/-- The program is in no send: what it has written and the peer has not taken fits in the network. -/
def Party.free (room : Nat) (p : Party) : Bool := decide (p.transit.length ≤ room)

/-- It is in a receiving call, or it is done. -/
def Party.takes (room : Nat) (p : Party) : Bool :=
  p.free room && match p.todo with
    | .say _ _ _ :: _ => false
    | _ => true

/-- Whether something can happen. -/
def Dialogue.allows (r : Room) (d : Dialogue) : Happens → Bool
  | .act .client => d.client.free r.up
  | .act .server => d.server.free r.down
  | .carry .client _ => d.server.takes r.down
  | .carry .server _ => d.client.takes r.up

/-- What cannot happen does not. -/
def Dialogue.tight (r : Room) (d : Dialogue) (e : Happens) : Dialogue := if d.allows r e = true then d.step e else d

def Dialogue.runTight (r : Room) (d : Dialogue) (es : List Happens) : Dialogue := es.foldl (Dialogue.tight r) d

end WS
