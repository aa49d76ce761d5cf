import Verif.Model.Dialogue
/-!
# Programs that decide what to do next by what they have heard

In Model/Dialogue a program is a list of calls fixed beforehand. Real programs choose: `examples/server.rs:29-45` looks at every message
and sends a pong, a close or the message itself. Here a program is a function from everything that has happened to it so far (what it has
sent, and with what result; what it has been told by its receiving calls) to the next call of the library, or to
the end. The calls themselves are those of Model/Dialogue (`Party.act`: `send_message` and `recv_message`, src/client/sync.rs:162-167 and
192-194, or the sink and the stream of an async client), and so is the network.

Simplifications: those of Model/Dialogue; the function says nothing about time, so a program that looks at the clock or
at a second connection is not covered; masking keys come from a stream of their own (`gen_mask`, websocket-base/src/ws/util/mask.rs:42-44,
does not look at what the program has seen).
-/

namespace WS

/-- A call of the library. -/
inductive Deed
  /-- `send_message` (src/client/sync.rs:162-167), or `sink.send(m)` awaited -/
  | say (m : OwnedMsg)
  /-- `recv_message` (src/client/sync.rs:192-194), or the next item of the stream awaited -/
  | hear
  deriving DecidableEq, Repr

/-- A call that has returned. -/
inductive Event
  /-- a send, and whether it returned `Ok` -/
  | said (m : OwnedMsg) (ok : Bool)
  /-- a receiving call, and what it returned -/
  | heard (h : Heard)
  deriving DecidableEq, Repr

/-- A program: what it does after what has happened; `none`, it ends and drops its client. -/
abbrev Plan := List Event → Option Deed

/-- A program that is being run. -/
structure Actor where
  plan : Plan
  /-- what `gen_mask` (websocket-base/src/ws/util/mask.rs:42-44) returns during the `n`-th call -/
  keys : Nat → Key4
  /-- the allocator's generosity during that call -/
  extra : Nat → Nat
  /-- the calls that have returned -/
  past : List Event
  /-- its client; `todo` is the call it is in -/
  party : Party

/-- The call the program is in. -/
def Actor.call (a : Actor) : List Talk :=
  match a.plan a.past with
  | none => []
  | some (.say m) => [.say m (a.keys a.past.length) (a.extra a.past.length)]
  | some .hear => [.hear]

/-- The program turns to its next call. -/
def Actor.turn (a : Actor) : Actor := { a with party := { a.party with todo := a.call } }

/-- What has happened when a call returns. -/
def Deed.event (d : Deed) (p : Party) : Event :=
  match d with
  | .say m => .said m (p.sent.getLast?.getD false)
  | .hear => .heard (p.heard.getLast?.getD .failed)

/-- One turn of a program: the call it is in returns, or goes on waiting. -/
def Actor.act (a : Actor) : Actor :=
  match a.plan a.past with
  | none => a
  | some d =>
    if a.party.act.todo.isEmpty then Actor.turn { a with past := a.past ++ [d.event a.party.act], party := a.party.act }
    else { a with party := a.party.act }

structure Duet where
  client : Actor
  server : Actor

/-- One step of the two programs and the network between them. -/
def Duet.step (d : Duet) : Happens → Duet
  | .act .client => { d with client := d.client.act }
  | .act .server => { d with server := d.server.act }
  | .carry .client n =>
    match carry n d.client.party d.server.party with
    | (c, s) => ⟨{ d.client with party := c }, { d.server with party := s }⟩
  | .carry .server n =>
    match carry n d.server.party d.client.party with
    | (s, c) => ⟨{ d.client with party := c }, { d.server with party := s }⟩

def Duet.run (d : Duet) (hs : List Happens) : Duet := hs.foldl Duet.step d

/-- The program on a client that has just been handed over. -/
def Actor.start (plan : Plan) (keys : Nat → Key4) (extra : Nat → Nat) (p : Party) : Actor := Actor.turn ⟨plan, keys, extra, [], p⟩

/-- examples/server.rs:24-45, the thread of one client, as a program of this kind: greet; then receive, answer a close with a close and return, a ping with
a pong, anything else with itself. A call that returns an error ends the thread (`unwrap`). -/
def serverPlan : Plan := fun past =>
  match past.getLast? with
  | none => some (.say (.text (ascii "Hello")))
  | some (.said (.close _) _) => none
  | some (.said _ ok) => if ok then some .hear else none
  | some (.heard (.message (.close _))) => some (.say (.close none))
  | some (.heard (.message (.ping b))) => some (.say (.pong b))
  | some (.heard (.message m)) => some (.say m)
  | some (.heard _) => none

end WS
