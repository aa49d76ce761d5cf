import Verif.Model.Adaptive
import Verif.Model.Meeting
/-!
# Programs that choose, from before the handshake

Model/Meeting begins with two bare transports and two programs that have lists of calls; Model/Adaptive with an open connection and two programs that
choose. Here two programs that choose begin with bare transports: one connects, the other accepts, and then they
talk. All functions called are those of the two modules, and so are the simplifications.
-/

namespace WS

/-- A program that is being run, with or without a connection. -/
structure Visitor where
  plan : Plan
  /-- what `gen_mask` (websocket-base/src/ws/util/mask.rs:42-44) returns during the `n`-th call after the handshake -/
  keys : Nat → Key4
  /-- the allocator's generosity during that call -/
  extra : Nat → Nat
  /-- the calls that have returned, after the handshake -/
  past : List Event
  agent : Agent

/-- A program that has its connection. -/
def Actor.visitor (a : Actor) : Visitor := ⟨a.plan, a.keys, a.extra, a.past, .talking a.party⟩

/-- One turn of a program: `connect_on`, `async_connect_on`, or `into_ws` and `accept` (Model/Meeting), or a call on the open connection. -/
def Visitor.act [B64] (preq : ReqParser) (pres : ResParser) (v : Visitor) : Visitor :=
  match v.agent with
  | .talking p => (Actor.act ⟨v.plan, v.keys, v.extra, v.past, p⟩).visitor
  | .opening l => { v with agent := l.act preq pres }
  | .failed l => { v with agent := .failed l }

structure Encounter where
  client : Visitor
  server : Visitor

/-- One step of the two programs and the network between them. -/
def Encounter.step [B64] (preq : ReqParser) (pres : ResParser) (m : Encounter) : Happens → Encounter
  | .act .client => { m with client := m.client.act preq pres }
  | .act .server => { m with server := m.server.act preq pres }
  | .carry .client n =>
    match Agent.carry n m.client.agent m.server.agent with
    | (c, s) => ⟨{ m.client with agent := c }, { m.server with agent := s }⟩
  | .carry .server n =>
    match Agent.carry n m.server.agent m.client.agent with
    | (s, c) => ⟨{ m.client with agent := c }, { m.server with agent := s }⟩

def Encounter.run [B64] (preq : ReqParser) (pres : ResParser) (m : Encounter) (hs : List Happens) : Encounter := hs.foldl (Encounter.step preq pres) m

/-- The first call of a program. -/
def firstCall (plan : Plan) (keys : Nat → Key4) (extra : Nat → Nat) : List Talk :=
  match plan [] with
  | none => []
  | some (.say m) => [.say m (keys 0) (extra 0)]
  | some .hear => [.hear]

/-- A program before it opens its connection; `w` is the output of its transport. -/
def Visitor.start (plan : Plan) (keys : Nat → Key4) (extra : Nat → Nat) (how : Opening) (w : Sink) : Visitor :=
  ⟨plan, keys, extra, [], Agent.start how (firstCall plan keys extra) w⟩

end WS
